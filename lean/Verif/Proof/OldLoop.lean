import Verif.Proof.OldSim
import Verif.Proof.SimDrift
import Verif.Props.OldRobot
import Verif.Props.OldTrack
import Verif.Props.OldSim
/-!
# The former robot in the former simulator, one lap
-/
namespace Verif.Proof.OldY
open Verif Verif.Spec Verif.Old.Sim Verif.Old.Robot Verif.Old.Manager Verif.Proof.OldV Verif.Proof.OldX Verif.Props
open Verif.Old.Detect hiding State
open Verif.Detect (Pose)

/-- Many laps, by an invariant that counts them. -/
theorem drives_of {S : Rig} {pi : ℝ} (Inv : Nat → Inner → Robot → Prop) (P : Control.Target × List Mounted → Prop) (Q : ℝ → ℝ → Prop)
    (hstep : ∀ n w r x, P x → Inv n w r → ∃ inputs r1 a b res, S.inputs w.step x.2 = .ok inputs ∧
      r.trackAndUpdate exact pi S.conv S.W ⟨sensed (measures w.step S.wheel), x.1, inputs⟩ = .ok (r1, [.left (.fin a), .right (.fin b)], res) ∧
      Inv (n + 1) ((w.step.motor S.max .left a).motor S.max .right b) r1 ∧ Q a b) :
    ∀ (l : List (Control.Target × List Mounted)), (∀ x ∈ l, P x) → ∀ n w r, Inv n w r →
      ∃ w' r' vs, Drives S pi w r l w' r' vs ∧ Inv (n + l.length) w' r' ∧ vs.length = l.length ∧ ∀ p ∈ vs, Q p.1 p.2
  | [], _, n, w, r, h => ⟨w, r, [], .nil w r, h, rfl, by simp⟩
  | x :: l, hP, n, w, r, h => by
    obtain ⟨inputs, r1, a, b, res, h1, h2, h3, h4⟩ := hstep n w r x (hP x (List.mem_cons_self ..)) h
    obtain ⟨w', r', vs, k1, k2, k3, k4⟩ := drives_of Inv P Q hstep l (fun y hy => hP y (List.mem_cons_of_mem _ hy)) (n + 1) _ r1 h3
    refine ⟨w', r', (a, b) :: vs, .lap _ _ _ _ _ _ _ _ _ _ _ _ _ h1 h2 k1, ?_, by simp [k3], ?_⟩
    · rw [List.length_cons, show n + (l.length + 1) = n + 1 + l.length by omega]; exact k2
    · intro p hp
      rcases List.mem_cons.1 hp with rfl | hp
      · exact h4
      · exact k4 p hp

/-- A tracker made from the settings that has met numbers only; `rs` is the sum of the errors of the turn rate. -/
def Tracks (c : Settings) (rs : ℝ) (k : Old.Robot.Tracker) : Prop :=
  ∃ xi ts, k = ⟨c.gain, c.dgain, .fin xi, c.period, c.lowerBound, ⟨⟨.fin ts, c.trans, c.period⟩, ⟨.fin rs, c.rot, c.period⟩, c.failSafe⟩, c.lowZeta, c.lowB⟩

theorem tracks_new (c : Settings) : Tracks c 0 (.construct c) := ⟨0, 0, rfl⟩

/-- The tracker on numbers. -/
theorem track_num {c : Settings} (hc : Steerable c) {rs : ℝ} {k : Old.Robot.Tracker} (h : Tracks c rs k) (pi : ℝ) (s : Control.State) (sx sy : ℝ) (t : Control.Target) :
    ∃ k' rs' a b res, k.track exact pi (robotAt s sx sy) t = (k', [.left (.fin a), .right (.fin b)], res) ∧ Tracks c rs' k' ∧
      (0 ≤ c.failSafe → |a| ≤ c.failSafe ∧ |b| ≤ c.failSafe) := by
  obtain ⟨xi, ts, rfl⟩ := h
  have href := C103_newer pi ⟨c.gain, c.dgain, .fin xi, c.period, c.lowerBound, ⟨⟨.fin ts, c.trans, c.period⟩, ⟨.fin rs, c.rot, c.period⟩, c.failSafe⟩, c.lowZeta, c.lowB⟩ rfl
    hc.bound hc.b s sx sy t
  dsimp only at href
  generalize (newerTracker _ xi).track .real pi s t _ = n at href
  obtain ⟨ctl, hctl⟩ : ∃ ctl, ctl = Old.Robot.Controller.control exact ⟨⟨.fin ts, c.trans, c.period⟩, ⟨.fin rs, c.rot, c.period⟩, c.failSafe⟩ (inF n.2.1) (inF n.2.2) := ⟨_, rfl⟩
  obtain ⟨vt, hvt⟩ : ∃ vt, vt = (c.trans.modelT1 * n.2.1.a + n.2.1.v) / c.trans.modelK + c.trans.kp * (n.2.1.v - n.2.2.v) + c.trans.kd * (n.2.1.a - n.2.2.a) + c.trans.ki * ts := ⟨_, rfl⟩
  obtain ⟨vr, hvr⟩ : ∃ vr, vr = (c.rot.modelT1 * n.2.1.alpha + n.2.1.omega) / c.rot.modelK + c.rot.kp * (n.2.1.omega - n.2.2.omega) + c.rot.kd * (n.2.1.alpha - n.2.2.alpha) + c.rot.ki * rs :=
    ⟨_, rfl⟩
  obtain ⟨h1, h2, h3⟩ := control_eq (c := ⟨⟨.fin ts, c.trans, c.period⟩, ⟨.fin rs, c.rot, c.period⟩, c.failSafe⟩) hc.trans hc.rot rfl rfl n.2.1 n.2.2 hvt hvr
  rw [← hctl] at h1 h2 h3
  have htr : Old.Robot.Tracker.track exact pi ⟨c.gain, c.dgain, .fin xi, c.period, c.lowerBound, ⟨⟨.fin ts, c.trans, c.period⟩, ⟨.fin rs, c.rot, c.period⟩, c.failSafe⟩, c.lowZeta, c.lowB⟩
      (robotAt s sx sy) t = (⟨c.gain, c.dgain, .fin n.1.xi, c.period, c.lowerBound, ctl.1, c.lowZeta, c.lowB⟩, ctl.2) := by
    unfold Old.Robot.Tracker.track
    rw [href]
    simp only [hctl]
  rw [htr, h1]
  by_cases hsafe : |vt - vr| ≤ c.failSafe ∧ |vt + vr| ≤ c.failSafe
  · rw [h2 hsafe]
    exact ⟨_, _, _, _, _, rfl, ⟨_, _, rfl⟩, fun _ => hsafe⟩
  · rw [h3 (by rw [not_and_or, not_le, not_le] at hsafe; exact hsafe)]
    exact ⟨_, _, _, _, _, rfl, ⟨_, _, rfl⟩, fun h => by simpa using h⟩

variable {S : Rig} {see : Pose → Option Seen} {real : Old.Wall → Bool} {c : Settings}

/-- A robot on board of the simulator, all of whose values are numbers. -/
structure Aboard (S : Rig) (see : Pose → Option Seen) (real : Old.Wall → Bool) (c : Settings) (w : Inner) (r : Robot) (α v b : ℝ) (s : Control.State) (sx sy rs : ℝ) : Prop where
  fits : S.Fits see real c w
  knows : Knows r.estimator α v b s sx sy
  still : r.estimator.devDelta = 0
  period : r.estimator.period = c.period
  tracks : Tracks c rs r.tracker
  mem : ∃ g, Remembers S.W r.detector g ∧ Chances S.W g

theorem fits_next {w : Inner} (h : S.Fits see real c w) (a b : ℝ) : S.Fits see real c ((w.step.motor S.max .left a).motor S.max .right b) :=
  ⟨h.width, h.sees, h.built, h.period, h.limit, (clamp_abs h.limit w.step).2, (clamp_abs h.limit _).1⟩

/-- One lap. -/
theorem one_lap (hc : Steerable c) {w : Inner} {r : Robot} {α v b : ℝ} {s : Control.State} {sx sy rs : ℝ} (h : Aboard S see real c w r α v b s sx sy rs) (pi : ℝ)
    {x : Control.Target × List Mounted} (hx : FairLap S.W x) :
    let m := measures w.step S.wheel
    let v1 := (newer r.estimator α v b).nextVel m
    let b1 := (newer r.estimator α v b).nextSlip v1 m.omega
    let s1 := next r.estimator.period r.estimator.approxTh v1 b1 s m
    ∃ inputs r1 u u' res s2 sx2 sy2 rs2, S.inputs w.step x.2 = .ok inputs ∧
      r.trackAndUpdate exact pi S.conv S.W ⟨sensed m, x.1, inputs⟩ = .ok (r1, [.left (.fin u), .right (.fin u')], res) ∧
      r.tracker.track exact pi (robotAt s1 sx sy) x.1 = (r1.tracker, [.left (.fin u), .right (.fin u')], res) ∧
      Aboard S see real c ((w.step.motor S.max .left u).motor S.max .right u') r1 α v1 b1 s2 sx2 sy2 rs2 ∧ s2.theta = s1.theta ∧
      |sx2| + |sy2| ≤ |sx| + |sy| ∧ (0 ≤ c.failSafe → |u| ≤ c.failSafe ∧ |u'| ≤ c.failSafe) ∧
      (sx = 0 → sy = 0 → s2 = s1 ∧ sx2 = 0 ∧ sy2 = 0 ∧ r1.estimator.approxTh = r.estimator.approxTh ∧ r1.estimator.slipConst = r.estimator.slipConst) := by
  intro m v1 b1 s1
  obtain ⟨e, k, d⟩ := r
  obtain ⟨g, hd, hch⟩ := h.mem
  obtain ⟨hn, hf⟩ := hx
  let q : Round := ⟨m, x.1, x.2.map fun m => m.look S.copy see real w.step.current⟩
  have hq : q.Fair S.W := by
    refine ⟨by simpa [q] using hn, fun l hl => ?_⟩
    obtain ⟨m', hm', rfl⟩ := List.mem_map.1 hl
    exact look_fair (hf m' hm')
  obtain ⟨e1, v1', b1', s1', k1, deed, hp, hk, hk1, hδ1, ht1, hT1, e2, d2, g2, s2, sx2, sy2, hr, hk2, hδ2, hT2, hd2, hc2, ht2, hdev, hzero, -, -⟩ :=
    tick_eq h.fits.width h.fits.sees pi h.knows h.still k hd hch hq
  have hp' := poll_eq h.knows m
  have ha := after_knows h.knows m
  rw [hp'] at hp
  cases hp
  rw [h.still, add_zero, add_zero] at ha
  obtain ⟨rfl, rfl, rfl, -, -⟩ := knows_unique ha hk1
  obtain ⟨k2, rs2, u, u', res, t1, t2, t3⟩ := track_num hc h.tracks pi s1 sx sy x.1
  have hst : (after e α v b s sx sy m).state = robotAt s1 sx sy := ha.state
  rw [hst] at hk
  have hk' := hk
  rw [show q.target = x.1 from rfl] at hk'
  have t1' : k.track exact pi (robotAt s1 sx sy) x.1 = (k2, [.left (.fin u), .right (.fin u')], res) := t1
  rw [t1'] at hk'
  simp only [Prod.mk.injEq] at hk'
  obtain ⟨rfl, rfl⟩ := hk'
  refine ⟨_, ⟨e2, k2, d2⟩, u, u', res, s2, sx2, sy2, rs2, inputs_eq S h.fits.sees h.fits.built w.step x.2, hr, t1',
    ⟨fits_next h.fits u u', hk2, hδ2, hT2.trans h.period, t2, g2, hd2, hc2⟩, ht2, hdev, t3, fun h1 h2 => ?_⟩
  have he := hzero h1 h2
  subst he
  obtain ⟨-, -, rfl, rfl, rfl⟩ := knows_unique ha hk2
  exact ⟨rfl, h1, h2, rfl, rfl⟩

end Verif.Proof.OldY
