import Verif.Proof.OldRobot
import Verif.Props.Tracking
import Verif.Proof.OldDetect
/-!
# C103: the former tracker
-/
namespace Verif.Props
open Verif Verif.Spec Verif.Old.Robot Verif.Proof.OldV
open Verif.Control (Params Target)

/-- The newer tracker with the same settings. -/
def newerTracker (k : Old.Robot.Tracker) (xi : ℝ) : Control.Tracker := ⟨xi, k.period, k.xiThreshold, k.zeta, k.b⟩

/-- The newer navigation with the same settings. -/
def newerNavigation (k : Old.Robot.Tracker) : Control.Navigation := ⟨k.gain, k.dgain⟩

/-- **C103, refinement.** On numbers, the former tracker computes what the newer navigation and tracker compute together: the same internal speed, the same reference and the
same measured values, whatever the standard deviations of the position. -/
theorem C103_newer (pi : ℝ) (k : Old.Robot.Tracker) {xi : ℝ} (hxi : k.xi = .fin xi) (hth : 0 ≤ k.xiThreshold) (hb : 0 ≤ k.b) (s : Control.State) (sx sy : ℝ) (t : Target) :
    let n := (newerTracker k xi).track .real pi s t ((newerNavigation k).navigate s t)
    k.reference exact pi (robotAt s sx sy) t = (.fin n.1.xi, inF n.2.1, inF n.2.2) := by
  classical
  intro n
  simp only [n]
  unfold Old.Robot.Tracker.reference Control.Tracker.track
  simp only [newerTracker, newerNavigation, Control.Navigation.navigate, robotAt, hxi, Control.Trig.real]
  have hr : ∀ x, exact.rnd x = .fin x := fun _ => rfl
  simp only [hr, exact_sub, exact_add, exact_mul, F.abs, F.lt, F.neg]
  by_cases h : k.xiThreshold < |t.x.v * Real.cos t.theta.x + t.y.v * Real.sin t.theta.x| ∧
      k.xiThreshold < |xi + k.period * ((t.x.a + k.dgain * (t.x.v - s.x.v) + k.gain * (t.x.x - s.x.x)) * Real.cos s.theta.x +
        (t.y.a + k.dgain * (t.y.v - s.y.v) + k.gain * (t.y.x - s.y.x)) * Real.sin s.theta.x)|
  · have hne := abs_pos.1 (hth.trans_lt h.2)
    simp only [if_pos h, exact_div hne, inF, exact_sub, exact_add, exact_mul, F.neg]
    erw [if_pos h]
  · have hsq : 0 ≤ t.theta.v * t.theta.v + k.b * (t.x.v * Real.cos t.theta.x + t.y.v * Real.sin t.theta.x) *
        (t.x.v * Real.cos t.theta.x + t.y.v * Real.sin t.theta.x) := by
      have : 0 ≤ k.b * ((t.x.v * Real.cos t.theta.x + t.y.v * Real.sin t.theta.x) * (t.x.v * Real.cos t.theta.x + t.y.v * Real.sin t.theta.x)) :=
        mul_nonneg hb (mul_self_nonneg _)
      nlinarith [mul_self_nonneg t.theta.v]
    simp only [if_neg h, inF, Proof.OldE.sqrt_eq hsq, exact_mul, exact_add]
    erw [if_neg h]

/-- **C103, request.** Above the threshold the reference makes a robot accelerate exactly as requested: by the acceleration of the target, corrected by the gains times the errors
of velocity and position. -/
theorem C103_realises (pi : ℝ) (k : Old.Robot.Tracker) {xi : ℝ} (hxi : k.xi = .fin xi) (hth : 0 ≤ k.xiThreshold) (hb : 0 ≤ k.b) (s : Control.State) (sx sy : ℝ) (t : Target) {ux uy : ℝ}
    (hux : ux = t.x.a + k.dgain * (t.x.v - s.x.v) + k.gain * (t.x.x - s.x.x)) (huy : uy = t.y.a + k.dgain * (t.y.v - s.y.v) + k.gain * (t.y.x - s.y.x))
    (hv : k.xiThreshold < |t.x.v * Real.cos t.theta.x + t.y.v * Real.sin t.theta.x|)
    (hx : k.xiThreshold < |xi + k.period * (ux * Real.cos s.theta.x + uy * Real.sin s.theta.x)|) :
    ∃ r y, k.reference exact pi (robotAt s sx sy) t = (.fin r.v, inF r, inF y) ∧
      r.a * Real.cos s.theta.x - r.v * r.omega * Real.sin s.theta.x = ux ∧ r.a * Real.sin s.theta.x + r.v * r.omega * Real.cos s.theta.x = uy ∧
      r.v = xi + k.period * r.a := by
  have h := C103_newer pi k hxi hth hb s sx sy t
  obtain ⟨h1, j, hf⟩ := C72_realises pi (newerTracker k xi) s t ((newerNavigation k).navigate s t) hth hv (by rw [hux, huy] at hx; exact hx) _ rfl
  refine ⟨((newerTracker k xi).track .real pi s t ((newerNavigation k).navigate s t)).2.1,
    ((newerTracker k xi).track .real pi s t ((newerNavigation k).navigate s t)).2.2, ?_, ?_, ?_, ?_⟩
  rotate_left 1
  · exact (hf.ax.symm.trans hux.symm)
  · exact (hf.ay.symm.trans huy.symm)
  · have : ((newerTracker k xi).track .real pi s t ((newerNavigation k).navigate s t)).2.1.a =
        ((newerNavigation k).navigate s t).ux * Real.cos s.theta.x + ((newerNavigation k).navigate s t).uy * Real.sin s.theta.x := by
      unfold Control.Tracker.track
      rw [hux, huy] at hx
      simp only [Control.Trig.real]
      erw [if_pos ⟨hv, hx⟩]
    rw [← h1, this]
    rfl
  · rw [← h1]
    exact h

/-- A state that is exactly on its target. -/
noncomputable def onTarget (t : Target) (sx sy : ℝ) : RobotState :=
  robotAt ⟨⟨t.x.x, t.x.v, t.x.a⟩, ⟨t.y.x, t.y.v, t.y.a⟩, ⟨t.theta.x, t.theta.v, t.theta.a⟩⟩ sx sy

/-- A moment of a motion: the target, its speed, acceleration and jerk along its heading, and the standard deviations of the estimate. -/
structure Moment where
  target : Target
  v : ℝ
  a : ℝ
  j : ℝ
  sx : ℝ
  sy : ℝ

/-- The speeds fit the accelerations, one period after the other. -/
def Fits (T : ℝ) : ℝ → List Moment → Prop
  | _, [] => True
  | v0, m :: rest => Feasible m.target m.v m.a m.j ∧ m.v = v0 + T * m.a ∧ Fits T m.v rest

/-- The voltages of the feed-forward alone. -/
noncomputable def feedForward (p q : Params) (m : Moment) : ℝ × ℝ :=
  let vt := (p.modelT1 * m.a + m.v) / p.modelK
  let vr := (q.modelT1 * m.target.theta.a + m.target.theta.v) / q.modelK
  (vt - vr, vt + vr)

theorem on_target_reference {pi : ℝ} (hpi : 0 < pi) {k : Old.Robot.Tracker} {xi : ℝ} (hxi : k.xi = .fin xi) (hth : 0 ≤ k.xiThreshold) (hb : 0 ≤ k.b) {m : Moment}
    (hf : Feasible m.target m.v m.a m.j) (hv : m.v = xi + k.period * m.a) :
    k.reference exact pi (onTarget m.target m.sx m.sy) m.target =
      (.fin m.v, inF ⟨m.v, m.a, m.target.theta.v, m.target.theta.a⟩, inF ⟨m.v, m.a, m.target.theta.v, m.target.theta.a⟩) := by
  obtain ⟨t, v, a, j, sx, sy⟩ := m
  simp only at hf hv ⊢
  have h := C103_newer pi k hxi hth hb ⟨⟨t.x.x, t.x.v, t.x.a⟩, ⟨t.y.x, t.y.v, t.y.a⟩, ⟨t.theta.x, t.theta.v, t.theta.a⟩⟩ sx sy t
  rw [C52_navigate _ _ t rfl] at h
  unfold onTarget
  refine h.trans ?_
  have hcs := Real.sin_sq_add_cos_sq t.theta.x
  have e1 : t.x.v * Real.cos t.theta.x + t.y.v * Real.sin t.theta.x = v := by
    rw [hf.vx, hf.vy]; linear_combination v * hcs
  have e2 : t.x.a * Real.cos t.theta.x + t.y.a * Real.sin t.theta.x = a := by
    rw [hf.ax, hf.ay]; linear_combination a * hcs
  by_cases hlow : k.xiThreshold < |v|
  · rw [C52_high pi (newerTracker k xi) _ t v a j rfl hf hth hlow hv.symm]
  · have hl := C52_low .real Real.cos_zero pi hpi (newerTracker k xi) ⟨⟨t.x.x, t.x.v, t.x.a⟩, ⟨t.y.x, t.y.v, t.y.a⟩, ⟨t.theta.x, t.theta.v, t.theta.a⟩⟩ t
      ⟨t.x.a, t.y.a, t.x.j, t.y.j⟩ rfl (.inl (by simp only [Control.Trig.real]; rw [e1]; exact not_lt.1 hlow))
    rw [hl.2, hl.1]
    simp only [Control.Trig.real, e1, e2]
    have : ((newerTracker k xi).track ⟨Real.sin, Real.cos⟩ pi ⟨⟨t.x.x, t.x.v, t.x.a⟩, ⟨t.y.x, t.y.v, t.y.a⟩, ⟨t.theta.x, t.theta.v, t.theta.a⟩⟩ t
        ⟨t.x.a, t.y.a, t.x.j, t.y.j⟩).1.xi = v := by
      show xi + k.period * (t.x.a * Real.cos t.theta.x + t.y.a * Real.sin t.theta.x) = v
      rw [e2, hv]
    rw [this]

/-- **C103, on target.** If the robot is exactly on its target all the time, the targets are a motion along their own heading that starts from rest, and the speeds fit the accelerations, then
at every call the voltages are those of the feed-forward alone, below and above the threshold of the speed alike: gains, thresholds and deviations do not matter. They are applied
as long as the fail-safe allows. -/
theorem C103_on_target {pi : ℝ} (hpi : 0 < pi) {c : Settings} (hth : 0 ≤ c.lowerBound) (hb : 0 ≤ c.lowB) (hp : c.trans.modelK ≠ 0) (hq : c.rot.modelK ≠ 0) (l : List Moment)
    (hl : Fits c.period 0 l) :
    List.Forall₂ (fun m deed => Safely c.failSafe (feedForward c.trans c.rot m).1 (feedForward c.trans c.rot m).2 deed) l
      (steer exact pi (l.map fun m => (onTarget m.target m.sx m.sy, m.target)) (.construct c)).2 := by
  have main : ∀ (l : List Moment) (k : Old.Robot.Tracker) (xi : ℝ), k.xi = .fin xi → k.xiThreshold = c.lowerBound → k.b = c.lowB → k.period = c.period →
      k.controller = .new c.trans c.rot c.period c.failSafe → Fits c.period xi l →
      List.Forall₂ (fun m deed => Safely c.failSafe (feedForward c.trans c.rot m).1 (feedForward c.trans c.rot m).2 deed) l
        (steer exact pi (l.map fun m => (onTarget m.target m.sx m.sy, m.target)) k).2 := by
    intro l
    induction l with
    | nil => intro k xi _ _ _ _ _ _; exact .nil
    | cons m l ih =>
      intro k xi h1 h2 h3 h4 h5 ⟨f1, f2, f3⟩
      have href := on_target_reference hpi h1 (by rw [h2]; exact hth) (by rw [h3]; exact hb) f1 (by rw [h4]; exact f2)
      have hctl := control_eq (c := .new c.trans c.rot c.period c.failSafe) (ts := 0) (rs := 0) (T := c.period) hp hq rfl rfl
        ⟨m.v, m.a, m.target.theta.v, m.target.theta.a⟩ ⟨m.v, m.a, m.target.theta.v, m.target.theta.a⟩ (vt := (c.trans.modelT1 * m.a + m.v) / c.trans.modelK)
        (vr := (c.rot.modelT1 * m.target.theta.a + m.target.theta.v) / c.rot.modelK) (by ring) (by ring)
      simp only [sub_self, zero_mul, add_zero] at hctl
      have htr : k.track exact pi (onTarget m.target m.sx m.sy) m.target =
          ({ k with xi := .fin m.v, controller := (Old.Robot.Controller.control exact (.new c.trans c.rot c.period c.failSafe)
              (inF ⟨m.v, m.a, m.target.theta.v, m.target.theta.a⟩) (inF ⟨m.v, m.a, m.target.theta.v, m.target.theta.a⟩)).1 },
            (Old.Robot.Controller.control exact (.new c.trans c.rot c.period c.failSafe)
              (inF ⟨m.v, m.a, m.target.theta.v, m.target.theta.a⟩) (inF ⟨m.v, m.a, m.target.theta.v, m.target.theta.a⟩)).2) := by
        unfold Old.Robot.Tracker.track
        rw [href, h5]
      show List.Forall₂ _ (m :: l) ((k.track exact pi (onTarget m.target m.sx m.sy) m.target).2 ::
        (steer exact pi (l.map fun m => (onTarget m.target m.sx m.sy, m.target)) (k.track exact pi (onTarget m.target m.sx m.sy) m.target).1).2)
      rw [htr]
      refine .cons hctl.2 (ih _ m.v rfl h2 h3 h4 ?_ f3)
      rw [hctl.1]
      rfl
  exact main l _ 0 rfl rfl rfl rfl rfl hl

/-- Non-vacuity: from rest with 1 m/s² for two periods of 0.1 s; gain 1, time constant 0, threshold of the speed 0.15 m/s. -/
example (pi : ℝ) (hpi : 0 < pi) :
    let p : Params := ⟨5, 5, 5, 1, 0⟩
    let c : Settings := ⟨0.1, p, p, 3, 50, 100, 0.1, 0, 7, 7, 0.15, 1, 1⟩
    let m1 : Moment := ⟨⟨⟨0.005, 0.1, 1, 0⟩, .zero, .zero⟩, 0.1, 1, 0, 0, 0⟩
    let m2 : Moment := ⟨⟨⟨0.02, 0.2, 1, 0⟩, .zero, .zero⟩, 0.2, 1, 0, 0, 0⟩
    (steer exact pi ([m1, m2].map fun m => (onTarget m.target m.sx m.sy, m.target)) (.construct c)).2 =
      [([.left (.fin 0.1), .right (.fin 0.1)], .ok ()), ([.left (.fin 0.2), .right (.fin 0.2)], .ok ())] := by
  intro p c m1 m2
  have h := C103_on_target hpi (c := c) (by norm_num [c]) (by norm_num [c]) (by norm_num [c, p]) (by norm_num [c, p]) [m1, m2]
    ⟨by constructor <;> norm_num [m1, Control.Axis.zero], by norm_num [m1, c], by constructor <;> norm_num [m2, Control.Axis.zero], by norm_num [m1, m2, c], trivial⟩
  generalize (steer exact pi ([m1, m2].map fun m => (onTarget m.target m.sx m.sy, m.target)) (.construct c)).2 = deeds at h ⊢
  cases h with
  | cons h1 h =>
    cases h with
    | cons h2 h =>
      cases h
      have a := h1.1
      have b := h2.1
      norm_num [feedForward, m1, m2, c, p, Control.Axis.zero, abs_of_pos] at a b
      rw [a, b]
      norm_num

end Verif.Props
