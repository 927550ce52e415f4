import Verif.Proof.OldLoop
import Verif.Props.SimDrift
/-!
# C107: the former robot in the former simulator
-/
namespace Verif.Props
open Verif Verif.Spec Verif.Old.Sim Verif.Old.Robot Verif.Old.Manager Verif.Proof.OldV Verif.Proof.OldX Verif.Proof.OldY Verif.Proof.Drift
open Verif.Old.Detect hiding State
open Verif.Detect (Pose)

variable {S : Rig} {see : Pose → Option Seen} {real : Old.Wall → Bool} {c : Settings}

/-- A drive has one outcome. -/
theorem C107_unique {pi : ℝ} {w : Inner} {r : Robot} {l : List (Control.Target × List Mounted)} {w1 w2 : Inner} {r1 r2 : Robot} {vs1 vs2 : List (ℝ × ℝ)}
    (h1 : Drives S pi w r l w1 r1 vs1) (h2 : Drives S pi w r l w2 r2 vs2) : w1 = w2 ∧ r1 = r2 ∧ vs1 = vs2 := by
  induction h1 generalizing w2 r2 vs2 with
  | nil w r => cases h2; exact ⟨rfl, rfl, rfl⟩
  | lap w r t ms rest inputs ra a b res w' r' vs hi ht hd ih =>
    cases h2 with
    | lap _ _ _ _ _ inputs' rb a' b' res' _ _ vs' hi' ht' hd' =>
      rw [hi] at hi'
      cases hi'
      rw [ht] at ht'
      simp only [Except.ok.injEq, Prod.mk.injEq, List.cons.injEq, Effect.left.injEq, Effect.right.injEq, F.fin.injEq, and_true] at ht'
      obtain ⟨rfl, ⟨rfl, rfl⟩, rfl⟩ := ht'
      obtain ⟨i1, i2, i3⟩ := ih hd'
      exact ⟨i1, i2, by rw [i3]⟩

theorem aboard_new {pi : ℝ} (hpi : 0 < pi) (hc : Steerable c) (s : Control.State) (sx sy : ℝ) {w : Inner} (hw : S.Fits see real c w)
    {m : Manager} {prob : Old.Wall → ℝ} (hm : Recalls S.W m fun w => .fin (prob w)) (hp : ∀ w, InMaze S.W w → 0 ≤ prob w ∧ prob w ≤ 1) :
    ∃ r α, Robot.construct exact pi c (robotAt s sx sy) m = .ok r ∧ Aboard S see real c w r α 0 0 s sx sy 0 ∧ 0 < α ∧ α ≤ 1 ∧ α * (2 * pi * c.cutOff * c.period + 1) = 1 ∧
      r.estimator.approxTh = c.approxTh ∧ r.estimator.slipConst = c.slipConst := by
  obtain ⟨e, α, h1, h2, a0, a1, a2, h3, h4, h5, h6⟩ := C102_construct hpi hc.fair s sx sy
  refine ⟨⟨e, .construct c, .new m⟩, α, ?_, ⟨hw, h2, h6, h3, tracks_new c, _, new_knows hm, hp⟩, a0, a1, a2, h5, h4⟩
  unfold Robot.construct
  rw [h1]
  rfl

/-- **C107.** A former robot with reasonable settings, made from any state with any deviations and any memory, drives in the former simulator (either copy) with any targets and up to six sensors for ever:
nothing panics, each lap gives both motors finite voltages, within the fail-safe threshold; the voltages in the simulator stay within its limit. However wrong the position gets, the error of the heading does
not change at all; the sum of the deviations never grows; and all probabilities stay between 0 and 1. -/
theorem C107_drive {pi : ℝ} (hpi : 0 < pi) (hc : Steerable c) (s : Control.State) {sx sy : ℝ} (hx : 0 ≤ sx) (hy : 0 ≤ sy) {w : Inner} (hw : S.Fits see real c w)
    {m : Manager} {prob : Old.Wall → ℝ} (hm : Recalls S.W m fun w => .fin (prob w)) (hp : ∀ w, InMaze S.W w → 0 ≤ prob w ∧ prob w ≤ 1)
    {l : List (Control.Target × List Mounted)} (hl : ∀ x ∈ l, FairLap S.W x) :
    ∃ r w' r' vs, Robot.construct exact pi c (robotAt s sx sy) m = .ok r ∧ Drives S pi w r l w' r' vs ∧ vs.length = l.length ∧
      (0 ≤ c.failSafe → ∀ p ∈ vs, |p.1| ≤ c.failSafe ∧ |p.2| ≤ c.failSafe) ∧ |w'.leftVoltage| ≤ S.max ∧ |w'.rightVoltage| ≤ S.max ∧
      ∃ (s' : Control.State) (sx' sy' : ℝ) (prob' : Old.Wall → ℝ), r'.estimator.state = robotAt s' sx' sy' ∧ s'.theta.x - w'.current.theta.x = s.theta.x - w.current.theta.x ∧
        |sx'| + |sy'| ≤ sx + sy ∧ Recalls S.W r'.detector.memory (fun w => .fin (prob' w)) ∧ ∀ w, InMaze S.W w → 0 ≤ prob' w ∧ prob' w ≤ 1 := by
  obtain ⟨r, α, h1, h2, -⟩ := aboard_new hpi hc s sx sy hw hm hp
  obtain ⟨w', r', vs, k1, k2, k3, k4⟩ := drives_of (S := S) (pi := pi)
    (fun _ w' r' => ∃ v b s' sx' sy' rs, Aboard S see real c w' r' α v b s' sx' sy' rs ∧ s'.theta.x - w'.current.theta.x = s.theta.x - w.current.theta.x ∧ |sx'| + |sy'| ≤ sx + sy)
    (FairLap S.W) (fun a b => 0 ≤ c.failSafe → |a| ≤ c.failSafe ∧ |b| ≤ c.failSafe) (by
      rintro n w1 r1 x hx ⟨v, b, s', sx', sy', rs, ha, ht, hd⟩
      obtain ⟨inputs, r2, u, u', res, s2, sx2, sy2, rs2, i1, i2, -, i3, i4, i5, i6, -⟩ := one_lap hc ha pi hx
      refine ⟨inputs, r2, u, u', res, i1, i2, ⟨_, _, s2, sx2, sy2, rs2, i3, ?_, i5.trans hd⟩, i6⟩
      rw [i4, ← ht]
      show s'.theta.x + w1.nextRotVel * r1.estimator.period - (w1.current.theta.x + w1.nextRotVel * w1.period) = _
      rw [ha.period, ha.fits.period]
      ring) l hl 0 w r ⟨0, 0, s, sx, sy, 0, h2, rfl, by rw [abs_of_nonneg hx, abs_of_nonneg hy]⟩
  obtain ⟨v, b, s', sx', sy', rs, ha, ht, hd⟩ := k2
  obtain ⟨g, hg, hch⟩ := ha.mem
  exact ⟨r, w', r', vs, h1, k1, k3, fun h p hp => k4 p hp h, ha.fits.left, ha.fits.right, s', sx', sy', g.prob, ha.knows.state, ht, hd, hg.memory, hch⟩

/-! ## Drift -/

/-- Voltages within the limit stay as they are. -/
theorem apply_self {s : Sim.Simulator} (hm : 0 ≤ s.maxVoltage) (hl : |s.leftVoltage| ≤ s.maxVoltage) (hr : |s.rightVoltage| ≤ s.maxVoltage) :
    s.apply s.leftVoltage s.rightVoltage = s := by
  obtain ⟨-, -, h1, h2⟩ := C56_apply s hm s.leftVoltage s.rightVoltage
  have h1 := h1 hl
  have h2 := h2 hr
  unfold Sim.Simulator.apply at h1 h2 ⊢
  dsimp only at h1 h2
  rw [h1, h2]

/-- The walls of the newer simulator do not matter for the motion. -/
noncomputable def moving (S : Rig) (w : Inner) : Sim.Simulator := asNewer w (fun _ => 0) S.wheel S.max

/-- One step of the former simulator is one of the newer one, with the voltages given before. -/
theorem moving_step {w : Inner} (h : S.Fits see real c w) : moving S w.step = ((moving S w).apply w.leftVoltage w.rightVoltage).step .real ∧
    measures w.step S.wheel = sensors .real (((moving S w).apply w.leftVoltage w.rightVoltage).step .real) := by
  have := apply_self (s := moving S w) h.limit h.left h.right
  rw [show (moving S w).leftVoltage = w.leftVoltage from rfl, show (moving S w).rightVoltage = w.rightVoltage from rfl] at this
  rw [this]
  exact ⟨rfl, rfl⟩

/-- One estimate of the former estimator against one step of the simulator. -/
theorem drift_step {w : Inner} {r : Robot} {α v b : ℝ} {s : Control.State} {rs V O E B : ℝ} {a a' : ℝ} (hab : a ^ 2 + a' ^ 2 = 1) (h : Aboard S see real c w r α v b s 0 0 rs)
    (ha0 : 0 ≤ α) (ha1 : α < 1) (hR : Roams (moving S w) V O) (hth : s.theta.x = w.current.theta.x) (hso : speedOff α (moving S w) V O ≤ E)
    (hE : |v - forward w.current| ≤ E) (hB : |b| ≤ B) (hlat : O * (V + E) ≤ B * r.estimator.slipConst) :
    let m := measures w.step S.wheel
    let v1 := (newer r.estimator α v b).nextVel m
    let b1 := (newer r.estimator α v b).nextSlip v1 m.omega
    let s1 := next r.estimator.period r.estimator.approxTh v1 b1 s m
    Roams (moving S w.step) V O ∧ |v1 - forward w.step.current| ≤ E ∧ |b1| ≤ B ∧ s1.theta.x = w.step.current.theta.x ∧
    |a * (s1.x.x - w.step.current.x.x) + a' * (s1.y.x - w.step.current.y.x)| ≤
      |a * (s.x.x - w.current.x.x) + a' * (s.y.x - w.current.y.x)| + w.period * driftRate (moving S w) V O E (B + B ^ 2 / 2) := by
  intro m v1 b1 s1
  obtain ⟨hmv, hms⟩ := moving_step h.fits
  have hT := hR.period
  have hTe : r.estimator.period = (moving S w).period := h.period.trans h.fits.period.symm
  have hp : (newer r.estimator α v b).period = (moving S w).period := hTe
  obtain ⟨hro, hj⟩ := roams_step hR w.leftVoltage w.rightVoltage
  have hvel := (C105_speed [(w.leftVoltage, w.rightVoltage)] (moving S w) (newer r.estimator α v b) s hp ha0 ha1 hR).2
  have hstep := C57_step ((moving S w).apply w.leftVoltage w.rightVoltage) hR.noSlide hT
  simp only [simEst, List.length_singleton, pow_one] at hvel
  rw [← hmv] at hro hj hvel hstep
  have hV : 0 ≤ V := (abs_nonneg _).trans hR.speed
  have hO : 0 ≤ O := (abs_nonneg _).trans hR.turn
  have hE0 : 0 ≤ E := (abs_nonneg _).trans hE
  have hB0 : 0 ≤ B := (abs_nonneg _).trans hB
  have hv1 : |v1 - forward w.step.current| ≤ E := by
    refine (show |v1 - forward w.step.current| ≤ α * |v - forward w.current| + (1 - α) * speedOff α (moving S w) V O from hvel).trans ?_
    have h1 := mul_le_mul_of_nonneg_left hE ha0
    have h2 := mul_le_mul_of_nonneg_left hso (by linarith : 0 ≤ 1 - α)
    linarith
  have hpU : |v1| ≤ V + E := by
    have : v1 = forward w.step.current + (v1 - forward w.step.current) := by ring
    rw [this]; exact (abs_add_le _ _).trans (add_le_add hro.speed hv1)
  have hom : m.omega = w.step.current.theta.v := rfl
  have hb1 : |b1| ≤ B := by
    refine slip_bound (e := newer r.estimator α v b) (by rw [hp]; exact hT) h.knows.slipConst hB ?_
    rw [hom]
    exact (mul_le_mul hro.turn hpU (abs_nonneg _) hO).trans hlat
  obtain ⟨-, hns', hdx, hdy, hdt, -⟩ := hstep
  have hth1 : s1.theta.x = w.step.current.theta.x := by
    show s.theta.x + m.omega * r.estimator.period = _
    rw [hom, hth, hTe]
    have : w.step.current.theta.x - w.current.theta.x = w.step.current.theta.v * (moving S w).period := hdt
    linarith
  refine ⟨hro, hv1, hb1, hth1, ?_⟩
  have hturn : |w.step.current.theta.v * w.period| ≤ O * w.period := by
    rw [abs_mul, abs_of_pos (show 0 < w.period from hT)]; exact mul_le_mul_of_nonneg_right hro.turn hT.le
  obtain ⟨f1, f2⟩ := forward_noSlide hR.noSlide
  obtain ⟨g1, g2⟩ := forward_noSlide hns'
  have f1' : w.current.x.v = forward w.current * Real.cos w.current.theta.x := f1
  have f2' : w.current.y.v = forward w.current * Real.sin w.current.theta.x := f2
  have g1' : w.step.current.x.v = forward w.step.current * Real.cos w.step.current.theta.x := g1
  have g2' : w.step.current.y.v = forward w.step.current * Real.sin w.step.current.theta.x := g2
  have hdx' : w.step.current.x.x - w.current.x.x = (w.current.x.v + w.step.current.x.v) / 2 * w.period := hdx
  have hdy' : w.step.current.y.x - w.current.y.x = (w.current.y.v + w.step.current.y.v) / 2 * w.period := hdy
  have hdt' : w.step.current.theta.x - w.current.theta.x = w.step.current.theta.v * w.period := hdt
  obtain ⟨mm, hm⟩ : ∃ mm, mm = s.theta.x + w.step.current.theta.v * w.period / 2 := ⟨_, rfl⟩
  have hm1 : w.current.theta.x = mm - w.step.current.theta.v * w.period / 2 := by rw [hm, hth]; ring
  have hm2 : w.step.current.theta.x = mm + w.step.current.theta.v * w.period / 2 := by rw [hm, hth]; linarith
  rw [f1', g1', hm1, hm2] at hdx'
  rw [f2', g2', hm1, hm2] at hdy'
  obtain ⟨d, hd⟩ : ∃ d, d = stride w.period r.estimator.approxTh v1 w.step.current.theta.v := ⟨_, rfl⟩
  have hTe' : r.estimator.period = w.period := hTe
  have hpx : s1.x.x = s.x.x + ((d * Real.cos b1) * Real.cos mm - (-(d * Real.sin b1)) * Real.sin mm) := by
    show s.x.x + stride r.estimator.period r.estimator.approxTh v1 m.omega * Real.cos (s.theta.x - b1 + m.omega * r.estimator.period / 2) = _
    rw [hTe', hom, ← hd, show s.theta.x - b1 + w.step.current.theta.v * w.period / 2 = mm - b1 by rw [hm]; ring, Real.cos_sub]
    ring
  have hpy : s1.y.x = s.y.x + ((d * Real.cos b1) * Real.sin mm + (-(d * Real.sin b1)) * Real.cos mm) := by
    show s.y.x + stride r.estimator.period r.estimator.approxTh v1 m.omega * Real.sin (s.theta.x - b1 + m.omega * r.estimator.period / 2) = _
    rw [hTe', hom, ← hd, show s.theta.x - b1 + w.step.current.theta.v * w.period / 2 = mm - b1 by rw [hm]; ring, Real.sin_sub]
    ring
  have hJ : |forward w.step.current - forward w.current| ≤ speedJump (moving S w) V := hj
  have hd2 : d = if |w.step.current.theta.v| < r.estimator.approxTh then v1 * w.period else 2 * v1 * Real.sin (w.step.current.theta.v * w.period / 2) / w.step.current.theta.v := by
    rw [hd]; unfold stride; split <;> rfl
  have key := bound (p := d * Real.cos b1) (q := -(d * Real.sin b1)) (m := mm) (h := w.step.current.theta.v * w.period / 2) (st := d) (B := B) (L := B ^ 2 / 2) hab
    (T := w.period) hT hR.speed hro.speed hJ hv1 (d := O * w.period) (by rw [abs_div, abs_two]; linarith)
    (by rw [hd2]; exact travelled hT h.knows.approx hturn) (by rw [hd2]; exact travelled_le hT h.knows.approx)
    (by
      have : d * Real.cos b1 - d = -(d * (1 - Real.cos b1)) := by ring
      rw [this, abs_neg, abs_mul]
      exact mul_le_mul_of_nonneg_left (one_sub_cos hb1) (abs_nonneg _))
    (by
      rw [abs_neg, abs_mul]
      exact mul_le_mul_of_nonneg_left (Real.abs_sin_le_abs.trans hb1) (abs_nonneg _)) hB0 (by positivity)
  have e0 : a * (s1.x.x - w.step.current.x.x) + a' * (s1.y.x - w.step.current.y.x) = (a * (s.x.x - w.current.x.x) + a' * (s.y.x - w.current.y.x)) +
      (a * ((d * Real.cos b1 * Real.cos mm - -(d * Real.sin b1) * Real.sin mm) - (forward w.current * Real.cos (mm - w.step.current.theta.v * w.period / 2) +
        forward w.step.current * Real.cos (mm + w.step.current.theta.v * w.period / 2)) * w.period / 2) +
      a' * ((d * Real.cos b1 * Real.sin mm + -(d * Real.sin b1) * Real.cos mm) - (forward w.current * Real.sin (mm - w.step.current.theta.v * w.period / 2) +
        forward w.step.current * Real.sin (mm + w.step.current.theta.v * w.period / 2)) * w.period / 2)) := by
    rw [hpx, hpy]
    linear_combination -a * hdx' - a' * hdy'
  rw [e0]
  have hdef : (V + E) * (B + B ^ 2 / 2 + (O * w.period) ^ 2 / 24) + E + speedJump (moving S w) V / 2 + V * (O * w.period) ^ 2 / 8 + speedJump (moving S w) V * (O * w.period) / 4 =
      driftRate (moving S w) V O E (B + B ^ 2 / 2) := by
    unfold driftRate
    rw [show (moving S w).period = w.period from rfl]
  rw [hdef] at key
  exact (abs_add_le _ _).trans (add_le_add le_rfl key)

/-- **C107, drift.** Whatever the targets, the maze, the distance sensors and the voltages that result: if the robot takes its position to be exact (as the default state says), starts where it is, and `B` times
the slip constant is at least the largest lateral acceleration `O * (V + E)`, then after `n` laps the estimated heading is exact, the estimated speed is within `E`, and in every direction the estimated position
is off by at most `n` periods times `driftRate`. -/
theorem C107_drift {pi : ℝ} (hpi : 0 < pi) (hc : Steerable c) (hcut : 0 < c.cutOff) {w : Inner} (hw : S.Fits see real c w) {V O E B : ℝ} {a a' : ℝ} (hab : a ^ 2 + a' ^ 2 = 1)
    (hR : Roams (moving S w) V O) (hE : |forward w.current| ≤ E) (hso : speedOff (1 / (2 * pi * c.cutOff * c.period + 1)) (moving S w) V O ≤ E) (hB : 0 ≤ B) (hlat : O * (V + E) ≤ B * c.slipConst)
    {m : Manager} {prob : Old.Wall → ℝ} (hm : Recalls S.W m fun w => .fin (prob w)) (hp : ∀ w, InMaze S.W w → 0 ≤ prob w ∧ prob w ≤ 1)
    {l : List (Control.Target × List Mounted)} (hl : ∀ x ∈ l, FairLap S.W x) :
    ∃ r w' r' vs s' v', Robot.construct exact pi c (robotAt w.current 0 0) m = .ok r ∧ Drives S pi w r l w' r' vs ∧ r'.estimator.state = robotAt s' 0 0 ∧ r'.estimator.vel = .fin v' ∧
      s'.theta.x = w'.current.theta.x ∧ |v' - forward w'.current| ≤ E ∧
      |a * (s'.x.x - w'.current.x.x) + a' * (s'.y.x - w'.current.y.x)| ≤ l.length * w.period * driftRate (moving S w) V O E (B + B ^ 2 / 2) := by
  obtain ⟨r, α, h1, h2, a0, -, a2, h5, h6⟩ := aboard_new (S := S) (see := see) (real := real) hpi hc w.current 0 0 hw hm hp
  have hpos : 0 < 2 * pi * c.cutOff * c.period := by have := hc.fair.period; positivity
  have hα : α = 1 / (2 * pi * c.cutOff * c.period + 1) := by rw [eq_div_iff (by positivity)]; exact a2
  have ha1 : α < 1 := by rw [hα, div_lt_one (by positivity)]; linarith
  rw [← hα] at hso
  obtain ⟨w', r', vs, k1, k2, -⟩ := drives_of (S := S) (pi := pi)
    (fun n w' r' => ∃ v b s' rs, Aboard S see real c w' r' α v b s' 0 0 rs ∧ r'.estimator.slipConst = c.slipConst ∧ w'.period = w.period ∧ w'.transT1 = w.transT1 ∧
      Roams (moving S w') V O ∧ s'.theta.x = w'.current.theta.x ∧ |v - forward w'.current| ≤ E ∧ |b| ≤ B ∧
      |a * (s'.x.x - w'.current.x.x) + a' * (s'.y.x - w'.current.y.x)| ≤ n * w.period * driftRate (moving S w) V O E (B + B ^ 2 / 2))
    (FairLap S.W) (fun _ _ => True) (by
      rintro n w1 r1 x hx ⟨v, b, s', rs, ha, hsl, hT, hT1, hro, ht, hv, hb, hdr⟩
      obtain ⟨inputs, r2, u, u', res, s2, sx2, sy2, rs2, i1, i2, -, i3, -, -, -, i4⟩ := one_lap hc ha pi hx
      obtain ⟨rfl, rfl, rfl, -, hsl2⟩ := i4 rfl rfl
      have hso1 : speedOff α (moving S w1) V O = speedOff α (moving S w) V O := by
        unfold speedOff speedJump
        rw [show (moving S w1).period = w1.period from rfl, show (moving S w1).transT1 = w1.transT1 from rfl, hT, hT1]; rfl
      have hdr1 : driftRate (moving S w1) V O E (B + B ^ 2 / 2) = driftRate (moving S w) V O E (B + B ^ 2 / 2) := by
        unfold driftRate speedJump
        rw [show (moving S w1).period = w1.period from rfl, show (moving S w1).transT1 = w1.transT1 from rfl, hT, hT1]; rfl
      obtain ⟨j1, j2, j3, j4, j5⟩ := drift_step hab ha a0.le ha1 hro ht (by rw [hso1]; exact hso) hv hb (by rw [hsl]; exact hlat)
      rw [hdr1, hT] at j5
      refine ⟨inputs, r2, u, u', res, i1, i2, ⟨_, _, _, rs2, i3, hsl2.trans hsl, hT, hT1, ?_, j4, j2, j3, ?_⟩, trivial⟩
      · exact ⟨j1.limit, j1.period, j1.transT1, j1.rotT1, j1.noSlide, j1.speed, j1.motor, j1.turn, j1.turnMotor⟩
      · refine j5.trans ?_
        push_cast
        linarith) l hl 0 w r ⟨0, 0, w.current, 0, h2, h6, rfl, rfl, hR, rfl, by simpa using hE, by simpa using hB, by simp⟩
  obtain ⟨v, b, s', rs, ha, -, -, -, -, ht, hv, -, hdr⟩ := k2
  rw [Nat.zero_add] at hdr
  exact ⟨r, w', r', vs, s', v, h1, k1, ha.knows.state, ha.knows.vel, ht, hv, hdr⟩

/-! ## Straight -/

/-- A state on a line, heading along it and not turning. -/
def LineState (x y φ p : ℝ) (s : Control.State) : Prop :=
  ∃ v a, s = ⟨⟨x + p * Real.cos φ, v * Real.cos φ, a * Real.cos φ⟩, ⟨y + p * Real.sin φ, v * Real.sin φ, a * Real.sin φ⟩, ⟨φ, 0, 0⟩⟩

/-- On the line the tracker gives both motors the same voltage. -/
theorem track_line {pi : ℝ} (hpi : 0 < pi) (hc : Steerable c) {k : Old.Robot.Tracker} (h : Tracks c 0 k) {x y φ p : ℝ} {s : Control.State} (hs : LineState x y φ p s) (sx sy : ℝ)
    {t : Control.Target} (ht : LineTarget x y φ t) :
    ∃ k' a res, k.track exact pi (robotAt s sx sy) t = (k', [.left (.fin a), .right (.fin a)], res) ∧ Tracks c 0 k' := by
  obtain ⟨xi, ts, rfl⟩ := h
  have href := C103_newer pi ⟨c.gain, c.dgain, .fin xi, c.period, c.lowerBound, ⟨⟨.fin ts, c.trans, c.period⟩, ⟨.fin 0, c.rot, c.period⟩, c.failSafe⟩, c.lowZeta, c.lowB⟩ rfl
    hc.bound hc.b s sx sy t
  dsimp only at href
  obtain ⟨n, hn⟩ : ∃ n, n = (newerTracker ⟨c.gain, c.dgain, .fin xi, c.period, c.lowerBound, ⟨⟨.fin ts, c.trans, c.period⟩, ⟨.fin 0, c.rot, c.period⟩, c.failSafe⟩, c.lowZeta, c.lowB⟩ xi).track
    .real pi s t ((newerNavigation ⟨c.gain, c.dgain, .fin xi, c.period, c.lowerBound, ⟨⟨.fin ts, c.trans, c.period⟩, ⟨.fin 0, c.rot, c.period⟩, c.failSafe⟩, c.lowZeta, c.lowB⟩).navigate s t) := ⟨_, rfl⟩
  rw [← hn] at href
  have hz : n.2.1.omega = 0 ∧ n.2.1.alpha = 0 ∧ n.2.2.omega = 0 ∧ n.2.2.alpha = 0 := by
    classical
    obtain ⟨v, a, rfl⟩ := hs
    obtain ⟨p', v', a', j', h1, h2, h3, h4, h5⟩ := ht
    rw [hn]
    have hnorm : Control.normalizeAngle pi 0 = 0 := by
      unfold Control.normalizeAngle
      simp [not_lt.2 hpi.le]
    unfold Control.Tracker.track Control.Navigation.navigate
    simp only [h1, h2, h3, h4, h5, sub_self, hnorm, Control.Trig.real]
    refine ⟨?_, ?_, trivial, trivial⟩
    · split
      · rw [div_eq_zero_iff]; left; ring
      · ring
    · split
      · rw [neg_eq_zero, div_eq_zero_iff]; left
        rw [show ∀ z : ℝ, ((a' * Real.sin φ + (newerNavigation ⟨c.gain, c.dgain, .fin xi, c.period, c.lowerBound, ⟨⟨.fin ts, c.trans, c.period⟩, ⟨.fin 0, c.rot, c.period⟩, c.failSafe⟩, c.lowZeta, c.lowB⟩).dgain * (v' * Real.sin φ - v * Real.sin φ) + (newerNavigation ⟨c.gain, c.dgain, .fin xi, c.period, c.lowerBound, ⟨⟨.fin ts, c.trans, c.period⟩, ⟨.fin 0, c.rot, c.period⟩, c.failSafe⟩, c.lowZeta, c.lowB⟩).gain * (y + p' * Real.sin φ - (y + p * Real.sin φ))) * Real.cos φ - (a' * Real.cos φ + (newerNavigation ⟨c.gain, c.dgain, .fin xi, c.period, c.lowerBound, ⟨⟨.fin ts, c.trans, c.period⟩, ⟨.fin 0, c.rot, c.period⟩, c.failSafe⟩, c.lowZeta, c.lowB⟩).dgain * (v' * Real.cos φ - v * Real.cos φ) + (newerNavigation ⟨c.gain, c.dgain, .fin xi, c.period, c.lowerBound, ⟨⟨.fin ts, c.trans, c.period⟩, ⟨.fin 0, c.rot, c.period⟩, c.failSafe⟩, c.lowZeta, c.lowB⟩).gain * (x + p' * Real.cos φ - (x + p * Real.cos φ))) * Real.sin φ) / z = 0 from
          fun z => by rw [div_eq_zero_iff]; left; ring]
        ring
      · rfl
  obtain ⟨ctl, hctl⟩ : ∃ ctl, ctl = Old.Robot.Controller.control exact ⟨⟨.fin ts, c.trans, c.period⟩, ⟨.fin 0, c.rot, c.period⟩, c.failSafe⟩ (inF n.2.1) (inF n.2.2) := ⟨_, rfl⟩
  obtain ⟨vt, hvt⟩ : ∃ vt, vt = (c.trans.modelT1 * n.2.1.a + n.2.1.v) / c.trans.modelK + c.trans.kp * (n.2.1.v - n.2.2.v) + c.trans.kd * (n.2.1.a - n.2.2.a) + c.trans.ki * ts := ⟨_, rfl⟩
  have hvr : (0 : ℝ) = (c.rot.modelT1 * n.2.1.alpha + n.2.1.omega) / c.rot.modelK + c.rot.kp * (n.2.1.omega - n.2.2.omega) + c.rot.kd * (n.2.1.alpha - n.2.2.alpha) + c.rot.ki * 0 := by
    rw [hz.1, hz.2.1, hz.2.2.1, hz.2.2.2]; simp
  obtain ⟨h1, h2, h3⟩ := control_eq (c := ⟨⟨.fin ts, c.trans, c.period⟩, ⟨.fin 0, c.rot, c.period⟩, c.failSafe⟩) hc.trans hc.rot rfl rfl n.2.1 n.2.2 hvt hvr
  rw [← hctl] at h1 h2 h3
  have htr : Old.Robot.Tracker.track exact pi ⟨c.gain, c.dgain, .fin xi, c.period, c.lowerBound, ⟨⟨.fin ts, c.trans, c.period⟩, ⟨.fin 0, c.rot, c.period⟩, c.failSafe⟩, c.lowZeta, c.lowB⟩
      (robotAt s sx sy) t = (⟨c.gain, c.dgain, .fin n.1.xi, c.period, c.lowerBound, ctl.1, c.lowZeta, c.lowB⟩, ctl.2) := by
    unfold Old.Robot.Tracker.track
    rw [href]
    simp only [hctl]
  rw [htr, h1]
  rw [hz.1, hz.2.2.1, sub_self, zero_mul, add_zero]
  by_cases hsafe : |vt - 0| ≤ c.failSafe ∧ |vt + 0| ≤ c.failSafe
  · rw [h2 hsafe, sub_zero, add_zero]
    exact ⟨_, _, _, rfl, _, _, rfl⟩
  · rw [h3 (by rw [not_and_or, not_le, not_le] at hsafe; exact hsafe)]
    exact ⟨_, _, _, rfl, _, _, rfl⟩

/-- **C107, straight.** A robot at rest that knows where it is, given targets ahead and behind on its own line only, with any speeds and accelerations, one after the other in any order: both its motors always
get the same voltage, it stays exactly on the line, it believes to be on the line, and it is at most `speedJump / (4 * pi * cutOff)` from where it believes to be, however long it drives. -/
theorem C107_straight {pi : ℝ} (hpi : 0 < pi) (hc : Steerable c) (hcut : 0 < c.cutOff) {w : Inner} (hw : S.Fits see real c w) {V O : ℝ}
    (hR : Roams (moving S w) V O) (h0 : forward w.current = 0) (hx0 : w.current.theta.v = 0) (hlr : w.leftVoltage = w.rightVoltage)
    {m : Manager} {prob : Old.Wall → ℝ} (hm : Recalls S.W m fun w => .fin (prob w)) (hp : ∀ w, InMaze S.W w → 0 ≤ prob w ∧ prob w ≤ 1)
    {l : List (Control.Target × List Mounted)} (hl : ∀ x ∈ l, FairLap S.W x ∧ LineTarget w.current.x.x w.current.y.x w.current.theta.x x.1) :
    ∃ r w' r' vs s' p q, Robot.construct exact pi c (robotAt w.current 0 0) m = .ok r ∧ Drives S pi w r l w' r' vs ∧ (∀ v ∈ vs, v.1 = v.2) ∧ r'.estimator.state = robotAt s' 0 0 ∧
      w'.current.x.x = w.current.x.x + p * Real.cos w.current.theta.x ∧ w'.current.y.x = w.current.y.x + p * Real.sin w.current.theta.x ∧ w'.current.theta.x = w.current.theta.x ∧
      s'.x.x = w.current.x.x + q * Real.cos w.current.theta.x ∧ s'.y.x = w.current.y.x + q * Real.sin w.current.theta.x ∧ s'.theta.x = w.current.theta.x ∧
      |q - p| ≤ speedJump (moving S w) V / (4 * pi * c.cutOff) := by
  obtain ⟨r, α, h1, h2, a0, -, a2, h5, h6⟩ := aboard_new (S := S) (see := see) (real := real) hpi hc w.current 0 0 hw hm hp
  have hcT : 0 < c.period := hc.fair.period
  have hpos : 0 < 2 * pi * c.cutOff * c.period := by positivity
  have ha1 : α < 1 := by nlinarith
  have hV : 0 ≤ V := (abs_nonneg _).trans hR.speed
  have hJ0 : 0 ≤ speedJump (moving S w) V := by
    have := hR.transT1; have := hR.period
    unfold speedJump; positivity
  have hK : c.period * α / (1 - α) = 1 / (2 * pi * c.cutOff) := by
    rw [div_eq_div_iff (by linarith) (by positivity)]
    linear_combination a2
  obtain ⟨x0, hx⟩ : ∃ x0, x0 = w.current.x.x := ⟨_, rfl⟩
  obtain ⟨y0, hy⟩ : ∃ y0, y0 = w.current.y.x := ⟨_, rfl⟩
  obtain ⟨φ, hφ⟩ : ∃ φ, φ = w.current.theta.x := ⟨_, rfl⟩
  rw [← hx, ← hy, ← hφ] at hl ⊢
  obtain ⟨w', r', vs, k1, k2, -, k4⟩ := drives_of (S := S) (pi := pi)
    (fun _ w' r' => ∃ v s' p q, Aboard S see real c w' r' α v 0 s' 0 0 0 ∧ w'.period = w.period ∧ w'.transT1 = w.transT1 ∧ w'.leftVoltage = w'.rightVoltage ∧
      Roams (moving S w') V O ∧ w'.current.theta.v = 0 ∧ s'.theta.v = 0 ∧ |v - forward w'.current| ≤ speedJump (moving S w) V / 2 ∧
      w'.current.x.x = x0 + p * Real.cos φ ∧ w'.current.y.x = y0 + p * Real.sin φ ∧ w'.current.theta.x = φ ∧
      s'.x.x = x0 + q * Real.cos φ ∧ s'.y.x = y0 + q * Real.sin φ ∧ s'.theta.x = φ ∧ q - p + c.period * α / (1 - α) * (v - forward w'.current) = 0)
    (fun x => FairLap S.W x ∧ LineTarget x0 y0 φ x.1) (fun a b => a = b) (by
      rintro n w1 r1 x ⟨hx, hlt⟩ ⟨v, s', p, q, ha, hT, hT1, hv12, hro, hwv, hsv, hv, hp1, hp2, hp3, hq1, hq2, hq3, hoff⟩
      obtain ⟨inputs, r2, u, u', res, s2, sx2, sy2, rs2, i1, i2, i2', i3, -, -, -, i4⟩ := one_lap hc ha pi hx
      obtain ⟨rfl, rfl, rfl, -, -⟩ := i4 rfl rfl
      obtain ⟨hmv, hms⟩ := moving_step ha.fits
      have hj := (roams_step hro w1.leftVoltage w1.rightVoltage)
      have hT0 := hro.period
      have hTe : r1.estimator.period = c.period := ha.period
      have hwT : w1.period = c.period := ha.fits.period
      have hss := straight_step (moving S w1) w1.leftVoltage hwv
      have hvel := speed_step (s := moving S w1) (e := newer r1.estimator α v 0) (st := s') (hTe.trans hwT.symm) hT0 hro.noSlide w1.leftVoltage w1.rightVoltage
      have hstep := C57_step ((moving S w1).apply w1.leftVoltage w1.rightVoltage) hro.noSlide hT0
      rw [← hv12] at hmv hms hj hvel hstep
      dsimp only at hvel hss
      rw [← hmv] at hj hvel hstep hss
      have hwv' : w1.step.current.theta.v = 0 := hss.1
      have hwx' : w1.step.current.theta.x = φ := hss.2.trans hp3
      obtain ⟨v1, hv1⟩ : ∃ v1, v1 = (newer r1.estimator α v 0).nextVel (measures w1.step S.wheel) := ⟨_, rfl⟩
      have hom : (measures w1.step S.wheel).omega = 0 := hwv'
      have hb1 : (newer r1.estimator α v 0).nextSlip v1 (measures w1.step S.wheel).omega = 0 := by
        rw [hom]
        unfold Estimate.Estimator.nextSlip
        split
        · rfl
        · simp [newer]
      rw [← hv1, hb1] at i3 i2'
      have hth : 0 < r1.estimator.approxTh := ha.knows.approx
      have hnext : next r1.estimator.period r1.estimator.approxTh v1 0 s' (measures w1.step S.wheel) =
          ⟨⟨x0 + (q + v1 * c.period) * Real.cos φ, v1 * Real.cos φ, (measures w1.step S.wheel).acc * Real.cos φ⟩,
            ⟨y0 + (q + v1 * c.period) * Real.sin φ, v1 * Real.sin φ, (measures w1.step S.wheel).acc * Real.sin φ⟩, ⟨φ, 0, 0⟩⟩ := by
        unfold next stride
        rw [hom, hq1, hq2, hq3, hsv, abs_zero, if_pos hth, hTe]
        simp only [sub_zero, zero_mul, zero_div, add_zero, sub_self]
        congr 2 <;> ring
      rw [hnext] at i3 i2'
      obtain ⟨k', a, res', t1, t2⟩ := track_line (c := c) hpi hc ha.tracks (p := q + v1 * c.period) ⟨_, _, rfl⟩ 0 0 hlt
      rw [i2'] at t1
      simp only [Prod.mk.injEq, List.cons.injEq, Effect.left.injEq, Effect.right.injEq, F.fin.injEq, and_true] at t1
      obtain ⟨e1, ⟨e2, e3⟩, -⟩ := t1
      have huu : u = u' := e2.trans e3.symm
      have hvel' : v1 - forward w1.step.current = α * (v - forward w1.current) - (1 - α) * ((forward w1.step.current - forward w1.current) / 2) := by
        have e0 : v1 - forward w1.step.current = α * (v - forward w1.current) + α * (forward w1.current * (1 - Real.cos (w1.step.current.theta.v * w1.period))) -
            (1 - α) * ((forward w1.step.current - forward w1.current) / 2) := by rw [hv1]; exact hvel
        rw [e0, hwv', zero_mul, Real.cos_zero]
        ring
      have hJ : |forward w1.step.current - forward w1.current| ≤ speedJump (moving S w) V := by
        have e : speedJump (moving S w1) V = speedJump (moving S w) V := by
          unfold speedJump
          rw [show (moving S w1).period = w1.period from rfl, show (moving S w1).transT1 = w1.transT1 from rfl, hT, hT1]; rfl
        rw [← e]; exact hj.2
      obtain ⟨-, hns', hdx, hdy, -⟩ := hstep
      obtain ⟨f1, f2⟩ := forward_noSlide hro.noSlide
      obtain ⟨g1, g2⟩ := forward_noSlide hns'
      have f1' : w1.current.x.v = forward w1.current * Real.cos φ := hp3 ▸ f1
      have f2' : w1.current.y.v = forward w1.current * Real.sin φ := hp3 ▸ f2
      have g1' : w1.step.current.x.v = forward w1.step.current * Real.cos φ := hwx' ▸ g1
      have g2' : w1.step.current.y.v = forward w1.step.current * Real.sin φ := hwx' ▸ g2
      have hdx' : w1.step.current.x.x - w1.current.x.x = (w1.current.x.v + w1.step.current.x.v) / 2 * w1.period := hdx
      have hdy' : w1.step.current.y.x - w1.current.y.x = (w1.current.y.v + w1.step.current.y.v) / 2 * w1.period := hdy
      rw [f1', g1', hwT] at hdx'
      rw [f2', g2', hwT] at hdy'
      refine ⟨inputs, r2, u, u', res, i1, i2, ⟨v1, _, p + (forward w1.current + forward w1.step.current) / 2 * c.period, q + v1 * c.period,
        ⟨i3.fits, i3.knows, i3.still, i3.period, e1 ▸ t2, i3.mem⟩, hT, hT1, ?_, ?_, hwv', rfl, ?_, ?_, ?_, hwx', rfl, rfl, rfl, ?_⟩, huu⟩
      · rw [huu]; rfl
      · obtain ⟨j1, -⟩ := hj
        exact ⟨j1.limit, j1.period, j1.transT1, j1.rotT1, j1.noSlide, j1.speed, j1.motor, j1.turn, j1.turnMotor⟩
      · show |v1 - forward w1.step.current| ≤ _
        rw [hvel']
        have e1 := mul_le_mul_of_nonneg_left hv a0.le
        have e2 := mul_le_mul_of_nonneg_left hJ (by linarith : 0 ≤ 1 - α)
        refine (abs_sub _ _).trans ?_
        rw [abs_mul, abs_mul, abs_of_pos a0, abs_of_pos (by linarith : 0 < 1 - α), abs_div, abs_two]
        linarith
      · show w1.step.current.x.x = _
        linear_combination hdx' + hp1
      · show w1.step.current.y.x = _
        linear_combination hdy' + hp2
      · show q + v1 * c.period - (p + (forward w1.current + forward w1.step.current) / 2 * c.period) + c.period * α / (1 - α) * (v1 - forward w1.step.current) = 0
        have hne : 1 - α ≠ 0 := by linarith
        obtain ⟨K, hKe⟩ : ∃ K, K = c.period * α / (1 - α) := ⟨_, rfl⟩
        rw [← hKe] at hoff ⊢
        rw [eq_div_iff hne] at hKe
        refine (mul_eq_zero.1 (?_ : (1 - α) * _ = 0)).resolve_left hne
        linear_combination (1 - α) * hoff + (v1 - forward w1.step.current - (v - forward w1.current)) * hKe + c.period * hvel') l hl 0 w r
      ⟨0, w.current, 0, 0, h2, rfl, rfl, hlr, hR, hx0, hx0, by rw [h0]; simpa using by linarith, by rw [hx]; ring, by rw [hy]; ring, hφ.symm, by rw [hx]; ring, by rw [hy]; ring, hφ.symm, by rw [h0]; ring⟩
  obtain ⟨v, s', p, q, ha, -, -, -, -, -, -, hv, hp1, hp2, hp3, hq1, hq2, hq3, hoff⟩ := k2
  refine ⟨r, w', r', vs, s', p, q, h1, k1, k4, ha.knows.state, hp1, hp2, hp3, hq1, hq2, hq3, ?_⟩
  have : q - p = -(1 / (2 * pi * c.cutOff) * (v - forward w'.current)) := by rw [← hK]; linarith
  rw [this, abs_neg, abs_mul, abs_of_pos (by positivity)]
  refine (mul_le_mul_of_nonneg_left hv (by positivity)).trans (le_of_eq ?_)
  field_simp
  ring

/-! ## A case -/

/-- Settings of the robot below. -/
noncomputable def loopSettings : Settings :=
  ⟨1 / 1000, ⟨1, 1 / 10, 0, 1, 1 / 3⟩, ⟨1, 1 / 10, 0, 10, 1 / 7⟩, 3, 50, 100, 1 / 10, 1 / 100, 7, 7, 1 / 10, 1, 1⟩

/-- A robot in the first cell of a maze of width 16, turned along its row, with motors for 1 m/s and 10 rad/s. -/
noncomputable def loopInner : Inner := .new ⟨⟨45 / 1000, 0, 0⟩, ⟨45 / 1000, 0, 0⟩, ⟨0, 0, 0⟩⟩ 0 0 (1 / 1000) 1 (1 / 3) 10 (1 / 7)

/-- A thousand targets ahead, one every millisecond, with two sensors. -/
noncomputable def loopLaps : List (Control.Target × List Mounted) :=
  List.replicate 1000 (⟨⟨45 / 1000 + 1 / 10, 1 / 5, 1, 0⟩, ⟨45 / 1000, 0, 0, 0⟩, ⟨0, 0, 0, 0⟩⟩, [⟨⟨1 / 100, 0, 0⟩, [], []⟩, ⟨⟨1 / 100, 1 / 50, 1⟩, [⟨1, 1, true⟩], []⟩])

/-- The hypotheses of the theorems above are met, in any maze; the bounds are those of the conclusion: the robot is never further than 10 µm from where it believes to be on its line,
and over a thousand laps with any targets its position is known up to 0.14 m (a bound which allows it to turn at 10 rad/s at full speed all the time). -/
example (real : Old.Wall → Bool) : ∃ walls m see, ∃ prob : Old.Wall → ℝ, let S : Rig := ⟨33 / 1000, 1, .utils, walls, convertF Convert.Converter.default 16 demoSort, 16⟩
    withStr 16 (.fin (1 / 10)) (drawing 16 (posBlocked real)) = .ok walls ∧ new 16 (.fin (1 / 10)) = .ok m ∧ Recalls 16 m (fun w => .fin (prob w)) ∧ (∀ w, InMaze 16 w → 0 ≤ prob w ∧ prob w ≤ 1) ∧ S.Fits see real loopSettings loopInner ∧ Steerable loopSettings ∧
    Roams (moving S loopInner) 1 10 ∧ speedJump (moving S loopInner) 1 / (4 * 3 * loopSettings.cutOff) ≤ 1 / 100000 ∧
    speedOff (1 / (2 * 3 * loopSettings.cutOff * loopSettings.period + 1)) (moving S loopInner) 1 10 ≤ 4 / 1000 ∧ (10 : ℝ) * (1 + 4 / 1000) ≤ 0.11 * loopSettings.slipConst ∧
    loopLaps.length * loopInner.period * driftRate (moving S loopInner) 1 10 (4 / 1000) (0.11 + 0.11 ^ 2 / 2) ≤ 0.14 ∧
    ∀ x ∈ loopLaps, FairLap 16 x ∧ LineTarget loopInner.current.x.x loopInner.current.y.x loopInner.current.theta.x x.1 := by
  have hW : Supported 16 := ⟨4, by decide, rfl⟩
  obtain ⟨see, hs, -⟩ := demo_sees hW
  obtain ⟨m, g, h1, h2, h3, -, -⟩ := demo_guess hW (.fin (1 / 10))
  obtain ⟨walls, hr, hb⟩ := C106_built hW (t := 1 / 10) (by norm_num) (by norm_num) real
  refine ⟨walls, m, see, g.prob, hr, h1, h2.memory, h3, ⟨hW, hs, hb, rfl, by norm_num, by norm_num [loopInner, Inner.new], by norm_num [loopInner, Inner.new]⟩, ⟨?_, ?_, ?_, ?_, ?_⟩, ⟨?_, ?_, ?_, ?_, ?_, ?_, ?_, ?_, ?_⟩,
    ?_, ?_, ?_, ?_, ?_⟩
  · constructor <;> norm_num [loopSettings]
  any_goals norm_num [loopSettings, loopInner, Inner.new, moving, asNewer, NoSlide, forward, speedOff, speedJump, driftRate, loopLaps]
  constructor
  · refine ⟨by simp, ?_⟩
    simp only [List.mem_cons, List.not_mem_nil, or_false]
    rintro m (rfl | rfl)
    · exact ⟨by simp, by simp⟩
    · exact ⟨by simp [InMaze], by simp⟩
  · exact ⟨1 / 10, 1 / 5, 1, 0, by norm_num, by norm_num, rfl, rfl, rfl⟩

end Verif.Props
