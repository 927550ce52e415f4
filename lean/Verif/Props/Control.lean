import Verif.Spec.Control
import Mathlib.Tactic.Ring
import Mathlib.Tactic.Linarith
import Mathlib.Tactic.FieldSimp
import Mathlib.Tactic.NormNum
import Mathlib.Tactic.LinearCombination
import Mathlib.Tactic.Positivity
/-!
# C48 – C52: the control loop
-/
namespace Verif.Props
open Verif Verif.Control Verif.Spec

/-! ## C48 -/

theorem ctlRun_append (c : Controller) (l l' : List CtlCall) :
    ctlRun c (l ++ l') = ((ctlRun (ctlRun c l).1 l').1, (ctlRun c l).2 ++ (ctlRun (ctlRun c l).1 l').2) := by
  induction l generalizing c with
  | nil => rfl
  | cons k l ih =>
    cases k with
    | reset => exact ih c.reset
    | control r y =>
      have e : ∀ l'', ctlRun c (.control r y :: l'') =
          ((ctlRun (c.control r y).1 l'').1, (c.control r y).2 :: (ctlRun (c.control r y).1 l'').2) := fun _ => rfl
      rw [List.cons_append, e, e, ih]
      rfl

open Classical in
theorem ctlRun_sums (c : Controller) (l : List CtlCall) :
    (ctlRun c l).1 = { c with
      transSum := (if CtlCall.reset ∈ l then 0 else c.transSum) +
        (((sinceReset l).map fun p => p.1.v - p.2.v).map (· * c.period)).sum
      rotSum := (if CtlCall.reset ∈ l then 0 else c.rotSum) +
        (((sinceReset l).map fun p => p.1.omega - p.2.omega).map (· * c.period)).sum } := by
  induction l generalizing c with
  | nil => simp [ctlRun, sinceReset]
  | cons k l ih =>
    cases k with
    | reset =>
      show (ctlRun c.reset l).1 = _
      rw [ih]
      by_cases h : CtlCall.reset ∈ l <;> simp [Controller.reset, sinceReset, h]
    | control r y =>
      show (ctlRun (c.control r y).1 l).1 = _
      rw [ih]
      by_cases h : CtlCall.reset ∈ l
      · simp [Controller.control, controlEach, sinceReset, h]
      · simp [Controller.control, controlEach, sinceReset, h]
        constructor <;> ring

/-- **C48.** After any calls since construction, the next `control` gives: for each motor the difference or sum of a
translational and a rotational voltage, each a PID law with feed-forward in which the integral runs over exactly the calls
since the last reset, the present error not included. -/
theorem C48_output (trans rot : Params) (period : ℝ) (pre : List CtlCall) (r y : ControlTarget) :
    let past := sinceReset pre
    let volT := pidVoltage trans period r.v r.a y.v y.a (past.map fun p => p.1.v - p.2.v)
    let volR := pidVoltage rot period r.omega r.alpha y.omega y.alpha (past.map fun p => p.1.omega - p.2.omega)
    (ctlRun (Controller.new trans rot period) (pre ++ [.control r y])).2 =
      (ctlRun (Controller.new trans rot period) pre).2 ++ [⟨volT - volR, volT + volR⟩] := by
  intro past volT volR
  rw [ctlRun_append]
  show _ ++ [((ctlRun (Controller.new trans rot period) pre).1.control r y).2] = _
  rw [ctlRun_sums]
  congr 2
  simp only [Controller.control, controlEach, Controller.new, MotorOutput.mk.injEq, ite_self, zero_add]
  constructor <;> (simp only [volT, volR, pidVoltage, past]; ring)

/-- **C48, reset.** What comes after a reset is as after construction. -/
theorem C48_reset (trans rot : Params) (period : ℝ) (pre post : List CtlCall) :
    (ctlRun (Controller.new trans rot period) (pre ++ .reset :: post)).2 =
      (ctlRun (Controller.new trans rot period) pre).2 ++ (ctlRun (Controller.new trans rot period) post).2 := by
  rw [ctlRun_append]
  show _ ++ (ctlRun (Controller.reset _) post).2 = _
  rw [ctlRun_sums]
  rfl

/-- Two calls, a reset, one call, then another: only the error after the reset counts. -/
example (a b c : ControlTarget × ControlTarget) :
    sinceReset [.control a.1 a.2, .control b.1 b.2, .reset, .control c.1 c.2] = [(c.1, c.2)] := by
  simp [sinceReset]

/-! ## C49 -/

theorem constraint_demand (c : Supervisor) (s : State) (p : ℝ × ℝ) (ux uy : ℝ) :
    (c.constraint s p).1 * ux + (c.constraint s p).2.1 * uy + (c.constraint s p).2.2 = demand c s p ux uy := by
  unfold Supervisor.constraint demand barrier barrier' barrier''
  ring

theorem foldl_min {α : Type} (f : α → ℝ) (l : List α) : ∀ x : α,
    (l.foldl (fun m y => if f m ≤ f y then m else y) x ∈ x :: l) ∧
    ∀ y ∈ x :: l, f (l.foldl (fun m y => if f m ≤ f y then m else y) x) ≤ f y := by
  induction l with
  | nil => intro x; simp
  | cons a l ih =>
    intro x
    rw [List.foldl_cons]
    by_cases h : f x ≤ f a
    · rw [if_pos h]
      obtain ⟨h1, h2⟩ := ih x
      refine ⟨?_, ?_⟩
      · rcases List.mem_cons.1 h1 with e | e
        · rw [e]; exact List.mem_cons_self
        · exact List.mem_cons_of_mem _ (List.mem_cons_of_mem _ e)
      · intro y hy
        rcases List.mem_cons.1 hy with rfl | hy
        · exact h2 _ List.mem_cons_self
        · rcases List.mem_cons.1 hy with rfl | hy
          · exact (h2 x List.mem_cons_self).trans h
          · exact h2 y (List.mem_cons_of_mem _ hy)
    · rw [if_neg h]
      obtain ⟨h1, h2⟩ := ih a
      refine ⟨List.mem_cons_of_mem _ h1, ?_⟩
      intro y hy
      rcases List.mem_cons.1 hy with rfl | hy
      · exact (h2 a List.mem_cons_self).trans (le_of_not_ge h)
      · exact h2 y hy

theorem minBy_spec {α : Type} (f : α → ℝ) (l : List α) (h : l ≠ []) :
    ∃ m, minBy f l = some m ∧ m ∈ l ∧ ∀ y ∈ l, f m ≤ f y := by
  cases l with
  | nil => exact absurd rfl h
  | cons x l => exact ⟨_, rfl, (foldl_min f l x).1, (foldl_min f l x).2⟩

/-- The corrected acceleration: the orthogonal projection on the line. -/
noncomputable def proj (ux uy a1 a2 b : ℝ) : ℝ × ℝ :=
  (ux - a1 * (a1 * ux + a2 * uy + b) / (a1 ^ 2 + a2 ^ 2), uy - a2 * (a1 * ux + a2 * uy + b) / (a1 ^ 2 + a2 ^ 2))

/-- The new jerk. -/
noncomputable def jerk2 (T : Trig) (i : TrackingInput) (ux2 uy2 : ℝ) : F × F :=
  let dr2 := exact.div (.fin ((toPolar i.dux i.duy).1 * (toPolar ux2 uy2).1)) (.fin (toPolar i.ux i.uy).1)
  let dt2 := (toPolar i.dux i.duy).2 + (toPolar ux2 uy2).2 - (toPolar i.ux i.uy).2
  (exact.mul dr2 (.fin (T.cos dt2)), exact.mul dr2 (.fin (T.sin dt2)))

theorem apply_eq (T : Trig) (i : TrackingInput) (a1 a2 b : ℝ) :
    applyConstraints T i a1 a2 b =
      if a1 * i.ux + a2 * i.uy + b ≥ 0 then .ok ⟨i.ux, i.uy, .fin i.dux, .fin i.duy⟩
      else if a1 = 0 ∧ a2 = 0 then .error .unreachable
      else .ok ⟨(proj i.ux i.uy a1 a2 b).1, (proj i.ux i.uy a1 a2 b).2,
        (jerk2 T i (proj i.ux i.uy a1 a2 b).1 (proj i.ux i.uy a1 a2 b).2).1,
        (jerk2 T i (proj i.ux i.uy a1 a2 b).1 (proj i.ux i.uy a1 a2 b).2).2⟩ := by
  unfold applyConstraints
  by_cases h : a1 * i.ux + a2 * i.uy + b ≥ 0
  · rw [if_pos h, if_pos h]
  rw [if_neg h, if_neg h]
  by_cases h2 : a2 = 0
  · by_cases h1 : a1 = 0
    · rw [if_neg (not_not.mpr h2), if_neg (not_not.mpr h1), if_pos ⟨h1, h2⟩]
      rfl
    · rw [if_neg (not_not.mpr h2), if_pos h1, if_neg (fun h => h1 h.1)]
      have e1 : -a2 / a1 * (-(2 * (-a2 / a1 * (-b / a1) - i.uy - -a2 / a1 * i.ux)) / (2 * (-a2 / a1 * (-a2 / a1) + 1))) + -b / a1 =
          (proj i.ux i.uy a1 a2 b).1 := by
        simp only [proj, h2]; field_simp; ring
      have e2 : -(2 * (-a2 / a1 * (-b / a1) - i.uy - -a2 / a1 * i.ux)) / (2 * (-a2 / a1 * (-a2 / a1) + 1)) =
          (proj i.ux i.uy a1 a2 b).2 := by
        simp only [proj, h2]; field_simp; ring
      simp only [bind, Except.bind, pure, Except.pure]
      rw [e1, e2]
      rfl
  · rw [if_pos h2, if_neg (fun h => h2 h.2)]
    have hp : a1 ^ 2 + a2 ^ 2 ≠ 0 := by positivity
    have hq : -a1 / a2 * (-a1 / a2) + 1 ≠ 0 := by
      have : -a1 / a2 * (-a1 / a2) + 1 = (a1 ^ 2 + a2 ^ 2) / a2 ^ 2 := by field_simp
      rw [this]; positivity
    have e2 : -(2 * (-a1 / a2 * (-b / a2) - i.ux - -a1 / a2 * i.uy)) / (2 * (-a1 / a2 * (-a1 / a2) + 1)) =
        (proj i.ux i.uy a1 a2 b).1 := by
      have : -a1 / a2 * (-a1 / a2) + 1 = (a1 ^ 2 + a2 ^ 2) / a2 ^ 2 := by field_simp
      rw [this]; simp only [proj]; field_simp; ring
    have e1 : -a1 / a2 * (-(2 * (-a1 / a2 * (-b / a2) - i.ux - -a1 / a2 * i.uy)) / (2 * (-a1 / a2 * (-a1 / a2) + 1))) + -b / a2 =
        (proj i.ux i.uy a1 a2 b).2 := by
      rw [e2]; simp only [proj]; field_simp; ring
    simp only [bind, Except.bind, pure, Except.pure]
    rw [e1, e2]
    rfl

theorem proj_on {ux uy a1 a2 b : ℝ} (h : ¬ (a1 = 0 ∧ a2 = 0)) :
    a1 * (proj ux uy a1 a2 b).1 + a2 * (proj ux uy a1 a2 b).2 + b = 0 := by
  have hp : a1 ^ 2 + a2 ^ 2 ≠ 0 := by
    intro e
    have h1 : a1 ^ 2 = 0 := by nlinarith [sq_nonneg a1, sq_nonneg a2]
    have h2 : a2 ^ 2 = 0 := by nlinarith [sq_nonneg a1, sq_nonneg a2]
    exact h ⟨by simpa using h1, by simpa using h2⟩
  simp only [proj]
  field_simp
  ring

/-- Nearest point of the half plane. -/
theorem proj_closest {ux uy a1 a2 b : ℝ} (h : ¬ (a1 = 0 ∧ a2 = 0)) (hv : a1 * ux + a2 * uy + b < 0) {x y : ℝ}
    (hxy : 0 ≤ a1 * x + a2 * y + b) :
    sqDist (proj ux uy a1 a2 b).1 (proj ux uy a1 a2 b).2 ux uy ≤ sqDist x y ux uy := by
  have hp : 0 < a1 ^ 2 + a2 ^ 2 := by
    rcases not_and_or.1 h with h | h
    · have := pow_pos (abs_pos.2 h) 2; rw [sq_abs] at this; nlinarith [sq_nonneg a2]
    · have := pow_pos (abs_pos.2 h) 2; rw [sq_abs] at this; nlinarith [sq_nonneg a1]
  obtain ⟨k, hk⟩ : ∃ k, k = a1 * ux + a2 * uy + b := ⟨_, rfl⟩
  have e : sqDist (proj ux uy a1 a2 b).1 (proj ux uy a1 a2 b).2 ux uy = k ^ 2 / (a1 ^ 2 + a2 ^ 2) := by
    simp only [sqDist, proj, ← hk]
    field_simp
    ring
  rw [e, div_le_iff₀ hp]
  have h1 : -k ≤ a1 * (x - ux) + a2 * (y - uy) := by rw [hk]; linarith
  have h2 : 0 < -k := by rw [hk]; linarith
  have h3 : k ^ 2 ≤ (a1 * (x - ux) + a2 * (y - uy)) ^ 2 := by nlinarith
  have h4 : (a1 * (x - ux) + a2 * (y - uy)) ^ 2 ≤ (a1 ^ 2 + a2 ^ 2) * ((x - ux) ^ 2 + (y - uy) ^ 2) := by
    nlinarith [sq_nonneg (a1 * (y - uy) - a2 * (x - ux))]
  unfold sqDist
  nlinarith

/-- **C49.** Whenever `supervise` returns: if the demands of all pillars considered are met the input is returned unchanged.
Otherwise the acceleration returned meets the demand of a pillar with the least value exactly, and no acceleration meeting
that demand is closer to the requested one. -/
theorem C49_supervise (T : Trig) (c : Supervisor) (i : TrackingInput) (s : State) (o : Supervised)
    (h : c.supervise T i s = .ok o) :
    ∃ ps, c.nearestPillars s.x.x s.y.x = .ok ps ∧
      ((∀ p ∈ ps, 0 ≤ demand c s p i.ux i.uy) → o = ⟨i.ux, i.uy, .fin i.dux, .fin i.duy⟩) ∧
      ((∃ p ∈ ps, demand c s p i.ux i.uy < 0) →
        ∃ p ∈ ps, (∀ q ∈ ps, demand c s p i.ux i.uy ≤ demand c s q i.ux i.uy) ∧
          demand c s p o.ux o.uy = 0 ∧
          ∀ x y, 0 ≤ demand c s p x y → sqDist o.ux o.uy i.ux i.uy ≤ sqDist x y i.ux i.uy) := by
  unfold Supervisor.supervise at h
  simp only [bind, Except.bind] at h
  cases hp : c.nearestPillars s.x.x s.y.x with
  | error e => rw [hp] at h; cases h
  | ok ps =>
    rw [hp] at h
    dsimp only at h
    refine ⟨ps, rfl, ?_⟩
    by_cases he : ps = []
    · subst he; simp [minBy, unwrap] at h
    obtain ⟨m, hm1, hm2, hm3⟩ := minBy_spec (fun (c : ℝ × ℝ × ℝ) => c.1 * i.ux + c.2.1 * i.uy + c.2.2)
      (ps.map (c.constraint s)) (by simpa using he)
    rw [hm1] at h
    simp only [unwrap] at h
    obtain ⟨p, hps, rfl⟩ := List.mem_map.1 hm2
    have hmin : ∀ q ∈ ps, demand c s p i.ux i.uy ≤ demand c s q i.ux i.uy := by
      intro q hq
      have := hm3 _ (List.mem_map_of_mem hq)
      rwa [constraint_demand, constraint_demand] at this
    rw [apply_eq] at h
    rw [constraint_demand] at h
    constructor
    · intro hall
      rw [if_pos (hall p hps)] at h
      cases h; rfl
    · rintro ⟨q, hq, hneg⟩
      have hneg' : demand c s p i.ux i.uy < 0 := lt_of_le_of_lt (hmin q hq) hneg
      rw [if_neg (not_le.2 hneg')] at h
      by_cases hz : (c.constraint s p).1 = 0 ∧ (c.constraint s p).2.1 = 0
      · rw [if_pos hz] at h; cases h
      rw [if_neg hz] at h
      cases h
      refine ⟨p, hps, hmin, ?_, ?_⟩
      · rw [← constraint_demand]; exact proj_on hz
      · intro x y hxy
        rw [← constraint_demand] at hxy hneg'
        exact proj_closest hz hneg' hxy

/-- **C49, total.** `supervise` returns whenever the pillars can be computed and the robot is not exactly on one of them. -/
theorem C49_total (T : Trig) (c : Supervisor) (i : TrackingInput) (s : State) (ps : List (ℝ × ℝ)) (hne : ps ≠ [])
    (h : c.nearestPillars s.x.x s.y.x = .ok ps) (hoff : ∀ p ∈ ps, p ≠ (s.x.x, s.y.x)) :
    ∃ o, c.supervise T i s = .ok o := by
  unfold Supervisor.supervise
  simp only [bind, Except.bind, h]
  obtain ⟨m, hm1, hm2, hm3⟩ := minBy_spec (fun (c : ℝ × ℝ × ℝ) => c.1 * i.ux + c.2.1 * i.uy + c.2.2)
    (ps.map (c.constraint s)) (by simpa using hne)
  rw [hm1]
  obtain ⟨p, hps, rfl⟩ := List.mem_map.1 hm2
  simp only [unwrap]
  rw [apply_eq]
  split
  · exact ⟨_, rfl⟩
  · rw [if_neg]
    · exact ⟨_, rfl⟩
    · rintro ⟨h1, h2⟩
      refine hoff p hps (Prod.ext ?_ ?_)
      · simp only [Supervisor.constraint] at h1; linarith
      · simp only [Supervisor.constraint] at h2; linarith

/-- **C49, jerk.** When the acceleration is corrected, and the requested one is not zero, the jerk is turned and scaled just
as the acceleration was: as complex numbers `jerk' / u' = jerk / u`. -/
theorem C49_jerk (i : TrackingInput) (a1 a2 b : ℝ) (o : Supervised) (hu : ¬ (i.ux = 0 ∧ i.uy = 0))
    (h : applyConstraints Trig.real i a1 a2 b = .ok o) :
    ∃ dx dy : ℝ, o.dux = .fin dx ∧ o.duy = .fin dy ∧
      (⟨dx, dy⟩ : ℂ) * ⟨i.ux, i.uy⟩ = (⟨i.dux, i.duy⟩ : ℂ) * ⟨o.ux, o.uy⟩ := by
  rw [apply_eq] at h
  split at h
  · cases h; exact ⟨_, _, rfl, rfl, rfl⟩
  · split at h
    · cases h
    · cases h
      obtain ⟨x, hx⟩ : ∃ x, x = (proj i.ux i.uy a1 a2 b).1 := ⟨_, rfl⟩
      obtain ⟨y, hy⟩ : ∃ y, y = (proj i.ux i.uy a1 a2 b).2 := ⟨_, rfl⟩
      simp only [← hx, ← hy]
      have polar : ∀ x y : ℝ, (⟨x, y⟩ : ℂ) = ((toPolar x y).1 : ℂ) * Complex.exp ((toPolar x y).2 * Complex.I) := by
        intro x y
        have e : (toPolar x y).1 = ‖(⟨x, y⟩ : ℂ)‖ := by
          rw [Complex.norm_def, Complex.normSq_mk]; rfl
        rw [e]
        exact (Complex.norm_mul_exp_arg_mul_I _).symm
      have hr : (toPolar i.ux i.uy).1 ≠ 0 := by
        intro e
        have : i.ux * i.ux + i.uy * i.uy ≤ 0 := Real.sqrt_eq_zero'.1 e
        exact hu ⟨by nlinarith [mul_self_nonneg i.ux, mul_self_nonneg i.uy], by nlinarith [mul_self_nonneg i.ux, mul_self_nonneg i.uy]⟩
      have hd : exact.div (.fin ((toPolar i.dux i.duy).1 * (toPolar x y).1)) (.fin (toPolar i.ux i.uy).1) =
          .fin ((toPolar i.dux i.duy).1 * (toPolar x y).1 / (toPolar i.ux i.uy).1) := by
        simp only [Arith.div]; rw [if_neg hr]; rfl
      refine ⟨(toPolar i.dux i.duy).1 * (toPolar x y).1 / (toPolar i.ux i.uy).1 *
          Real.cos ((toPolar i.dux i.duy).2 + (toPolar x y).2 - (toPolar i.ux i.uy).2),
        (toPolar i.dux i.duy).1 * (toPolar x y).1 / (toPolar i.ux i.uy).1 *
          Real.sin ((toPolar i.dux i.duy).2 + (toPolar x y).2 - (toPolar i.ux i.uy).2), ?_, ?_, ?_⟩
      · simp only [jerk2]; rw [hd]; rfl
      · simp only [jerk2]; rw [hd]; rfl
      · obtain ⟨R, hR⟩ : ∃ R, R = (toPolar i.dux i.duy).1 * (toPolar x y).1 / (toPolar i.ux i.uy).1 := ⟨_, rfl⟩
        obtain ⟨t, ht⟩ : ∃ t, t = (toPolar i.dux i.duy).2 + (toPolar x y).2 - (toPolar i.ux i.uy).2 := ⟨_, rfl⟩
        rw [← hR, ← ht]
        have e1 : (⟨R * Real.cos t, R * Real.sin t⟩ : ℂ) = (R : ℂ) * Complex.exp (t * Complex.I) := by
          rw [Complex.exp_mul_I, ← Complex.ofReal_cos, ← Complex.ofReal_sin]
          rw [Complex.ext_iff]
          simp only [Complex.mul_re, Complex.mul_im, Complex.add_re, Complex.add_im, Complex.ofReal_re, Complex.ofReal_im,
            Complex.I_re, Complex.I_im]
          constructor <;> ring
        rw [e1, polar i.ux i.uy, polar i.dux i.duy, polar x y]
        have e2 : ((toPolar i.ux i.uy).1 : ℂ) * R = (toPolar i.dux i.duy).1 * (toPolar x y).1 := by
          have hr' : ((toPolar i.ux i.uy).1 : ℂ) ≠ 0 := by exact_mod_cast hr
          rw [hR]; push_cast; field_simp
        have e3 : Complex.exp (t * Complex.I) * Complex.exp ((toPolar i.ux i.uy).2 * Complex.I) =
            Complex.exp ((toPolar i.dux i.duy).2 * Complex.I) * Complex.exp ((toPolar x y).2 * Complex.I) := by
          rw [← Complex.exp_add, ← Complex.exp_add, ht]; push_cast; congr 1; ring
        linear_combination (Complex.exp (t * Complex.I) * Complex.exp ((toPolar i.ux i.uy).2 * Complex.I)) * e2 +
          (toPolar i.dux i.duy).1 * (toPolar x y).1 * e3

/-- **C49, failure.** When a correction is needed and the requested acceleration is zero, the jerks returned are infinite or
not a number, whatever the requested jerk. -/
theorem C49_zero_request (T : Trig) (i : TrackingInput) (a1 a2 b : ℝ) (o : Supervised) (hx : i.ux = 0) (hy : i.uy = 0)
    (hb : b < 0) (h : applyConstraints T i a1 a2 b = .ok o) : ∀ z, o.dux ≠ .fin z ∧ o.duy ≠ .fin z := by
  rw [apply_eq] at h
  rw [if_neg (by rw [hx, hy]; simpa using hb)] at h
  split at h
  · cases h
  · cases h
    intro z
    have hd : ∀ v, (∃ e, exact.div (.fin v) (.fin (toPolar i.ux i.uy).1) = e ∧ (e = .pinf ∨ e = .ninf ∨ e = .nan)) := by
      intro v
      have e : (toPolar i.ux i.uy).1 = 0 := by simp [toPolar, hx, hy]
      refine ⟨_, rfl, ?_⟩
      simp only [Arith.div, e, if_true, F.infOf]
      split
      · left; rfl
      · split
        · right; left; rfl
        · right; right; rfl
    have hm : ∀ e : F, (e = .pinf ∨ e = .ninf ∨ e = .nan) → ∀ v, exact.mul e (.fin v) ≠ .fin z := by
      rintro e (rfl | rfl | rfl) v
      · simp only [Arith.mul, F.infOf]; split <;> [skip; split] <;> simp
      · simp only [Arith.mul, F.infOf]; split <;> [skip; split] <;> simp
      · simp [Arith.mul]
    obtain ⟨e, he, he'⟩ := hd ((toPolar i.dux i.duy).1 * (toPolar (proj i.ux i.uy a1 a2 b).1 (proj i.ux i.uy a1 a2 b).2).1)
    simp only [jerk2]
    rw [he]
    exact ⟨hm e he' _, hm e he' _⟩

/-! ## C50 -/

theorem wrapI8_small {n : Nat} (h : n < 128) : wrapI8 n = n := by
  unfold wrapI8
  rw [Nat.mod_eq_of_lt (by omega), if_pos h]

theorem remquof_eq {x : ℝ} {n : Nat} (hn : 0 < n) {i : Nat} (hi : i < 128) (h1 : i * (n / 1000 : ℝ) ≤ x)
    (h2 : x < (i + 1) * (n / 1000 : ℝ)) : remquof x (n / 1000) = .ok ((i : Int), x - (n / 1000) * i) := by
  unfold remquof toUsize
  have e1 : ⌊(n / 1000 : ℝ) * 1000⌋₊ = n := by
    rw [div_mul_cancel₀ _ (by norm_num : (1000 : ℝ) ≠ 0)]; exact Nat.floor_natCast n
  have e2 : ⌊x * 1000⌋₊ / n = i := by
    have hx : 0 ≤ x * 1000 := by
      have : (0 : ℝ) ≤ i * (n / 1000 : ℝ) := by positivity
      linarith
    have l1 : i * n ≤ ⌊x * 1000⌋₊ := by
      apply Nat.le_floor
      push_cast
      have := mul_le_mul_of_nonneg_right h1 (by norm_num : (0 : ℝ) ≤ 1000)
      calc (i : ℝ) * n = i * (n / 1000 : ℝ) * 1000 := by ring
        _ ≤ _ := this
    have l2 : ⌊x * 1000⌋₊ < (i + 1) * n := by
      rw [Nat.floor_lt hx]
      push_cast
      have := mul_lt_mul_of_pos_right h2 (by norm_num : (0 : ℝ) < 1000)
      calc x * 1000 < (i + 1) * (n / 1000 : ℝ) * 1000 := this
        _ = _ := by ring
    apply Nat.div_eq_of_lt_le
    · rwa [mul_comm] at l1 ⊢ <;> simpa [mul_comm] using l1
    · simpa [mul_comm] using l2
  simp only [e1]
  rw [if_neg (by omega), e2, wrapI8_small hi]

theorem addI8_ok {a b : Int} (h1 : -128 ≤ a + b) (h2 : a + b ≤ 127) : addI8 a b = .ok (a + b) := if_pos ⟨h1, h2⟩

/-- **C50.** For a robot in the cell with pillars `(i, j)` to `(i + 1, j + 1)` at its corners, the pillars looked at are the
corners of the next cell up and to the right, and the two more beyond that side of the next cell which corresponds to the
triangle of its own cell the robot is in (the diagonals cut a cell into a top, left, right and bottom triangle). -/
theorem C50_which (c : Supervisor) (n : Nat) (hn : 0 < n) (hw : c.squareWidth = n / 1000) (x y : ℝ) (i j : Nat)
    (hi : i ≤ 124) (hj : j ≤ 124) (hx1 : i * c.squareWidth ≤ x) (hx2 : x < (i + 1) * c.squareWidth)
    (hy1 : j * c.squareWidth ≤ y) (hy2 : y < (j + 1) * c.squareWidth) :
    ∃ p q, c.nearestPillars x y = .ok [pillar c (i + 1) (j + 1), pillar c (i + 2) (j + 1), pillar c (i + 1) (j + 2),
        pillar c (i + 2) (j + 2), p, q] ∧
      ((x - i * c.squareWidth < y - j * c.squareWidth ∧ c.squareWidth - (x - i * c.squareWidth) < y - j * c.squareWidth ∧
          (p, q) = (pillar c (i + 1) (j + 3), pillar c (i + 2) (j + 3))) ∨
       (x - i * c.squareWidth < y - j * c.squareWidth ∧ y - j * c.squareWidth ≤ c.squareWidth - (x - i * c.squareWidth) ∧
          (p, q) = (pillar c i (j + 1), pillar c i (j + 2))) ∨
       (y - j * c.squareWidth ≤ x - i * c.squareWidth ∧ c.squareWidth - (x - i * c.squareWidth) < y - j * c.squareWidth ∧
          (p, q) = (pillar c (i + 3) (j + 1), pillar c (i + 3) (j + 2))) ∨
       (y - j * c.squareWidth ≤ x - i * c.squareWidth ∧ y - j * c.squareWidth ≤ c.squareWidth - (x - i * c.squareWidth) ∧
          (p, q) = (pillar c (i + 1) j, pillar c (i + 2) j))) := by
  unfold Supervisor.nearestPillars
  rw [hw] at hx1 hx2 hy1 hy2
  rw [hw, remquof_eq hn (by omega) hx1 hx2, remquof_eq hn (by omega) hy1 hy2]
  simp only [bind, Except.bind]
  rw [addI8_ok (a := i) (b := 1) (by omega) (by omega), addI8_ok (a := j) (b := 1) (by omega) (by omega)]
  dsimp only
  have e : ∀ (a b : Int), -1 ≤ a → a ≤ 126 → -1 ≤ b → b ≤ 126 → c.place (a, b) = .ok (pillar c (a + 1) (b + 1)) := by
    intro a b h1 h2 h3 h4
    unfold Supervisor.place
    rw [addI8_ok (by omega) (by omega), addI8_ok (by omega) (by omega)]
    rfl
  have a2 : ((i : Int) + 1 + 1) = i + 2 := by ring
  have b2 : ((j : Int) + 1 + 1) = j + 2 := by ring
  have a3 : ((i : Int) + 2 + 1) = i + 3 := by ring
  have b3 : ((j : Int) + 2 + 1) = j + 3 := by ring
  have a0 : ((i : Int) + -1 + 1) = i := by ring
  have b0 : ((j : Int) + -1 + 1) = j := by ring
  have cc {u v : ℝ} (h : v - n / 1000 * j > u - n / 1000 * i) : u - i * (n / 1000 : ℝ) < v - j * (n / 1000 : ℝ) := by linarith
  have cd {u v : ℝ} (h : v - n / 1000 * j > n / 1000 - (u - n / 1000 * i)) :
      n / 1000 - (u - i * (n / 1000 : ℝ)) < v - j * (n / 1000 : ℝ) := by linarith
  have cf {u v : ℝ} (h : ¬ v - n / 1000 * j > u - n / 1000 * i) : v - j * (n / 1000 : ℝ) ≤ u - i * (n / 1000 : ℝ) := by linarith
  have ce {u v : ℝ} (h : ¬ v - n / 1000 * j > n / 1000 - (u - n / 1000 * i)) :
      v - j * (n / 1000 : ℝ) ≤ n / 1000 - (u - i * (n / 1000 : ℝ)) := by linarith
  split
  · rename_i c1
    split
    · rename_i c2
      rw [addI8_ok (a := j) (b := 2) (by omega) (by omega)]
      refine ⟨pillar c (i + 1) (j + 3), pillar c (i + 2) (j + 3), ?_, Or.inl ⟨cc c1, cd c2, rfl⟩⟩
      simp only [pure, Except.pure, List.cons_append, List.nil_append, List.mapM_cons, List.mapM_nil, bind, Except.bind]
      rw [e i j, e (i + 1) j, e i (j + 1), e (i + 1) (j + 1), e i (j + 2), e (i + 1) (j + 2)] <;> first | omega | skip
      simp only [a2, b2, b3]
    · rename_i c2
      rw [addI8_ok (a := i) (b := -1) (by omega) (by omega)]
      refine ⟨pillar c i (j + 1), pillar c i (j + 2), ?_, Or.inr (Or.inl ⟨cc c1, ce c2, rfl⟩)⟩
      simp only [pure, Except.pure, List.cons_append, List.nil_append, List.mapM_cons, List.mapM_nil, bind, Except.bind]
      rw [e i j, e (i + 1) j, e i (j + 1), e (i + 1) (j + 1), e (i + -1) j, e (i + -1) (j + 1)] <;> first | omega | skip
      simp only [a2, b2, a0]
  · rename_i c1
    split
    · rename_i c2
      rw [addI8_ok (a := i) (b := 2) (by omega) (by omega)]
      refine ⟨pillar c (i + 3) (j + 1), pillar c (i + 3) (j + 2), ?_, Or.inr (Or.inr (Or.inl ⟨cf c1, cd c2, rfl⟩))⟩
      simp only [pure, Except.pure, List.cons_append, List.nil_append, List.mapM_cons, List.mapM_nil, bind, Except.bind]
      rw [e i j, e (i + 1) j, e i (j + 1), e (i + 1) (j + 1), e (i + 2) j, e (i + 2) (j + 1)] <;> first | omega | skip
      simp only [a2, b2, a3]
    · rename_i c2
      rw [addI8_ok (a := j) (b := -1) (by omega) (by omega)]
      refine ⟨pillar c (i + 1) j, pillar c (i + 2) j, ?_, Or.inr (Or.inr (Or.inr ⟨cf c1, ce c2, rfl⟩))⟩
      simp only [pure, Except.pure, List.cons_append, List.nil_append, List.mapM_cons, List.mapM_nil, bind, Except.bind]
      rw [e i j, e (i + 1) j, e i (j + 1), e (i + 1) (j + 1), e i (j + -1), e (i + 1) (j + -1)] <;> first | omega | skip
      simp only [a2, b2, b0]

/-- **C50**, without the conditions. -/
theorem C50_pillars (c : Supervisor) (n : Nat) (hn : 0 < n) (hw : c.squareWidth = n / 1000) (x y : ℝ) (i j : Nat)
    (hi : i ≤ 124) (hj : j ≤ 124) (hx1 : i * c.squareWidth ≤ x) (hx2 : x < (i + 1) * c.squareWidth)
    (hy1 : j * c.squareWidth ≤ y) (hy2 : y < (j + 1) * c.squareWidth) :
    ∃ p q, c.nearestPillars x y = .ok [pillar c (i + 1) (j + 1), pillar c (i + 2) (j + 1), pillar c (i + 1) (j + 2),
        pillar c (i + 2) (j + 2), p, q] ∧
      ((p, q) = (pillar c (i + 1) (j + 3), pillar c (i + 2) (j + 3)) ∨
       (p, q) = (pillar c i (j + 1), pillar c i (j + 2)) ∨
       (p, q) = (pillar c (i + 3) (j + 1), pillar c (i + 3) (j + 2)) ∨
       (p, q) = (pillar c (i + 1) j, pillar c (i + 2) j)) := by
  obtain ⟨p, q, h, hh⟩ := C50_which c n hn hw x y i j hi hj hx1 hx2 hy1 hy2
  refine ⟨p, q, h, ?_⟩
  rcases hh with hh | hh | hh | hh
  · exact .inl hh.2.2
  · exact .inr (.inl hh.2.2)
  · exact .inr (.inr (.inl hh.2.2))
  · exact .inr (.inr (.inr hh.2.2))

theorem pillar_inj {c : Supervisor} (hc : c.squareWidth ≠ 0) {i j i' j' : Int} (h : pillar c i j = pillar c i' j') :
    i = i' ∧ j = j' := by
  simp only [pillar, Prod.mk.injEq] at h
  exact ⟨by exact_mod_cast mul_right_cancel₀ hc h.1, by exact_mod_cast mul_right_cancel₀ hc h.2⟩

/-- **C50, consequence.** The lower left corner of the robot's own cell is never looked at. -/
theorem C50_misses (c : Supervisor) (n : Nat) (hn : 0 < n) (hw : c.squareWidth = n / 1000) (x y : ℝ) (i j : Nat)
    (hi : i ≤ 124) (hj : j ≤ 124) (hx1 : i * c.squareWidth ≤ x) (hx2 : x < (i + 1) * c.squareWidth)
    (hy1 : j * c.squareWidth ≤ y) (hy2 : y < (j + 1) * c.squareWidth) :
    ∃ ps, c.nearestPillars x y = .ok ps ∧ pillar c i j ∉ ps := by
  obtain ⟨p, q, h, hpq⟩ := C50_pillars c n hn hw x y i j hi hj hx1 hx2 hy1 hy2
  refine ⟨_, h, ?_⟩
  have hc : c.squareWidth ≠ 0 := by rw [hw]; positivity
  have hne : ∀ a b : Int, (a ≠ i ∨ b ≠ j) → pillar c i j ≠ pillar c a b := by
    intro a b hab e
    obtain ⟨e1, e2⟩ := pillar_inj hc e
    omega
  intro hm
  simp only [List.mem_cons, List.not_mem_nil, or_false] at hm
  rcases hm with hm | hm | hm | hm | hm | hm
  · exact hne _ _ (by omega) hm
  · exact hne _ _ (by omega) hm
  · exact hne _ _ (by omega) hm
  · exact hne _ _ (by omega) hm
  · rcases hpq with e | e | e | e <;> (rw [Prod.mk.injEq] at e; rw [e.1] at hm; exact hne _ _ (by omega) hm)
  · rcases hpq with e | e | e | e <;> (rw [Prod.mk.injEq] at e; rw [e.2] at hm; exact hne _ _ (by omega) hm)

/-- **C50, a collision that is not prevented.** A robot at rest closer than the avoidance distance to the lower left corner
of its cell: the demand of that pillar is violated, yet the request for no acceleration is returned unchanged. -/
theorem C50_unguarded (T : Trig) (c : Supervisor) (n : Nat) (hn : 0 < n) (hw : c.squareWidth = n / 1000)
    (hm : c.margin ≠ 0) (hd : 0 < c.avoidance) (hd2 : 2 * c.avoidance ≤ c.squareWidth) (i j : Nat) (hi : i ≤ 124)
    (hj : j ≤ 124) (e : ℝ) (he : 0 < e) (he2 : 2 * e ^ 2 < c.avoidance ^ 2) :
    let s : State := ⟨⟨i * c.squareWidth + e, 0, 0⟩, ⟨j * c.squareWidth + e, 0, 0⟩, ⟨0, 0, 0⟩⟩
    demand c s (pillar c i j) 0 0 < 0 ∧ c.supervise T ⟨0, 0, 0, 0⟩ s = .ok ⟨0, 0, .fin 0, .fin 0⟩ := by
  intro s
  have hs : 0 < c.squareWidth := by linarith
  have hed : e < c.avoidance := by nlinarith
  have hm2 : 0 < c.margin ^ 2 := by positivity
  refine ⟨?_, ?_⟩
  · have : demand c s (pillar c i j) 0 0 = c.margin ^ 2 * (2 * e ^ 2 - c.avoidance ^ 2) := by
      simp only [demand, barrier, barrier', barrier'', pillar, s]
      push_cast
      ring
    rw [this]
    nlinarith
  · obtain ⟨p, q, h, hpq⟩ := C50_pillars c n hn hw (i * c.squareWidth + e) (j * c.squareWidth + e) i j hi hj
      (by linarith) (by nlinarith) (by linarith) (by nlinarith)
    have hdem : ∀ a b : Int, (1 ≤ a ∨ 1 ≤ b) → 0 ≤ demand c s (pillar c (i + a) (j + b)) 0 0 := by
      intro a b hab
      have e1 : demand c s (pillar c (i + a) (j + b)) 0 0 =
          c.margin ^ 2 * ((e - a * c.squareWidth) ^ 2 + (e - b * c.squareWidth) ^ 2 - c.avoidance ^ 2) := by
        simp only [demand, barrier, barrier', barrier'', pillar, s]
        push_cast
        ring
      rw [e1]
      apply mul_nonneg hm2.le
      have key : ∀ a : Int, 1 ≤ a → c.avoidance ^ 2 ≤ (e - a * c.squareWidth) ^ 2 := by
        intro a ha
        have : (1 : ℝ) ≤ a := by exact_mod_cast ha
        have h3 : c.avoidance ≤ a * c.squareWidth - e := by nlinarith
        nlinarith
      rcases hab with h | h
      · have := key a h; nlinarith [sq_nonneg (e - b * c.squareWidth)]
      · have := key b h; nlinarith [sq_nonneg (e - a * c.squareWidth)]
    have hz : ∀ p' ∈ [pillar c (i + 1) (j + 1), pillar c (i + 2) (j + 1), pillar c (i + 1) (j + 2),
        pillar c (i + 2) (j + 2), p, q], 0 ≤ demand c s p' 0 0 := by
      have i0 : pillar c (i : Int) = pillar c (i + 0) := by rw [add_zero]
      have j0 : ∀ a, pillar c a (j : Int) = pillar c a (j + 0) := by intro a; rw [add_zero]
      intro p' hp'
      simp only [List.mem_cons, List.not_mem_nil, or_false] at hp'
      rcases hp' with rfl | rfl | rfl | rfl | rfl | rfl
      · exact hdem 1 1 (by omega)
      · exact hdem 2 1 (by omega)
      · exact hdem 1 2 (by omega)
      · exact hdem 2 2 (by omega)
      · rcases hpq with e | e | e | e <;> rw [Prod.mk.injEq] at e <;> rw [e.1]
        · exact hdem 1 3 (by omega)
        · rw [i0]; exact hdem 0 1 (by omega)
        · exact hdem 3 1 (by omega)
        · rw [j0]; exact hdem 1 0 (by omega)
      · rcases hpq with e | e | e | e <;> rw [Prod.mk.injEq] at e <;> rw [e.2]
        · exact hdem 2 3 (by omega)
        · rw [i0]; exact hdem 0 2 (by omega)
        · exact hdem 3 2 (by omega)
        · rw [j0]; exact hdem 2 0 (by omega)
    obtain ⟨o, ho⟩ : ∃ o, c.supervise T ⟨0, 0, 0, 0⟩ s = .ok o := by
      refine C49_total T c _ s _ (by simp) h ?_
      intro p' hp' e'
      have := hz p' hp'
      rw [e'] at this
      have e2 : demand c s (s.x.x, s.y.x) 0 0 = -(c.margin ^ 2 * c.avoidance ^ 2) := by
        simp only [demand, barrier, barrier', barrier'', s]; ring
      rw [e2] at this
      nlinarith [mul_pos hm2 (pow_pos hd 2)]
    obtain ⟨ps, h1, h2, -⟩ := C49_supervise T c _ s o ho
    rw [h] at h1
    cases h1
    rw [ho, h2 hz]

/-- The default square width 90 mm with 30 mm avoidance, robot 20 mm from both walls of cell (2, 3). -/
example : (90 / 1000 : ℝ) = ((90 : Nat) : ℝ) / 1000 ∧ 2 * (0.03 : ℝ) ≤ 0.09 ∧ 2 * (0.02 : ℝ) ^ 2 < 0.03 ^ 2 := by norm_num

/-- A robot at rest in the upper right corner of cell `(0, 0)`, 1 cm off the pillar: the demand of that pillar is violated by
the request to do nothing, so the second case of `C49_supervise` applies and the demand holds with equality afterwards. -/
example (T : Trig) : let c : Supervisor := ⟨1, 0.03, 0.09⟩
    let s : State := ⟨⟨0.08, 0, 0⟩, ⟨0.08, 0, 0⟩, ⟨0, 0, 0⟩⟩
    demand c s (pillar c 1 1) 0 0 < 0 ∧
    ∃ o p, c.supervise T ⟨0, 0, 0, 0⟩ s = .ok o ∧ demand c s p 0 0 < 0 ∧ demand c s p o.ux o.uy = 0 := by
  intro c s
  have hlt : demand c s (pillar c 1 1) 0 0 < 0 := by
    norm_num [demand, barrier, barrier', barrier'', pillar, c, s]
  refine ⟨hlt, ?_⟩
  obtain ⟨p, q, hps, hpq⟩ := C50_pillars c 90 (by norm_num) (by norm_num [c]) 0.08 0.08 0 0 (by norm_num) (by norm_num)
    (by norm_num [c]) (by norm_num [c]) (by norm_num [c]) (by norm_num [c])
  norm_num only [Nat.cast_zero, zero_add] at hps hpq
  have hoff : ∀ r ∈ [pillar c 1 1, pillar c 2 1, pillar c 1 2, pillar c 2 2, p, q], r ≠ ((8 / 100 : ℝ), (8 / 100 : ℝ)) := by
    have hne : ∀ a b : Int, pillar c a b ≠ ((8 / 100 : ℝ), (8 / 100 : ℝ)) := by
      intro a b e
      have e1 : (a : ℝ) * 0.09 = 8 / 100 := congrArg Prod.fst e
      have e2 : ((a * 9 : Int) : ℝ) = ((8 : Int) : ℝ) := by push_cast; linarith
      have := Int.cast_injective e2
      omega
    intro r hr
    simp only [List.mem_cons, List.not_mem_nil, or_false] at hr
    simp only [Prod.mk.injEq] at hpq
    rcases hr with rfl | rfl | rfl | rfl | rfl | rfl
    any_goals exact hne _ _
    · rcases hpq with h | h | h | h <;> (rw [h.1]; exact hne _ _)
    · rcases hpq with h | h | h | h <;> (rw [h.2]; exact hne _ _)
  have hx : s.x.x = 8 / 100 := by norm_num [s]
  have hps' : c.nearestPillars s.x.x s.y.x = .ok [pillar c 1 1, pillar c 2 1, pillar c 1 2, pillar c 2 2, p, q] := by
    rw [hx]; convert hps using 2 <;> norm_num [s]
  obtain ⟨o, ho⟩ := C49_total T c ⟨0, 0, 0, 0⟩ s _ (by simp) hps' (by rw [hx]; exact hoff)
  obtain ⟨ps, h1, _, h2⟩ := C49_supervise T c ⟨0, 0, 0, 0⟩ s o ho
  rw [hps'] at h1
  cases h1
  obtain ⟨r, hr1, hr2, hr3, _⟩ := h2 ⟨pillar c 1 1, by simp, hlt⟩
  exact ⟨o, r, ho, lt_of_le_of_lt (hr2 _ (by simp)) hlt, hr3⟩

/-! ## C51 -/

/-- **C51.** The result is in `(-pi, pi]` and differs from the argument by whole turns; these two facts determine it. -/
theorem C51_normalize (pi : ℝ) (hp : 0 < pi) (angle r : ℝ) :
    normalizeAngle pi angle = r ↔ (-pi < r ∧ r ≤ pi) ∧ ∃ k : Int, r = angle + k * (2 * pi) := by
  have h1 := Int.floor_le (angle / (2 * pi))
  have h2 := Int.lt_floor_add_one (angle / (2 * pi))
  rw [le_div_iff₀ (by positivity)] at h1
  rw [div_lt_iff₀ (by positivity)] at h2
  have main : (-pi < normalizeAngle pi angle ∧ normalizeAngle pi angle ≤ pi) ∧
      ∃ k : Int, normalizeAngle pi angle = angle + k * (2 * pi) := by
    unfold normalizeAngle
    dsimp only
    split
    · rename_i h
      refine ⟨⟨by linarith, by linarith⟩, -(⌊angle / (2 * pi)⌋ + 1), ?_⟩
      push_cast; ring
    · rename_i h
      refine ⟨⟨by linarith, by linarith⟩, -⌊angle / (2 * pi)⌋, ?_⟩
      push_cast; ring
  constructor
  · rintro rfl; exact main
  · rintro ⟨⟨h3, h4⟩, k, hk⟩
    obtain ⟨⟨h5, h6⟩, k', hk'⟩ := main
    have : ((k - k' : Int) : ℝ) * (2 * pi) = r - normalizeAngle pi angle := by rw [hk, hk']; push_cast; ring
    have l1 : ((k - k' : Int) : ℝ) < 1 := by
      by_contra hc; push Not at hc
      nlinarith
    have l2 : (-1 : ℝ) < ((k - k' : Int) : ℝ) := by
      by_contra hc; push Not at hc
      nlinarith
    have l3 : k - k' < 1 := by exact_mod_cast l1
    have l4 : -1 < k - k' := by exact_mod_cast l2
    have : k = k' := by omega
    rw [hk, hk', this]

example : normalizeAngle Real.pi (-(5 / 3) * Real.pi) = Real.pi / 3 := by
  have := Real.pi_pos
  rw [C51_normalize _ this]
  exact ⟨⟨by linarith, by linarith⟩, 1, by push_cast; ring⟩

/-! ## C52 -/

/-- **C52, navigation.** On target the input is the acceleration and the jerk of the target. -/
theorem C52_navigate (n : Navigation) (s : State) (t : Target) (h : OnTarget s t) :
    n.navigate s t = ⟨t.x.a, t.y.a, t.x.j, t.y.j⟩ := by
  subst h
  simp [Navigation.navigate]

/-- **C52, low speed.** When the target or the internal speed is at most the threshold, a tracker on target commands the
forward speed, the turn rate, the forward acceleration and the angular acceleration of the target. (For any functions with
`cos 0 = 1`.) -/
theorem C52_low (T : Trig) (hT : T.cos 0 = 1) (pi : ℝ) (hp : 0 < pi) (k : Tracker) (s : State) (t : Target)
    (i : TrackingInput) (h : OnTarget s t)
    (hlow : |t.x.v * T.cos t.theta.x + t.y.v * T.sin t.theta.x| ≤ k.xiThreshold ∨
      |k.xi + k.period * (i.ux * T.cos t.theta.x + i.uy * T.sin t.theta.x)| ≤ k.xiThreshold) :
    (k.track T pi s t i).2.1 = ⟨t.x.v * T.cos t.theta.x + t.y.v * T.sin t.theta.x,
      t.x.a * T.cos t.theta.x + t.y.a * T.sin t.theta.x, t.theta.v, t.theta.a⟩ ∧
    (k.track T pi s t i).2.2 = (k.track T pi s t i).2.1 := by
  subst h
  have h0 : normalizeAngle pi (t.theta.x - t.theta.x) = 0 := by
    rw [C51_normalize pi hp]; exact ⟨⟨by linarith, hp.le⟩, 0, by simp⟩
  have hc : ¬ (k.xiThreshold < |t.x.v * T.cos t.theta.x + t.y.v * T.sin t.theta.x| ∧
      k.xiThreshold < |k.xi + k.period * (i.ux * T.cos t.theta.x + i.uy * T.sin t.theta.x)|) := by
    rintro ⟨h1, h2⟩
    rcases hlow with h | h <;> linarith
  unfold Tracker.track
  dsimp only
  rw [if_neg hc, h0, hT]
  constructor <;> simp [sinc]

/-- **C52, high speed.** When the target is a motion along its own heading, the input is its acceleration and jerk, and the
internal speed arrives at the speed of the target, then also above the threshold the tracker commands exactly the speed,
acceleration, turn rate and angular acceleration of the target. -/
theorem C52_high (pi : ℝ) (k : Tracker) (s : State) (t : Target) (v a j : ℝ) (h : OnTarget s t) (ht : Feasible t v a j)
    (hth : 0 ≤ k.xiThreshold) (hv : k.xiThreshold < |v|) (hxi : k.xi + k.period * a = v) :
    k.track Trig.real pi s t ⟨t.x.a, t.y.a, t.x.j, t.y.j⟩ =
      ({ k with xi := v }, ⟨v, a, t.theta.v, t.theta.a⟩, ⟨v, a, t.theta.v, t.theta.a⟩) := by
  subst h
  have hcs := Real.sin_sq_add_cos_sq t.theta.x
  obtain ⟨vx, vy, ax, ay, jx, jy⟩ := ht
  have e1 : t.x.v * Real.cos t.theta.x + t.y.v * Real.sin t.theta.x = v := by
    rw [vx, vy]; linear_combination v * hcs
  have e2 : t.x.a * Real.cos t.theta.x + t.y.a * Real.sin t.theta.x = a := by
    rw [ax, ay]; linear_combination a * hcs
  have e3 : t.y.a * Real.cos t.theta.x - t.x.a * Real.sin t.theta.x = v * t.theta.v := by
    rw [ax, ay]; linear_combination v * t.theta.v * hcs
  have e4 : t.x.j * Real.sin t.theta.x - t.y.j * Real.cos t.theta.x = -(2 * a * t.theta.v + v * t.theta.a) := by
    rw [jx, jy]; linear_combination -(2 * a * t.theta.v + v * t.theta.a) * hcs
  have hv0 : v ≠ 0 := by rintro rfl; simp at hv; linarith
  have hc : k.xiThreshold < |t.x.v * Trig.real.cos t.theta.x + t.y.v * Trig.real.sin t.theta.x| ∧
      k.xiThreshold < |k.xi + k.period * (t.x.a * Trig.real.cos t.theta.x + t.y.a * Trig.real.sin t.theta.x)| := by
    show k.xiThreshold < |t.x.v * Real.cos t.theta.x + t.y.v * Real.sin t.theta.x| ∧
      k.xiThreshold < |k.xi + k.period * (t.x.a * Real.cos t.theta.x + t.y.a * Real.sin t.theta.x)|
    rw [e1, e2, hxi]; exact ⟨hv, hv⟩
  unfold Tracker.track
  dsimp only
  rw [if_pos hc]
  simp only [Trig.real]
  rw [e1, e2, e3, hxi]
  have e5 : v * t.theta.v / v = t.theta.v := by field_simp
  have e6 : -((2 * a * t.theta.v + t.x.j * Real.sin t.theta.x - t.y.j * Real.cos t.theta.x) / v) = t.theta.a := by
    have : 2 * a * t.theta.v + t.x.j * Real.sin t.theta.x - t.y.j * Real.cos t.theta.x = -(v * t.theta.a) := by
      linear_combination e4
    rw [this]; field_simp
  rw [e5, e6]

/-- A circle at constant speed is such a target. -/
example (th v w : ℝ) : Feasible ⟨⟨0, v * Real.cos th, -(v * w * Real.sin th), -(v * w ^ 2) * Real.cos th⟩,
    ⟨0, v * Real.sin th, v * w * Real.cos th, -(v * w ^ 2) * Real.sin th⟩, ⟨th, w, 0, 0⟩⟩ v 0 0 := by
  constructor <;> simp <;> ring

end Verif.Props
