import Verif.Spec.Estimate
import Mathlib.Tactic.Ring
import Mathlib.Tactic.Linarith
import Mathlib.Tactic.FieldSimp
import Mathlib.Tactic.NormNum
import Mathlib.Tactic.LinearCombination
import Mathlib.Tactic.Positivity
/-!
# C53 – C55: the estimator
-/
namespace Verif.Props
open Verif Verif.Control Verif.Estimate Verif.Spec

theorem estRun_const (T : Trig) (l : List Sensor) : ∀ (e : Estimator) (s : State),
    (estRun T e s l).1.period = e.period ∧ (estRun T e s l).1.alpha = e.alpha ∧
    (estRun T e s l).1.slipConst = e.slipConst ∧ (estRun T e s l).1.approxTh = e.approxTh := by
  induction l with
  | nil => intro e s; exact ⟨rfl, rfl, rfl, rfl⟩
  | cons v l ih => intro e s; exact ih _ _

theorem estRun_append (T : Trig) (l l' : List Sensor) : ∀ (e : Estimator) (s : State),
    estRun T e s (l ++ l') = estRun T (estRun T e s l).1 (estRun T e s l).2 l' := by
  induction l with
  | nil => intro e s; rfl
  | cons v l ih => intro e s; exact ih _ _

/-! ## C53 -/

/-- **C53.** The heading is the initial heading plus the sum of the turn rates times the period, for any trigonometric
functions and whatever the other sensor values. -/
theorem C53_heading (T : Trig) (l : List Sensor) : ∀ (e : Estimator) (s : State),
    (estRun T e s l).2.theta.x = s.theta.x + (l.map fun v => v.omega * e.period).sum := by
  induction l with
  | nil => intro e s; simp [estRun]
  | cons v l ih =>
    intro e s
    show (estRun T (e.estimate T s v).1 (e.estimate T s v).2 l).2.theta.x = _
    rw [ih, List.map_cons, List.sum_cons]
    show s.theta.x + v.omega * e.period + (l.map fun w => w.omega * e.period).sum = _
    ring

/-- **C53.** After a sequence of estimates the reported turn rate is the last one measured, and the angular acceleration is
the difference quotient of the last two turn rates. -/
theorem C53_rate (T : Trig) (e : Estimator) (s : State) (l : List Sensor) (v : Sensor) :
    (estRun T e s (l ++ [v])).2.theta.v = v.omega ∧
    (estRun T e s (l ++ [v])).2.theta.a = (v.omega - (estRun T e s l).2.theta.v) / e.period := by
  rw [estRun_append]
  refine ⟨rfl, ?_⟩
  show (v.omega - (estRun T e s l).2.theta.v) / (estRun T e s l).1.period = _
  rw [(estRun_const T l e s).1]

example (T : Trig) (e : Estimator) (s : State) (a b : Sensor) (h : e.period = 1 / 1000) :
    (estRun T e s [a, b]).2.theta.x = s.theta.x + (a.omega + b.omega) / 1000 := by
  rw [C53_heading]; simp [h]; ring

/-! ## C54 -/

theorem nextVel_eq (e : Estimator) (s : Sensor) :
    e.nextVel s = e.alpha * (e.vel + s.acc * e.period) + (1 - e.alpha) * wheelSpeed e.period s := by
  unfold Estimator.nextVel wheelSpeed
  congr 2
  rw [← add_div, div_div, mul_comm e.period]

/-- **C54, convergence.** With no measured acceleration and constant wheel speed the error shrinks by `alpha` each step. -/
theorem C54_converges (T : Trig) (V : ℝ) (l : List Sensor) : ∀ (e : Estimator) (s : State),
    (∀ v ∈ l, v.acc = 0 ∧ wheelSpeed e.period v = V) →
    (estRun T e s l).1.vel - V = e.alpha ^ l.length * (e.vel - V) := by
  induction l with
  | nil => intro e s _; simp [estRun]
  | cons v l ih =>
    intro e s h
    show (estRun T (e.estimate T s v).1 (e.estimate T s v).2 l).1.vel - V = _
    rw [ih (e.estimate T s v).1 (e.estimate T s v).2 (fun w hw => h w (List.mem_cons_of_mem _ hw))]
    show e.alpha ^ l.length * (e.nextVel v - V) = _
    obtain ⟨h1, h2⟩ := h v List.mem_cons_self
    rw [nextVel_eq, h1, h2, List.length_cons]
    ring

/-- **C54, exactness and robustness.** Let `V k` be the true speed before the `k`-th estimate. If the accelerometer is off by
at most `dA` from the difference quotient of the true speed, and the wheels by at most `dW` from the speed after the step,
then the error is at most `alpha ^ n` times the initial error plus the bound of the geometric series. With exact sensors and
start the estimate is exact for ever. -/
theorem C54_error (T : Trig) (V : Nat → ℝ) (dA dW : ℝ) (l : List Sensor) : ∀ (e : Estimator) (s : State) (k : Nat),
    0 < e.period → 0 ≤ e.alpha → e.alpha < 1 →
    (∀ i v, l[i]? = some v → |v.acc - (V (k + i + 1) - V (k + i)) / e.period| ≤ dA ∧
      |wheelSpeed e.period v - V (k + i + 1)| ≤ dW) →
    |(estRun T e s l).1.vel - V (k + l.length)| ≤
      e.alpha ^ l.length * |e.vel - V k| + (1 - e.alpha ^ l.length) * (e.alpha * e.period * dA / (1 - e.alpha) + dW) := by
  induction l with
  | nil => intro e s k _ _ _ _; simp [estRun]
  | cons v l ih =>
    intro e s k hp ha0 ha1 h
    have h0 := h 0 v rfl
    simp only [Nat.add_zero] at h0
    have hl : ∀ i w, l[i]? = some w → |w.acc - (V (k + 1 + i + 1) - V (k + 1 + i)) / e.period| ≤ dA ∧
        |wheelSpeed e.period w - V (k + 1 + i + 1)| ≤ dW := by
      intro i w hw
      have := h (i + 1) w (by simpa using hw)
      rw [show k + (i + 1) = k + 1 + i by ring] at this
      exact this
    have := ih (e.estimate T s v).1 (e.estimate T s v).2 (k + 1) hp ha0 ha1 hl
    have e1 : (e.estimate T s v).1.vel = e.nextVel v := rfl
    have e2 : (e.estimate T s v).1.alpha = e.alpha := rfl
    have e3 : (e.estimate T s v).1.period = e.period := rfl
    rw [e1, e2, e3] at this
    show |(estRun T (e.estimate T s v).1 (e.estimate T s v).2 l).1.vel - V (k + (l.length + 1))| ≤ _
    rw [show k + (l.length + 1) = k + 1 + l.length by ring, List.length_cons]
    refine this.trans ?_
    have step : |e.nextVel v - V (k + 1)| ≤ e.alpha * |e.vel - V k| + e.alpha * e.period * dA + (1 - e.alpha) * dW := by
      have : e.nextVel v - V (k + 1) = e.alpha * (e.vel - V k) +
          (e.alpha * e.period * (v.acc - (V (k + 1) - V k) / e.period) + (1 - e.alpha) * (wheelSpeed e.period v - V (k + 1))) := by
        rw [nextVel_eq]; field_simp; ring
      rw [this]
      refine (abs_add_le _ _).trans ?_
      refine (add_le_add_right (abs_add_le _ _) _).trans ?_
      rw [abs_mul e.alpha, abs_mul (e.alpha * e.period), abs_mul (1 - e.alpha), abs_of_nonneg (mul_nonneg ha0 hp.le),
        abs_of_nonneg ha0, abs_of_nonneg (by linarith : 0 ≤ 1 - e.alpha)]
      have := mul_le_mul_of_nonneg_left h0.1 (mul_nonneg ha0 hp.le)
      have := mul_le_mul_of_nonneg_left h0.2 (by linarith : 0 ≤ 1 - e.alpha)
      linarith
    have hpow : 0 ≤ e.alpha ^ l.length := pow_nonneg ha0 _
    have := mul_le_mul_of_nonneg_left step hpow
    have hne : 1 - e.alpha ≠ 0 := by linarith
    have e4 : e.alpha * e.period * dA = (1 - e.alpha) * (e.alpha * e.period * dA / (1 - e.alpha)) := by field_simp
    rw [e4] at this
    rw [pow_succ]
    nlinarith

theorem C54_exact (T : Trig) (V : Nat → ℝ) (l : List Sensor) (e : Estimator) (s : State) (hp : 0 < e.period)
    (ha0 : 0 ≤ e.alpha) (ha1 : e.alpha < 1) (hv : e.vel = V 0)
    (h : ∀ i v, l[i]? = some v → v.acc = (V (i + 1) - V i) / e.period ∧ wheelSpeed e.period v = V (i + 1)) :
    (estRun T e s l).1.vel = V l.length := by
  have := C54_error T V 0 0 l e s 0 hp ha0 ha1 (fun i v hi => by
    obtain ⟨h1, h2⟩ := h i v hi
    simp [h1, h2])
  rw [hv] at this
  simp only [sub_self, abs_zero, mul_zero, zero_div, add_zero, Nat.zero_add] at this
  exact sub_eq_zero.1 (abs_eq_zero.1 (le_antisymm this (abs_nonneg _)))

example : 0 < (Estimator.new 0.001).period ∧ 0 ≤ (Estimator.new 0.001).alpha ∧ (Estimator.new 0.001).alpha < 1 := by
  norm_num [Estimator.new]

/-! ## C55 -/

theorem slip_zero (e : Estimator) (vel : ℝ) (h : e.slip = 0) : e.nextSlip vel 0 = 0 := by
  unfold Estimator.nextSlip
  split
  · rfl
  · simp [h]

/-- **C55.** If no turn is ever measured and the slip angle starts at zero, the heading and the slip angle never change and
the position moves along the heading by the estimated speeds times the period. -/
theorem C55_straight (T : Trig) (hc : T.cos 0 = 1) (l : List Sensor) : ∀ (e : Estimator) (s : State), e.slip = 0 →
    0 < e.approxTh → (∀ v ∈ l, v.omega = 0) →
    let d := ((estVels T e s l).map (· * e.period)).sum
    (estRun T e s l).1.slip = 0 ∧ (estRun T e s l).2.theta.x = s.theta.x ∧
    (estRun T e s l).2.x.x = s.x.x + d * T.cos s.theta.x ∧ (estRun T e s l).2.y.x = s.y.x + d * T.sin s.theta.x := by
  induction l with
  | nil => intro e s hs _ _; simp [estRun, estVels, hs]
  | cons v l ih =>
    intro e s hs ht h d
    have hv := h v List.mem_cons_self
    have hsl : (e.estimate T s v).1.slip = 0 := by
      show e.nextSlip (e.nextVel v) v.omega = 0
      rw [hv]; exact slip_zero e _ hs
    have hth : (e.estimate T s v).2.theta.x = s.theta.x := by
      show s.theta.x + v.omega * e.period = _
      rw [hv]; ring
    have hdist : (if |v.omega| < e.approxTh then e.nextVel v * e.period else
        2 * e.nextVel v * T.sin (v.omega * e.period / 2) / v.omega) / T.cos (e.nextSlip (e.nextVel v) v.omega) =
        e.nextVel v * e.period := by
      rw [if_pos (by rw [hv]; simpa using ht), hv, slip_zero e _ hs, hc, div_one]
    have hm : s.theta.x - e.nextSlip (e.nextVel v) v.omega + v.omega * e.period / 2 = s.theta.x := by
      rw [hv, slip_zero e _ hs]; ring
    have hx : (e.estimate T s v).2.x.x = s.x.x + e.nextVel v * e.period * T.cos s.theta.x := by
      show s.x.x + _ * T.cos _ = _
      rw [hdist, hm]
    have hy : (e.estimate T s v).2.y.x = s.y.x + e.nextVel v * e.period * T.sin s.theta.x := by
      show s.y.x + _ * T.sin _ = _
      rw [hdist, hm]
    obtain ⟨h1, h2, h3, h4⟩ := ih (e.estimate T s v).1 (e.estimate T s v).2 hsl ht (fun w hw => h w (List.mem_cons_of_mem _ hw))
    have hd : d = e.nextVel v * e.period + ((estVels T (e.estimate T s v).1 (e.estimate T s v).2 l).map (· * e.period)).sum := rfl
    have hper : (e.estimate T s v).1.period = e.period := rfl
    rw [hth] at h2 h3 h4
    rw [hx, hper] at h3
    rw [hy, hper] at h4
    refine ⟨h1, h2, ?_, ?_⟩
    · show (estRun T (e.estimate T s v).1 (e.estimate T s v).2 l).2.x.x = _
      rw [h3, hd]; ring
    · show (estRun T (e.estimate T s v).1 (e.estimate T s v).2 l).2.y.x = _
      rw [h4, hd]; ring

/-- **C55, turning on the spot.** If no speed is measured, starting from rest, the position never changes, whatever the turn
rates. -/
theorem C55_on_the_spot (T : Trig) (l : List Sensor) : ∀ (e : Estimator) (s : State), e.vel = 0 →
    (∀ v ∈ l, v.acc = 0 ∧ v.left + v.right = 0) →
    (estRun T e s l).1.vel = 0 ∧ (estRun T e s l).2.x.x = s.x.x ∧ (estRun T e s l).2.y.x = s.y.x := by
  induction l with
  | nil => intro e s hv _; exact ⟨hv, rfl, rfl⟩
  | cons v l ih =>
    intro e s hv h
    obtain ⟨h1, h2⟩ := h v List.mem_cons_self
    have h0 : e.nextVel v = 0 := by
      rw [nextVel_eq, hv, h1]; simp [wheelSpeed, h2]
    have hx : (e.estimate T s v).2.x.x = s.x.x := by
      show s.x.x + (if |v.omega| < e.approxTh then e.nextVel v * e.period else
        2 * e.nextVel v * T.sin (v.omega * e.period / 2) / v.omega) / _ * T.cos _ = _
      rw [h0]; simp
    have hy : (e.estimate T s v).2.y.x = s.y.x := by
      show s.y.x + (if |v.omega| < e.approxTh then e.nextVel v * e.period else
        2 * e.nextVel v * T.sin (v.omega * e.period / 2) / v.omega) / _ * T.sin _ = _
      rw [h0]; simp
    obtain ⟨h3, h4, h5⟩ := ih (e.estimate T s v).1 (e.estimate T s v).2 h0 (fun w hw => h w (List.mem_cons_of_mem _ hw))
    exact ⟨h3, h4.trans hx, h5.trans hy⟩

/-- **C55, velocity.** After any estimate the reported velocity vector has exactly the estimated speed as its length and the
reported acceleration vector the measured acceleration. -/
theorem C55_velocity (e : Estimator) (s : State) (l : List Sensor) (v : Sensor) :
    let r := estRun Trig.real e s (l ++ [v])
    r.2.x.v ^ 2 + r.2.y.v ^ 2 = r.1.vel ^ 2 ∧ r.2.x.a ^ 2 + r.2.y.a ^ 2 = v.acc ^ 2 := by
  intro r
  have hr : r = estRun Trig.real (estRun Trig.real e s l).1 (estRun Trig.real e s l).2 [v] := estRun_append _ l [v] e s
  rw [hr]
  generalize (estRun Trig.real e s l).1 = e'
  generalize (estRun Trig.real e s l).2 = s'
  simp only [estRun, Estimator.estimate, Trig.real]
  generalize s'.theta.x - e'.nextSlip (e'.nextVel v) v.omega + v.omega * e'.period / 2 = m
  have := Real.sin_sq_add_cos_sq m
  constructor
  · linear_combination (e'.nextVel v) ^ 2 * this
  · linear_combination v.acc ^ 2 * this

/-- The default estimator satisfies the hypotheses, and the exact cosine does. -/
example : (Estimator.new 0.001).slip = 0 ∧ 0 < (Estimator.new 0.001).approxTh ∧ (Estimator.new 0.001).vel = 0 ∧
    Trig.real.cos 0 = 1 := by norm_num [Estimator.new, Trig.real]

/-- Two steps straight ahead along the x axis with 1 mm per step after convergence. -/
example (e : Estimator) (he : e.slip = 0) (ht : 0 < e.approxTh) (s : State) (hs : s.theta.x = 0) (l : List Sensor)
    (hl : ∀ v ∈ l, v.omega = 0) : (estRun Trig.real e s l).2.y.x = s.y.x := by
  have := (C55_straight Trig.real Real.cos_zero l e s he ht hl).2.2.2
  rw [this, hs]; simp [Trig.real]

end Verif.Props
