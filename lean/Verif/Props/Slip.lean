import Verif.Props.Estimate
import Mathlib.Analysis.SpecialFunctions.Trigonometric.Bounds
/-!
# C79: the slip angle
-/
namespace Verif.Props
open Verif Verif.Control Verif.Estimate Verif.Spec

/-- **C79, the equation.** The new slip angle `b'` solves `(b' - b) / period = omega - (slipConst / |vel|) b'` (one step of the implicit Euler method), and is the
only solution. A robot that stands still does not slip. -/
theorem C79_euler (e : Estimator) (hp : 0 < e.period) (hC : 0 < e.slipConst) (vel omega : ℝ) :
    (vel ≠ 0 → ∀ b, (b - e.slip) / e.period = omega - e.slipConst / |vel| * b ↔ b = e.nextSlip vel omega) ∧ e.nextSlip 0 omega = 0 := by
  constructor
  · intro hv b
    have hv' := abs_pos.2 hv
    have hd : 0 < 1 / e.period + e.slipConst / |vel| := by positivity
    unfold Estimator.nextSlip
    rw [if_neg hv, eq_div_iff hd.ne']
    constructor
    · intro h
      have : (b - e.slip) / e.period = b * (1 / e.period) - e.slip * (1 / e.period) := by ring
      rw [this] at h
      linarith
    · intro h
      have : (b - e.slip) / e.period = b * (1 / e.period) - e.slip * (1 / e.period) := by ring
      rw [this]
      linarith
  · unfold Estimator.nextSlip
    rw [if_pos rfl]

theorem slip_bound {e : Estimator} (hp : 0 < e.period) (hC : 0 < e.slipConst) {vel omega M : ℝ} (h0 : |e.slip| ≤ M) (h1 : |omega| * |vel| ≤ M * e.slipConst) :
    |e.nextSlip vel omega| ≤ M := by
  have hM : 0 ≤ M := (abs_nonneg _).trans h0
  unfold Estimator.nextSlip
  split
  · simpa
  · rename_i hv
    have hv' := abs_pos.2 hv
    have hd : 0 < 1 / e.period + e.slipConst / |vel| := by positivity
    rw [abs_div, abs_of_pos hd, div_le_iff₀ hd]
    have h2 : |omega| ≤ M * (e.slipConst / |vel|) := by
      rw [← mul_div_assoc, le_div_iff₀ hv']
      exact h1
    have h3 : |e.slip * (1 / e.period)| ≤ M * (1 / e.period) := by
      rw [abs_mul, abs_of_pos (by positivity : 0 < 1 / e.period)]
      exact mul_le_mul_of_nonneg_right h0 (by positivity)
    calc _ ≤ |e.slip * (1 / e.period)| + |omega| := abs_add_le _ _
      _ ≤ _ := by rw [mul_add]; linarith

/-- **C79, bound.** The slip angle never exceeds `M` if it does not at the start and the turn rate times the speed never exceeds `M` times the constant, for any
other sensor values. -/
theorem C79_bounded (T : Trig) (M : ℝ) (l : List Sensor) : ∀ (e : Estimator) (s : State), 0 < e.period → 0 < e.slipConst → |e.slip| ≤ M →
    (∀ k v, l[k]? = some v → |v.omega| * |(estRun T e s (l.take (k + 1))).1.vel| ≤ M * e.slipConst) →
    |(estRun T e s l).1.slip| ≤ M := by
  induction l with
  | nil => intro e s _ _ h _; exact h
  | cons v l ih =>
    intro e s hp hC h0 h
    refine ih (e.estimate T s v).1 (e.estimate T s v).2 hp hC ?_ ?_
    · exact slip_bound hp hC h0 (h 0 v rfl)
    · intro k w hw
      exact h (k + 1) w (by simpa using hw)

theorem steady_vel {e : Estimator} {v : Sensor} (h1 : v.acc = 0) (h2 : wheelSpeed e.period v = e.vel) : e.nextVel v = e.vel := by
  rw [nextVel_eq, h1, h2]; ring

/-- **C79, limit.** At constant speed and turn rate the slip angle tends to turn rate times speed over the constant, geometrically. -/
theorem C79_limit (T : Trig) (omega : ℝ) (l : List Sensor) : ∀ (e : Estimator) (s : State), 0 < e.period → 0 < e.slipConst → e.vel ≠ 0 →
    (∀ v ∈ l, v.acc = 0 ∧ wheelSpeed e.period v = e.vel ∧ v.omega = omega) →
    (estRun T e s l).1.vel = e.vel ∧
    (estRun T e s l).1.slip - omega * |e.vel| / e.slipConst =
      (|e.vel| / (|e.vel| + e.slipConst * e.period)) ^ l.length * (e.slip - omega * |e.vel| / e.slipConst) := by
  induction l with
  | nil => intro e s _ _ _ _; exact ⟨rfl, by simp [estRun]⟩
  | cons v l ih =>
    intro e s hp hC hv h
    obtain ⟨h1, h2, h3⟩ := h v List.mem_cons_self
    have hvel : (e.estimate T s v).1.vel = e.vel := steady_vel h1 h2
    have hslip : (e.estimate T s v).1.slip = e.nextSlip e.vel omega := by
      show e.nextSlip (e.nextVel v) v.omega = _
      rw [steady_vel h1 h2, h3]
    obtain ⟨i1, i2⟩ := ih (e.estimate T s v).1 (e.estimate T s v).2 hp hC (by rw [hvel]; exact hv)
      (fun w hw => by rw [hvel]; exact h w (List.mem_cons_of_mem _ hw))
    rw [hvel] at i1 i2
    refine ⟨i1, ?_⟩
    have e1 : (e.estimate T s v).1.slipConst = e.slipConst := rfl
    have e2 : (e.estimate T s v).1.period = e.period := rfl
    rw [e1, e2] at i2
    show (estRun T (e.estimate T s v).1 (e.estimate T s v).2 l).1.slip - _ = _
    rw [i2, hslip, List.length_cons, pow_succ, mul_assoc]
    congr 1
    have hv' := abs_pos.2 hv
    unfold Estimator.nextSlip
    rw [if_neg hv]
    have : 0 < |e.vel| + e.slipConst * e.period := by positivity
    field_simp
    ring

/-- **C79, step.** One estimate moves the position by at most the speed times the period over the cosine of the slip angle, in the direction of the heading in
the middle of the step less the slip angle. -/
theorem C79_step (e : Estimator) (s : State) (v : Sensor) (hp : 0 < e.period) (ht : 0 < e.approxTh) (hs : |e.nextSlip (e.nextVel v) v.omega| < Real.pi / 2) :
    ∃ r, |r| ≤ |e.nextVel v| * e.period / Real.cos (e.nextSlip (e.nextVel v) v.omega) ∧
      (e.estimate .real s v).2.x.x = s.x.x + r * Real.cos (s.theta.x + v.omega * e.period / 2 - e.nextSlip (e.nextVel v) v.omega) ∧
      (e.estimate .real s v).2.y.x = s.y.x + r * Real.sin (s.theta.x + v.omega * e.period / 2 - e.nextSlip (e.nextVel v) v.omega) := by
  have hc : 0 < Real.cos (e.nextSlip (e.nextVel v) v.omega) := Real.cos_pos_of_mem_Ioo (abs_lt.1 hs)
  refine ⟨(if |v.omega| < e.approxTh then e.nextVel v * e.period else 2 * e.nextVel v * Real.sin (v.omega * e.period / 2) / v.omega) /
    Real.cos (e.nextSlip (e.nextVel v) v.omega), ?_, ?_, ?_⟩
  · rw [abs_div, abs_of_pos hc]
    refine div_le_div_of_nonneg_right ?_ hc.le
    split
    · rw [abs_mul, abs_of_pos hp]
    · rename_i hn
      have ho : 0 < |v.omega| := ht.trans_le (not_lt.1 hn)
      rw [abs_div, abs_mul, abs_mul, div_le_iff₀ ho, abs_of_pos (by norm_num : (0:ℝ) < 2)]
      have : |Real.sin (v.omega * e.period / 2)| ≤ |v.omega| * e.period / 2 := by
        refine Real.abs_sin_le_abs.trans ?_
        rw [abs_div, abs_mul, abs_of_pos hp, abs_of_pos (by norm_num : (0:ℝ) < 2)]
      have := mul_le_mul_of_nonneg_left this (abs_nonneg (e.nextVel v))
      linarith
  · rw [show s.theta.x + v.omega * e.period / 2 - e.nextSlip (e.nextVel v) v.omega = s.theta.x - e.nextSlip (e.nextVel v) v.omega + v.omega * e.period / 2 by ring]
    rfl
  · rw [show s.theta.x + v.omega * e.period / 2 - e.nextSlip (e.nextVel v) v.omega = s.theta.x - e.nextSlip (e.nextVel v) v.omega + v.omega * e.period / 2 by ring]
    rfl

/-- **C79, circle.** At constant speed and turn rate, and with the slip angle at its limit, the estimated positions lie on a circle of radius speed over turn rate
over the cosine of the slip angle, however many estimates are made. -/
theorem C79_circle (omega : ℝ) (l : List Sensor) : ∀ (e : Estimator) (s : State), 0 < e.period → 0 < e.slipConst → e.vel ≠ 0 → 0 < e.approxTh →
    e.approxTh ≤ |omega| → e.slip = omega * |e.vel| / e.slipConst →
    (∀ v ∈ l, v.acc = 0 ∧ wheelSpeed e.period v = e.vel ∧ v.omega = omega) →
    let r := e.vel / omega / Real.cos e.slip
    let φ := s.theta.x - e.slip
    let n := l.length
    (estRun .real e s l).2.x.x = s.x.x + r * (Real.sin (φ + n * (omega * e.period)) - Real.sin φ) ∧
    (estRun .real e s l).2.y.x = s.y.x - r * (Real.cos (φ + n * (omega * e.period)) - Real.cos φ) := by
  induction l with
  | nil => intro e s _ _ _ _ _ _ _; simp [estRun]
  | cons v l ih =>
    intro e s hp hC hv ht hth hslip h r φ n
    obtain ⟨h1, h2, h3⟩ := h v List.mem_cons_self
    have ho : omega ≠ 0 := abs_pos.1 (ht.trans_le hth)
    have hvel : (e.estimate .real s v).1.vel = e.vel := steady_vel h1 h2
    have hv' := abs_pos.2 hv
    have hns : e.nextSlip e.vel omega = e.slip := by
      unfold Estimator.nextSlip
      rw [if_neg hv, hslip]
      have : 0 < |e.vel| + e.slipConst * e.period := by positivity
      have : 0 < 1 / e.period + e.slipConst / |e.vel| := by positivity
      rw [div_eq_iff this.ne']
      field_simp
    have hs1 : (e.estimate .real s v).1.slip = e.slip := by
      show e.nextSlip (e.nextVel v) v.omega = _
      rw [steady_vel h1 h2, h3, hns]
    have hth1 : (e.estimate .real s v).2.theta.x = s.theta.x + omega * e.period := by
      show s.theta.x + v.omega * e.period = _
      rw [h3]
    have hx1 : (e.estimate .real s v).2.x.x = s.x.x + r * (Real.sin (φ + omega * e.period) - Real.sin φ) := by
      show s.x.x + (if |v.omega| < e.approxTh then e.nextVel v * e.period else 2 * e.nextVel v * Real.sin (v.omega * e.period / 2) / v.omega) /
        Real.cos (e.nextSlip (e.nextVel v) v.omega) * Real.cos (s.theta.x - e.nextSlip (e.nextVel v) v.omega + v.omega * e.period / 2) = _
      rw [steady_vel h1 h2, h3, hns, if_neg (not_lt.2 hth), Real.sin_sub_sin]
      simp only [r, φ]
      rw [show (s.theta.x - e.slip + omega * e.period - (s.theta.x - e.slip)) / 2 = omega * e.period / 2 by ring,
        show (s.theta.x - e.slip + omega * e.period + (s.theta.x - e.slip)) / 2 = s.theta.x - e.slip + omega * e.period / 2 by ring]
      ring
    have hy1 : (e.estimate .real s v).2.y.x = s.y.x - r * (Real.cos (φ + omega * e.period) - Real.cos φ) := by
      show s.y.x + (if |v.omega| < e.approxTh then e.nextVel v * e.period else 2 * e.nextVel v * Real.sin (v.omega * e.period / 2) / v.omega) /
        Real.cos (e.nextSlip (e.nextVel v) v.omega) * Real.sin (s.theta.x - e.nextSlip (e.nextVel v) v.omega + v.omega * e.period / 2) = _
      rw [steady_vel h1 h2, h3, hns, if_neg (not_lt.2 hth), Real.cos_sub_cos]
      simp only [r, φ]
      rw [show (s.theta.x - e.slip + omega * e.period - (s.theta.x - e.slip)) / 2 = omega * e.period / 2 by ring,
        show (s.theta.x - e.slip + omega * e.period + (s.theta.x - e.slip)) / 2 = s.theta.x - e.slip + omega * e.period / 2 by ring]
      ring
    obtain ⟨i1, i2⟩ := ih (e.estimate .real s v).1 (e.estimate .real s v).2 hp hC (by rw [hvel]; exact hv) ht hth (by rw [hs1, hvel]; exact hslip)
      (fun w hw => by rw [hvel]; exact h w (List.mem_cons_of_mem _ hw))
    rw [hvel, hs1, hth1] at i1 i2
    have e2 : (e.estimate .real s v).1.period = e.period := rfl
    rw [e2] at i1 i2
    have ea : s.theta.x + omega * e.period - e.slip = φ + omega * e.period := by simp only [φ]; ring
    have eb : φ + omega * e.period + (l.length : ℝ) * (omega * e.period) = φ + n * (omega * e.period) := by
      simp only [n, List.length_cons]; push_cast; ring
    rw [ea, eb, hx1] at i1
    rw [ea, eb, hy1] at i2
    constructor
    · refine i1.trans ?_
      ring
    · refine i2.trans ?_
      ring

/-- Non-vacuity: a robot that turns left with 0.3 m/s and 10 rad/s; its slip angle is 0.03 rad. -/
example (s : State) (n : Nat) :
    let e : Estimator := { Estimator.new 0.001 with slip := 0.03, vel := 0.3 }
    |(estRun .real e s (List.replicate n ⟨0.0003, 0.0003, 0, 10⟩)).1.slip| ≤ 0.03 ∧
    (estRun .real e s (List.replicate n ⟨0.0003, 0.0003, 0, 10⟩)).2.x.x =
      s.x.x + 0.3 / 10 / Real.cos 0.03 * (Real.sin (s.theta.x - 0.03 + n * (10 * 0.001)) - Real.sin (s.theta.x - 0.03)) := by
  intro e
  have hc : ∀ v ∈ List.replicate n (⟨0.0003, 0.0003, 0, 10⟩ : Sensor), v.acc = 0 ∧ wheelSpeed e.period v = e.vel ∧ v.omega = 10 := by
    intro v hv
    rw [List.eq_of_mem_replicate hv]
    norm_num [wheelSpeed, e, Estimator.new]
  constructor
  · refine C79_bounded .real 0.03 _ e s (by norm_num [e, Estimator.new]) (by norm_num [e, Estimator.new]) (by norm_num [e, abs_le]) (fun k v hk => ?_)
    rw [(C79_limit .real 10 _ e s (by norm_num [e, Estimator.new]) (by norm_num [e, Estimator.new]) (by norm_num [e])
      (fun w hw => hc w (List.mem_of_mem_take hw))).1, (hc v (List.mem_of_getElem? hk)).2.2]
    norm_num [e, Estimator.new, abs_of_pos]
  · have := (C79_circle 10 _ e s (by norm_num [e, Estimator.new]) (by norm_num [e, Estimator.new]) (by norm_num [e]) (by norm_num [e, Estimator.new])
      (by norm_num [e, Estimator.new, abs_of_pos]) (by norm_num [e, Estimator.new, abs_of_pos]) hc).1
    simpa [e, Estimator.new] using this

end Verif.Props
