import Verif.Spec.SimDrift
import Verif.Props.Sim
import Mathlib.Analysis.SpecialFunctions.Trigonometric.Bounds
/-!
# Estimated and true motion of a simulated robot, one step
-/
namespace Verif.Proof.Drift
open Verif Verif.Control Verif.Sim Verif.Estimate Verif.Spec Verif.Props

/-- The chord of an arc is its length up to a cubic term. -/
theorem chord {u : ℝ} : |u - Real.sin u| ≤ |u| ^ 3 / 6 := by
  rcases le_total 0 u with hu0 | hu0
  · have h1 := Real.sin_ge_sub_cube hu0
    have h2 := Real.sin_le hu0
    rw [abs_of_nonneg (by linarith), abs_of_nonneg hu0]; linarith
  · have h1 := Real.sin_ge_sub_cube (neg_nonneg.2 hu0)
    have h2 := Real.sin_le (neg_nonneg.2 hu0)
    rw [Real.sin_neg] at h1 h2
    rw [abs_of_nonpos (by linarith), abs_of_nonpos hu0]; linarith

theorem one_sub_cos {u d : ℝ} (h : |u| ≤ d) : |1 - Real.cos u| ≤ d ^ 2 / 2 := by
  have h1 := Real.one_sub_sq_div_two_le_cos (x := u)
  have h2 := Real.cos_le_one u
  rw [abs_of_nonneg (by linarith)]
  have : u ^ 2 ≤ d ^ 2 := by rw [← sq_abs u]; exact pow_le_pow_left₀ (abs_nonneg _) h 2
  linarith

/-- What the estimator travels in a step at speed `u` is almost `u` times the period, whether or not it takes the turn for straight. -/
theorem travelled {u o T th d : ℝ} (hT : 0 < T) (ht : 0 < th) (hd : |o * T| ≤ d) :
    |(if |o| < th then u * T else 2 * u * Real.sin (o * T / 2) / o) - u * T| ≤ |u| * T * (d ^ 2 / 24) := by
  have hd0 : 0 ≤ d := (abs_nonneg _).trans hd
  split
  · rw [sub_self, abs_zero]; positivity
  · rename_i hn
    have ho : 0 < |o| := ht.trans_le (not_lt.1 hn)
    have ho' : o ≠ 0 := abs_pos.1 ho
    have e1 : 2 * u * Real.sin (o * T / 2) / o - u * T = -(2 * u / o * (o * T / 2 - Real.sin (o * T / 2))) := by field_simp; ring
    rw [e1, abs_neg, abs_mul]
    refine (mul_le_mul_of_nonneg_left chord (abs_nonneg _)).trans ?_
    have e2 : |2 * u / o| * (|o * T / 2| ^ 3 / 6) = |u| * T * (|o * T| ^ 2 / 24) := by
      rw [abs_div, abs_mul, abs_div (o * T), abs_mul o, abs_of_pos hT, abs_of_pos (by norm_num : (0:ℝ) < 2)]
      field_simp; ring
    rw [e2]
    have := pow_le_pow_left₀ (abs_nonneg _) hd 2
    have h0 : 0 ≤ |u| * T := by positivity
    exact mul_le_mul_of_nonneg_left (by linarith) h0

/-- Motion estimated and made in a step, seen along any direction `(a, b)`. The robot moves by the trapezoid of its velocities before and after, the
headings being `m - h` and `m + h`; the estimate moves by `p` along `m` and `q` across. -/
theorem parts {v v' h T m p q a b : ℝ} (hab : a ^ 2 + b ^ 2 = 1) :
    |a * ((p * Real.cos m - q * Real.sin m) - (v * Real.cos (m - h) + v' * Real.cos (m + h)) * T / 2) +
      b * ((p * Real.sin m + q * Real.cos m) - (v * Real.sin (m - h) + v' * Real.sin (m + h)) * T / 2)| ≤
    |p - T * ((v + v') / 2 * Real.cos h)| + |q - T * ((v' - v) / 2 * Real.sin h)| := by
  have hm := Real.sin_sq_add_cos_sq m
  have e : a * ((p * Real.cos m - q * Real.sin m) - (v * Real.cos (m - h) + v' * Real.cos (m + h)) * T / 2) +
      b * ((p * Real.sin m + q * Real.cos m) - (v * Real.sin (m - h) + v' * Real.sin (m + h)) * T / 2) =
      (p - T * ((v + v') / 2 * Real.cos h)) * (a * Real.cos m + b * Real.sin m) +
      (q - T * ((v' - v) / 2 * Real.sin h)) * (b * Real.cos m - a * Real.sin m) := by
    rw [Real.cos_sub, Real.cos_add, Real.sin_sub, Real.sin_add]; ring
  rw [e]
  have hs : (a * Real.cos m + b * Real.sin m) ^ 2 + (b * Real.cos m - a * Real.sin m) ^ 2 = 1 := by
    linear_combination hab + (a ^ 2 + b ^ 2) * hm
  have h1 : |a * Real.cos m + b * Real.sin m| ≤ 1 := by
    rw [← sq_le_one_iff_abs_le_one]; nlinarith [sq_nonneg (b * Real.cos m - a * Real.sin m)]
  have h2 : |b * Real.cos m - a * Real.sin m| ≤ 1 := by
    rw [← sq_le_one_iff_abs_le_one]; nlinarith [sq_nonneg (a * Real.cos m + b * Real.sin m)]
  refine (abs_add_le _ _).trans ?_
  rw [abs_mul, abs_mul]
  exact add_le_add (mul_le_of_le_one_right (abs_nonneg _) h1) (mul_le_of_le_one_right (abs_nonneg _) h2)

/-- The same with bounds: speeds, jump of the speed, estimated speed `u`, shares of the estimated motion across the heading and lost along it. -/
theorem bound {v v' u h T m p q st a b V J E d B L : ℝ} (hab : a ^ 2 + b ^ 2 = 1) (hT : 0 < T)
    (hv : |v| ≤ V) (hv' : |v'| ≤ V) (hJ : |v' - v| ≤ J) (hu : |u - v'| ≤ E) (hh : |h| ≤ d / 2) (hst : |st - u * T| ≤ |u| * T * (d ^ 2 / 24))
    (hst' : |st| ≤ |u| * T) (hp : |p - st| ≤ |st| * L) (hq : |q| ≤ |st| * B) (hB : 0 ≤ B) (hL : 0 ≤ L) :
    |a * ((p * Real.cos m - q * Real.sin m) - (v * Real.cos (m - h) + v' * Real.cos (m + h)) * T / 2) +
      b * ((p * Real.sin m + q * Real.cos m) - (v * Real.sin (m - h) + v' * Real.sin (m + h)) * T / 2)| ≤
    T * ((V + E) * (B + L + d ^ 2 / 24) + E + J / 2 + V * d ^ 2 / 8 + J * d / 4) := by
  refine (parts hab).trans ?_
  have hV : 0 ≤ V := (abs_nonneg _).trans hv
  have hJ0 : 0 ≤ J := (abs_nonneg _).trans hJ
  have hE : 0 ≤ E := (abs_nonneg _).trans hu
  have hd0 : 0 ≤ d := by have := (abs_nonneg _).trans hh; linarith
  have hU : |u| ≤ V + E := by
    have : u = v' + (u - v') := by ring
    rw [this]; exact (abs_add_le _ _).trans (add_le_add hv' hu)
  have hUT : |u| * T ≤ (V + E) * T := mul_le_mul_of_nonneg_right hU hT.le
  have hS : |st| ≤ (V + E) * T := hst'.trans hUT
  have hcos := one_sub_cos hh
  have hmean : |(v + v') / 2| ≤ V := by
    rw [abs_le] at hv hv' ⊢; constructor <;> linarith
  -- along
  have e1 : p - T * ((v + v') / 2 * Real.cos h) = (p - st) + (st - u * T) + T * (u - v') + T * ((v' - v) / 2) + T * ((v + v') / 2) * (1 - Real.cos h) := by ring
  have h1 : |p - T * ((v + v') / 2 * Real.cos h)| ≤
      (V + E) * T * L + (V + E) * T * (d ^ 2 / 24) + T * E + T * (J / 2) + T * V * ((d / 2) ^ 2 / 2) := by
    rw [e1]
    refine (abs_add_le _ _).trans (add_le_add ((abs_add_le _ _).trans (add_le_add ((abs_add_le _ _).trans (add_le_add ((abs_add_le _ _).trans (add_le_add ?_ ?_)) ?_)) ?_)) ?_)
    · exact hp.trans (mul_le_mul_of_nonneg_right hS hL)
    · exact hst.trans (mul_le_mul_of_nonneg_right hUT (by positivity))
    · rw [abs_mul, abs_of_pos hT]; exact mul_le_mul_of_nonneg_left hu hT.le
    · rw [abs_mul, abs_of_pos hT, abs_div, abs_two]; exact mul_le_mul_of_nonneg_left (by linarith) hT.le
    · rw [abs_mul, abs_mul, abs_of_pos hT]
      exact mul_le_mul (mul_le_mul_of_nonneg_left hmean hT.le) hcos (abs_nonneg _) (by positivity)
  have h2 : |q - T * ((v' - v) / 2 * Real.sin h)| ≤ (V + E) * T * B + T * (J / 2 * (d / 2)) := by
    refine (abs_sub _ _).trans (add_le_add (hq.trans (mul_le_mul_of_nonneg_right hS hB)) ?_)
    rw [abs_mul, abs_mul, abs_of_pos hT, abs_div, abs_two]
    refine mul_le_mul_of_nonneg_left ?_ hT.le
    exact mul_le_mul (by linarith) (Real.abs_sin_le_abs.trans hh) (abs_nonneg _) (by linarith)
  nlinarith [h1, h2]

/-! ## One step of the simulator -/

theorem mean_volt {m l r : ℝ} (hl : |l| ≤ m) (hr : |r| ≤ m) : |(r + l) / 2| ≤ m ∧ |(r - l) / 2| ≤ m := by
  rw [abs_le] at hl hr
  simp only [abs_le]
  refine ⟨⟨?_, ?_⟩, ?_, ?_⟩ <;> linarith [hl.1, hl.2, hr.1, hr.2]

/-- A step keeps to the bounds, and the speed jumps by at most `speedJump`. -/
theorem roams_step {s : Simulator} {V O : ℝ} (h : Roams s V O) (l r : ℝ) :
    let s' := (s.apply l r).step Trig.real
    Roams s' V O ∧ |forward s'.current - forward s.current| ≤ speedJump s V := by
  obtain ⟨hl, hr, -, -⟩ := C56_apply s h.limit l r
  obtain ⟨hm, hd⟩ := mean_volt hl hr
  have hT := h.period
  obtain ⟨a0, a1⟩ := ratio_mem h.transT1 hT
  obtain ⟨b0, b1⟩ := ratio_mem h.rotT1 hT
  have hK : |s.transK * (((s.apply l r).rightVoltage + (s.apply l r).leftVoltage) / 2)| ≤ V := by
    rw [abs_mul]; exact (mul_le_mul_of_nonneg_left hm (abs_nonneg _)).trans h.motor
  have hRK : |s.rotK * (((s.apply l r).rightVoltage - (s.apply l r).leftVoltage) / 2)| ≤ O := by
    rw [abs_mul]; exact (mul_le_mul_of_nonneg_left hd (abs_nonneg _)).trans h.turnMotor
  have hf : forward ((s.apply l r).step Trig.real).current = forward s.current * (s.transT1 / (s.transT1 + s.period)) +
      (1 - s.transT1 / (s.transT1 + s.period)) * (s.transK * (((s.apply l r).rightVoltage + (s.apply l r).leftVoltage) / 2)) :=
    forward_step (s.apply l r)
  refine ⟨⟨h.limit, hT, h.transT1, h.rotT1, (C57_step (s.apply l r) h.noSlide hT).2.1, ?_, h.motor, ?_, h.turnMotor⟩, ?_⟩
  · rw [hf]; exact mean_abs a0 a1 h.speed hK
  · exact mean_abs b0 b1 h.turn hRK
  · rw [hf]
    have hg : 1 - s.transT1 / (s.transT1 + s.period) = s.period / (s.transT1 + s.period) := by
      have : s.transT1 + s.period ≠ 0 := by have := h.transT1; positivity
      field_simp; ring
    have e : forward s.current * (s.transT1 / (s.transT1 + s.period)) +
        (1 - s.transT1 / (s.transT1 + s.period)) * (s.transK * (((s.apply l r).rightVoltage + (s.apply l r).leftVoltage) / 2)) - forward s.current =
        s.period / (s.transT1 + s.period) * (s.transK * (((s.apply l r).rightVoltage + (s.apply l r).leftVoltage) / 2) - forward s.current) := by
      rw [← hg]; ring
    have hp : 0 ≤ s.period / (s.transT1 + s.period) := by rw [← hg]; linarith
    rw [e, abs_mul, abs_of_nonneg hp, speedJump, mul_comm]
    refine mul_le_mul_of_nonneg_right ((abs_sub _ _).trans ?_) hp
    linarith [h.speed]

/-- What the inertial sensor and the wheels tell of the speed after a step. -/
theorem speeds {s : Simulator} (h : NoSlide s.current) (hT : 0 < s.period) (l r : ℝ) :
    let s' := (s.apply l r).step Trig.real
    (sensors Trig.real s').acc * s.period = forward s'.current - forward s.current * Real.cos (s'.current.theta.v * s.period) ∧
    wheelSpeed s.period (sensors Trig.real s') = (forward s.current + forward s'.current) / 2 := by
  intro s'
  have hacc := C57_acc (s.apply l r) h hT
  have hth : s'.current.theta.x - s.current.theta.x = s'.current.theta.v * s.period := (C57_step (s.apply l r) h hT).2.2.2.2.1
  dsimp only at hacc
  refine ⟨?_, ?_⟩
  · rw [← hth]; exact hacc
  · have := (C57_encoders s').1
    unfold wheelSpeed sensors
    rw [this, show s'.last = s.current from rfl, show s'.period = s.period from rfl]
    field_simp

end Verif.Proof.Drift
