import Mathlib.Analysis.Calculus.Deriv.MeanValue
import Mathlib.Analysis.Calculus.Deriv.Comp
import Mathlib.Analysis.Calculus.Deriv.Pow
import Mathlib.Analysis.Calculus.MeanValue
/-!
# Error of the two-point quadrature

The nodes of the code are those of Gauss, rounded to seven digits.
-/
namespace Verif.Quad

/-- A bound of the derivative bounds the function. -/
theorem bound {f f' B B' : ℝ → ℝ} (hf : ∀ s, HasDerivAt f (f' s) s) (hB : ∀ s, HasDerivAt B (B' s) s) (h0 : f 0 = 0) (hB0 : 0 ≤ B 0)
    (h : ∀ s, 0 ≤ s → |f' s| ≤ B' s) {s : ℝ} (hs : 0 ≤ s) : |f s| ≤ B s := by
  refine image_norm_le_of_norm_deriv_right_le_deriv_boundary (a := 0) (b := s) (f := f) (f' := f')
    (fun x _ => (hf x).continuousAt.continuousWithinAt) (fun x _ => (hf x).hasDerivWithinAt) (by rw [h0]; simpa using hB0) hB
    (fun x hx => h x hx.1) ⟨hs, le_rfl⟩

variable {F f f1 f2 : ℝ → ℝ} {B1 B2 B3 : ℝ}

theorem shift_add {f f' : ℝ → ℝ} (hf : ∀ s, HasDerivAt f (f' s) s) (m s : ℝ) : HasDerivAt (fun s => f (m + s)) (f' (m + s)) s :=
  ((hf (m + s)).comp s ((hasDerivAt_id s).const_add m)).congr_deriv (by simp)

theorem shift_sub {f f' : ℝ → ℝ} (hf : ∀ s, HasDerivAt f (f' s) s) (m s : ℝ) : HasDerivAt (fun s => f (m - s)) (-f' (m - s)) s :=
  ((hf (m - s)).comp s ((hasDerivAt_id s).const_sub m)).congr_deriv (by simp)

theorem pow_deriv (c : ℝ) (n : ℕ) (s : ℝ) : HasDerivAt (fun s : ℝ => c * s ^ (n + 1)) (c * (n + 1) * s ^ n) s := by
  have := (hasDerivAt_pow (n + 1) s).const_mul c
  refine this.congr_deriv ?_
  rw [Nat.add_sub_cancel]
  push_cast
  ring

/-- Second difference. -/
theorem second (h1 : ∀ s, HasDerivAt f (f1 s) s) (h2 : ∀ s, HasDerivAt f1 (f2 s) s)
    (h3 : ∀ s t, |f2 t - f2 s| ≤ B3 * |t - s|) (m : ℝ) {s : ℝ} (hs : 0 ≤ s) :
    |f (m + s) + f (m - s) - 2 * f m - f2 m * s ^ 2| ≤ B3 / 3 * s ^ 3 := by
  have k1 (s : ℝ) (hs : 0 ≤ s) : |f1 (m + s) - f1 (m - s) - 2 * f2 m * s ^ 1| ≤ B3 * s ^ 2 := by
    refine bound (f := fun s => f1 (m + s) - f1 (m - s) - 2 * f2 m * s ^ 1)
      (fun s => ((shift_add h2 m s).sub (shift_sub h2 m s)).sub (pow_deriv (2 * f2 m) 0 s)) (fun s => pow_deriv B3 1 s) (by simp)
      (by simp) (fun s hs => ?_) hs
    have a := h3 m (m + s)
    have b := h3 m (m - s)
    rw [show m + s - m = s by ring, abs_of_nonneg hs] at a
    rw [show m - s - m = -s by ring, abs_neg, abs_of_nonneg hs] at b
    rw [abs_le] at *
    push_cast
    constructor <;> linarith [a.1, a.2, b.1, b.2]
  refine bound (f := fun s => f (m + s) + f (m - s) - 2 * f m - f2 m * s ^ 2)
    (fun s => (((shift_add h1 m s).add (shift_sub h1 m s)).sub_const _).sub (pow_deriv (f2 m) 1 s)) (fun s => pow_deriv (B3 / 3) 2 s)
    (by simp; ring) (by simp) (fun s hs => ?_) hs
  have a := k1 s hs
  rw [abs_le] at *
  push_cast
  constructor <;> linarith [a.1, a.2]

/-- Integral over a symmetric interval. -/
theorem third (h0 : ∀ s, HasDerivAt F (f s) s) (h1 : ∀ s, HasDerivAt f (f1 s) s) (h2 : ∀ s, HasDerivAt f1 (f2 s) s)
    (h3 : ∀ s t, |f2 t - f2 s| ≤ B3 * |t - s|) (m : ℝ) {s : ℝ} (hs : 0 ≤ s) :
    |F (m + s) - F (m - s) - 2 * f m * s ^ 1 - f2 m / 3 * s ^ 3| ≤ B3 / 12 * s ^ 4 := by
  refine bound (f := fun s => F (m + s) - F (m - s) - 2 * f m * s ^ 1 - f2 m / 3 * s ^ 3)
    (fun s => (((shift_add h0 m s).sub (shift_sub h0 m s)).sub (pow_deriv (2 * f m) 0 s)).sub (pow_deriv (f2 m / 3) 2 s))
    (fun s => pow_deriv (B3 / 12) 3 s) (by simp) (by simp) (fun s hs => ?_) hs
  have a := second h1 h2 h3 m hs
  rw [abs_le] at *
  push_cast
  constructor <;> linarith [a.1, a.2]

/-- One step of the quadrature. -/
theorem step (h0 : ∀ s, HasDerivAt F (f s) s) (h1 : ∀ s, HasDerivAt f (f1 s) s) (h2 : ∀ s, HasDerivAt f1 (f2 s) s)
    (h3 : ∀ s t, |f2 t - f2 s| ≤ B3 * |t - s|) (b1 : ∀ s, |f1 s| ≤ B1) (b2 : ∀ s, |f2 s| ≤ B2) (t : ℝ) {h : ℝ} (hh : 0 ≤ h) :
    |F (t + h) - F t - h * ((f (t + 0.21132487 * h) + f (t + 0.7886751 * h)) / 2)| ≤
      h * (B3 * h ^ 3 / 100 + 2e-8 * B2 * h ^ 2 + 1.5e-8 * B1 * h) := by
  have hB1 : 0 ≤ B1 := (abs_nonneg _).trans (b1 0)
  have hB2 : 0 ≤ B2 := (abs_nonneg _).trans (b2 0)
  have hB3 : 0 ≤ B3 := by have := (abs_nonneg _).trans (h3 0 1); simpa using this
  have a := third h0 h1 h2 h3 (t + h / 2) (s := h / 2) (by linarith)
  rw [show t + h / 2 + h / 2 = t + h by ring, show t + h / 2 - h / 2 = t by ring] at a
  have b := second h1 h2 h3 (t + h / 2) (s := 0.2886751 * h) (by linarith)
  rw [show t + h / 2 + 0.2886751 * h = t + 0.7886751 * h by ring, show t + h / 2 - 0.2886751 * h = t + 0.2113249 * h by ring] at b
  have c : |f (t + 0.2113249 * h) - f (t + 0.21132487 * h)| ≤ B1 * (3e-8 * h) := by
    have := Convex.norm_image_sub_le_of_norm_hasDerivWithin_le (s := Set.univ) (C := B1) (f := f) (f' := f1)
      (fun x _ => (h1 x).hasDerivWithinAt) (fun x _ => b1 x) convex_univ (Set.mem_univ (t + 0.21132487 * h)) (Set.mem_univ (t + 0.2113249 * h))
    refine this.trans (le_of_eq ?_)
    rw [show t + 0.2113249 * h - (t + 0.21132487 * h) = 3e-8 * h by ring, Real.norm_of_nonneg (by positivity)]
  have d := b2 (t + h / 2)
  generalize f2 (t + h / 2) = q at *
  have e : |q * h ^ 3| ≤ B2 * h ^ 3 := by
    rw [abs_mul, abs_of_nonneg (pow_nonneg hh 3)]
    exact mul_le_mul_of_nonneg_right d (pow_nonneg hh 3)
  have hc : h * |f (t + 0.2113249 * h) - f (t + 0.21132487 * h)| ≤ h * (B1 * (3e-8 * h)) := mul_le_mul_of_nonneg_left c hh
  rw [← abs_of_nonneg hh, ← abs_mul, abs_of_nonneg hh] at hc
  have hb := mul_le_mul_of_nonneg_left b hh
  rw [← abs_of_nonneg hh, ← abs_mul, abs_of_nonneg hh] at hb
  have p4 : 0 ≤ B3 * h ^ 4 := by positivity
  have p3 : 0 ≤ B2 * h ^ 3 := by positivity
  rw [abs_le] at *
  obtain ⟨a1, a2⟩ := a
  obtain ⟨hb1, hb2⟩ := hb
  obtain ⟨hc1, hc2⟩ := hc
  obtain ⟨e1, e2⟩ := e
  constructor <;> nlinarith
end Verif.Quad
