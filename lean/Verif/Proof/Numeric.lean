import Mathlib.Analysis.Calculus.Deriv.Pow
import Mathlib.Analysis.Calculus.Deriv.Mul
import Mathlib.Analysis.Calculus.MeanValue
import Mathlib.Analysis.Complex.Trigonometric
import Mathlib.Analysis.SpecialFunctions.Trigonometric.Deriv
import Mathlib.Analysis.Real.Pi.Bounds
/-!
# Integrals of cosines of polynomials, by rational arithmetic

Polynomials are lists of rational coefficients, lowest first; all functions are computable.
-/
namespace Verif.Num

/-- Value at a real number. -/
def ev : List ℚ → ℝ → ℝ
  | [], _ => 0
  | a :: p, x => a + x * ev p x

/-- Value at a rational number. -/
def evQ : List ℚ → ℚ → ℚ
  | [], _ => 0
  | a :: p, x => a + x * evQ p x

def add : List ℚ → List ℚ → List ℚ
  | [], q => q
  | p, [] => p
  | a :: p, b :: q => (a + b) :: add p q

def scale (c : ℚ) (p : List ℚ) : List ℚ := p.map (c * ·)

def mul : List ℚ → List ℚ → List ℚ
  | [], _ => []
  | a :: p, q => add (scale a q) (0 :: mul p q)

/-- Composition. -/
def comp : List ℚ → List ℚ → List ℚ
  | [], _ => []
  | a :: p, q => add [a] (mul q (comp p q))

def antiFrom : Nat → List ℚ → List ℚ
  | _, [] => []
  | n, a :: p => (a / (n + 1)) :: antiFrom (n + 1) p

/-- Antiderivative. -/
def anti (p : List ℚ) : List ℚ := 0 :: antiFrom 0 p

theorem ev_cast (p : List ℚ) (x : ℚ) : ((evQ p x : ℚ) : ℝ) = ev p x := by
  induction p with
  | nil => simp [ev, evQ]
  | cons a p ih => simp [ev, evQ, ih]

theorem ev_add (p q : List ℚ) (x : ℝ) : ev (add p q) x = ev p x + ev q x := by
  induction p generalizing q with
  | nil => simp [add, ev]
  | cons a p ih =>
    cases q with
    | nil => simp [add, ev]
    | cons b q => simp only [add, ev, ih, Rat.cast_add]; ring

theorem ev_scale (c : ℚ) (p : List ℚ) (x : ℝ) : ev (scale c p) x = c * ev p x := by
  induction p with
  | nil => simp [scale, ev]
  | cons a p ih =>
    have : scale c (a :: p) = (c * a) :: scale c p := rfl
    rw [this]; simp only [ev, ih, Rat.cast_mul]; ring

theorem ev_mul (p q : List ℚ) (x : ℝ) : ev (mul p q) x = ev p x * ev q x := by
  induction p with
  | nil => simp [mul, ev]
  | cons a p ih => simp only [mul, ev_add, ev_scale, ev, ih, Rat.cast_zero]; ring

theorem ev_comp (p q : List ℚ) (x : ℝ) : ev (comp p q) x = ev p (ev q x) := by
  induction p with
  | nil => simp [comp, ev]
  | cons a p ih => simp only [comp, ev_add, ev_mul, ev, ih]; ring

theorem antiFrom_deriv (p : List ℚ) (n : Nat) (x : ℝ) :
    HasDerivAt (fun x => x ^ (n + 1) * ev (antiFrom n p) x) (x ^ n * ev p x) x := by
  induction p generalizing n with
  | nil => simpa [antiFrom, ev] using hasDerivAt_const x (0 : ℝ)
  | cons a p ih =>
    have h1 : HasDerivAt (fun x : ℝ => x ^ (n + 1) * ((a / (n + 1) : ℚ) : ℝ)) (((n + 1 : ℕ) * x ^ n) * ((a / (n + 1) : ℚ) : ℝ)) x := by
      simpa using (hasDerivAt_pow (n + 1) x).mul_const ((a / (n + 1) : ℚ) : ℝ)
    have h := h1.add (ih (n + 1))
    refine (h.congr_deriv ?_).congr_of_eventuallyEq (Filter.Eventually.of_forall fun y => ?_)
    · have : ((n : ℝ) + 1) ≠ 0 := by positivity
      push_cast
      simp only [ev]
      field_simp
      ring
    · simp only [antiFrom, ev, Pi.add_apply]; ring

theorem anti_deriv (p : List ℚ) (x : ℝ) : HasDerivAt (ev (anti p)) (ev p x) x := by
  have := antiFrom_deriv p 0 x
  refine (this.congr_deriv (by simp)).congr_of_eventuallyEq (Filter.Eventually.of_forall fun y => ?_)
  simp [anti, ev]

/-- Coefficients of the cosine in powers of the square. -/
def cosC : List ℚ := [1, -1 / 2, 1 / 24, -1 / 720, 1 / 40320, -1 / 3628800, 1 / 479001600, -1 / 87178291200]

theorem cos_taylor {x : ℝ} (hx : |x| ≤ 1.6) : |Real.cos x - ev cosC (x * x)| ≤ 2e-10 := by
  have hb := Complex.exp_bound' (x := (x : ℂ) * Complex.I) (n := 16) (by
    rw [norm_mul, Complex.norm_I, mul_one, Complex.norm_real, Real.norm_eq_abs]
    norm_num; linarith)
  rw [norm_mul, Complex.norm_I, mul_one, Complex.norm_real, Real.norm_eq_abs] at hb
  have hre := (Complex.abs_re_le_norm _).trans hb
  have e : (Complex.exp (x * Complex.I) - ∑ m ∈ Finset.range 16, (x * Complex.I) ^ m / (m.factorial : ℂ)).re =
      Real.cos x - ev cosC (x * x) := by
    rw [Complex.sub_re, Complex.exp_ofReal_mul_I_re]
    congr 1
    have i2 : Complex.I ^ 2 = -1 := Complex.I_sq
    have hs : ∑ m ∈ Finset.range 16, (x * Complex.I) ^ m / (m.factorial : ℂ) =
        ((ev cosC (x * x) : ℝ) : ℂ) + ((x - x ^ 3 / 6 + x ^ 5 / 120 - x ^ 7 / 5040 + x ^ 9 / 362880 - x ^ 11 / 39916800 + x ^ 13 / 6227020800
          - x ^ 15 / 1307674368000 : ℝ) : ℂ) * Complex.I := by
      simp only [Finset.sum_range_succ, Finset.sum_range_zero, mul_pow, cosC, ev, Nat.factorial]
      have i3 : Complex.I ^ 3 = -Complex.I := by rw [pow_succ, i2]; ring
      have i4 : Complex.I ^ 4 = 1 := Complex.I_pow_four
      have i5 : Complex.I ^ 5 = Complex.I := by rw [pow_succ, i4]; ring
      have i6 : Complex.I ^ 6 = -1 := by rw [pow_succ, i5, ← i2]; ring
      have i7 : Complex.I ^ 7 = -Complex.I := by rw [pow_succ, i6]; ring
      have i8 : Complex.I ^ 8 = 1 := by rw [show 8 = 4 + 4 by rfl, pow_add, i4]; ring
      have i9 : Complex.I ^ 9 = Complex.I := by rw [pow_succ, i8]; ring
      have i10 : Complex.I ^ 10 = -1 := by rw [show 10 = 8 + 2 by rfl, pow_add, i8, i2]; ring
      have i11 : Complex.I ^ 11 = -Complex.I := by rw [pow_succ, i10]; ring
      have i12 : Complex.I ^ 12 = 1 := by rw [show 12 = 8 + 4 by rfl, pow_add, i8, i4]; ring
      have i13 : Complex.I ^ 13 = Complex.I := by rw [pow_succ, i12]; ring
      have i14 : Complex.I ^ 14 = -1 := by rw [show 14 = 12 + 2 by rfl, pow_add, i12, i2]; ring
      have i15 : Complex.I ^ 15 = -Complex.I := by rw [pow_succ, i14]; ring
      rw [i2, i3, i4, i5, i6, i7, i8, i9, i10, i11, i12, i13, i14, i15]
      push_cast
      ring
    rw [hs, Complex.add_re, Complex.ofReal_re, Complex.re_ofReal_mul, Complex.I_re, mul_zero, add_zero]
  rw [e] at hre
  refine hre.trans ?_
  have h0 := abs_nonneg x
  have : |x| ^ 16 ≤ 1.6 ^ 16 := pow_le_pow_left₀ h0 hx 16
  norm_num [Nat.factorial] at this ⊢
  linarith

/-- An approximation of π. -/
def piQ : ℚ := 3141592653589793 / 1000000000000000

theorem piQ_err : |Real.pi - (piQ : ℝ)| ≤ 1e-14 := by
  have := Real.pi_gt_d20
  have := Real.pi_lt_d20
  unfold piQ
  rw [abs_le]; push_cast
  constructor <;> linarith

/-- Approximate integral of `cos (π q)` from 0. -/
def cosInt (q : List ℚ) (len : ℚ) : ℚ :=
  evQ (anti (comp cosC (mul (scale piQ q) (scale piQ q)))) len

theorem cos_diff (a b : ℝ) : |Real.cos a - Real.cos b| ≤ |a - b| := by
  have := Convex.norm_image_sub_le_of_norm_deriv_le (f := Real.cos) (s := Set.univ) (C := 1) (x := b) (y := a)
    (fun x _ => Real.differentiable_cos x) (fun x _ => by rw [Real.deriv_cos, norm_neg]; exact Real.abs_sin_le_one x) convex_univ trivial trivial
  simpa using this

theorem cosInt_spec {q : List ℚ} {len : ℚ} (hl : 0 ≤ len) {G : ℝ → ℝ} {a : ℝ}
    (hG : ∀ s : ℝ, 0 ≤ s → s ≤ len → HasDerivAt G (Real.cos (Real.pi * ev q s)) (a + s))
    (hq : ∀ s : ℝ, 0 ≤ s → s ≤ len → |ev q s| ≤ 1 / 2) :
    |G (a + len) - G a - (cosInt q len : ℚ)| ≤ 3e-10 * len := by
  have hl' : (0 : ℝ) ≤ len := by exact_mod_cast hl
  have hp := piQ_err
  have key := Convex.norm_image_sub_le_of_norm_hasDerivWithin_le
    (f := fun s => G (a + s) - ev (anti (comp cosC (mul (scale piQ q) (scale piQ q)))) s)
    (f' := fun s => Real.cos (Real.pi * ev q s) - ev (comp cosC (mul (scale piQ q) (scale piQ q))) s)
    (s := Set.Icc (0 : ℝ) len) (C := 3e-10) (x := 0) (y := len) (fun s hs => by
      have h1 := (hG s hs.1 hs.2).comp s ((hasDerivAt_id s).const_add a)
      rw [mul_one] at h1
      exact (h1.sub (anti_deriv _ s)).hasDerivWithinAt) (fun s hs => by
      have h := hq s hs.1 hs.2
      rw [ev_comp, ev_mul, ev_scale, Real.norm_eq_abs]
      have hb : |(piQ : ℝ) * ev q s| ≤ 1.6 := by
        rw [abs_mul]
        have : |(piQ : ℝ)| ≤ 3.15 := by unfold piQ; norm_num [abs_of_pos]
        nlinarith [abs_nonneg (ev q s), abs_nonneg (piQ : ℝ)]
      have h1 := cos_taylor hb
      have h2 := cos_diff (Real.pi * ev q s) (piQ * ev q s)
      rw [← sub_mul, abs_mul] at h2
      have h3 : |Real.pi - (piQ : ℝ)| * |ev q s| ≤ 1e-14 * (1 / 2) := mul_le_mul hp h (abs_nonneg _) (by norm_num)
      calc _ ≤ |Real.cos (Real.pi * ev q s) - Real.cos (piQ * ev q s)| + |Real.cos (piQ * ev q s) - ev cosC (piQ * ev q s * (piQ * ev q s))| :=
            abs_sub_le _ _ _
        _ ≤ 3e-10 := by linarith) (convex_Icc _ _) ⟨le_rfl, hl'⟩ ⟨hl', le_rfl⟩
  rw [Real.norm_eq_abs, Real.norm_eq_abs, sub_zero, abs_of_nonneg hl'] at key
  unfold cosInt
  rw [ev_cast]
  have e0 : ev (anti (comp cosC (mul (scale piQ q) (scale piQ q)))) 0 = 0 := by simp [anti, ev]
  rw [e0, add_zero, sub_zero] at key
  rwa [show G (a + len) - G a - ev (anti (comp cosC (mul (scale piQ q) (scale piQ q)))) len =
    G (a + len) - ev (anti (comp cosC (mul (scale piQ q) (scale piQ q)))) len - G a by ring]

end Verif.Num
