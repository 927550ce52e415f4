import Mathlib.Analysis.SpecialFunctions.Pow.Real
import Mathlib.Analysis.SpecialFunctions.Sqrt
import Mathlib.Tactic.Linarith
import Mathlib.Tactic.Ring
import Mathlib.Tactic.FieldSimp
import Mathlib.Tactic.Positivity
/-!
# Linear systems of order two: geometric decay and bounded disturbances
-/
namespace Verif.Schur

/-- The closed loop: error and sum of errors after one period. -/
def M (a b h : ℝ) (x : ℝ × ℝ) : ℝ × ℝ := (a * x.1 - b * x.2, x.2 + h * x.1)

def pow (a b h : ℝ) : ℕ → ℝ × ℝ → ℝ × ℝ
  | 0, x => x
  | n + 1, x => pow a b h n (M a b h x)

def N (x : ℝ × ℝ) : ℝ := |x.1| + |x.2|

theorem N_nonneg (x : ℝ × ℝ) : 0 ≤ N x := by unfold N; positivity

theorem N_add (x y : ℝ × ℝ) : N (x + y) ≤ N x + N y := by
  unfold N
  have h1 := abs_add_le x.1 y.1
  have h2 := abs_add_le x.2 y.2
  simp only [Prod.fst_add, Prod.snd_add]
  linarith

theorem M_add (a b h : ℝ) (x y : ℝ × ℝ) : M a b h (x + y) = M a b h x + M a b h y := by
  ext <;> simp [M] <;> ring

theorem pow_add (a b h : ℝ) (n : ℕ) : ∀ x y, pow a b h n (x + y) = pow a b h n x + pow a b h n y := by
  induction n with
  | zero => intro x y; rfl
  | succ n ih => intro x y; simp only [pow]; rw [M_add, ih]

theorem gram (p q r s x y : ℝ) :
    (p * s - q * r) ^ 2 * (x ^ 2 + y ^ 2) ≤ (p ^ 2 + q ^ 2 + r ^ 2 + s ^ 2) * ((p * x + q * y) ^ 2 + (r * x + s * y) ^ 2) := by
  nlinarith [sq_nonneg (s * (r * x + s * y) + q * (p * x + q * y)), sq_nonneg (p * (p * x + q * y) + r * (r * x + s * y))]

section
variable {a b h : ℝ}

/-- The Lyapunov function. -/
def V (t d x0 x1 : ℝ) : ℝ :=
  ((1 + d) * (x0 ^ 2 + x1 ^ 2) - 2 * t * x0 * x1) +
    ((1 + d) * (x1 ^ 2 + (t * x1 - d * x0) ^ 2) - 2 * t * x1 * (t * x1 - d * x0))

theorem V_step (t d x0 x1 : ℝ) :
    V t d x1 (t * x1 - d * x0) =
      V t d x0 x1 - (1 - d) * (((1 + d) * x0 + (-t) * x1) ^ 2 + ((t * d) * x0 + (1 + d - t ^ 2) * x1) ^ 2) := by
  unfold V; ring

theorem Q_lower {t d : ℝ} (x0 x1 : ℝ) :
    (1 + d - |t|) * (x0 ^ 2 + x1 ^ 2) ≤ (1 + d) * (x0 ^ 2 + x1 ^ 2) - 2 * t * x0 * x1 := by
  have h1 : t * (2 * x0 * x1) ≤ |t| * (x0 ^ 2 + x1 ^ 2) := by
    rcases abs_cases t with ⟨e, ht⟩ | ⟨e, ht⟩ <;> rw [e] <;> nlinarith [sq_nonneg (x0 - x1), sq_nonneg (x0 + x1)]
  nlinarith

theorem V_upper (t d x0 x1 : ℝ) :
    V t d x0 x1 ≤ (|(1 + d) + d ^ 2 * (1 + d)| + |2 * t + 2 * t * d ^ 2| + |2 * (1 + d) + t ^ 2 * (d - 1)|) * (x0 ^ 2 + x1 ^ 2) := by
  have e : V t d x0 x1 = ((1 + d) + d ^ 2 * (1 + d)) * x0 ^ 2 - (2 * t + 2 * t * d ^ 2) * (x0 * x1) +
      (2 * (1 + d) + t ^ 2 * (d - 1)) * x1 ^ 2 := by unfold V; ring
  rw [e]
  generalize (1 + d) + d ^ 2 * (1 + d) = A
  generalize 2 * t + 2 * t * d ^ 2 = B
  generalize 2 * (1 + d) + t ^ 2 * (d - 1) = C
  have hA : A * x0 ^ 2 ≤ |A| * (x0 ^ 2 + x1 ^ 2) := by nlinarith [le_abs_self A, abs_nonneg A, sq_nonneg x0, sq_nonneg x1]
  have hC : C * x1 ^ 2 ≤ |C| * (x0 ^ 2 + x1 ^ 2) := by nlinarith [le_abs_self C, abs_nonneg C, sq_nonneg x0, sq_nonneg x1]
  have hB : -(B * (x0 * x1)) ≤ |B| * (x0 ^ 2 + x1 ^ 2) := by
    have := neg_abs_le B
    rcases abs_cases B with ⟨e, ht⟩ | ⟨e, ht⟩ <;> rw [e] <;>
      nlinarith [sq_nonneg (x0 - x1), sq_nonneg (x0 + x1), sq_nonneg x0, sq_nonneg x1]
  linarith

theorem N_sq (x : ℝ × ℝ) : N x ^ 2 = x.1 ^ 2 + x.2 ^ 2 + 2 * (|x.1| * |x.2|) := by
  unfold N
  rw [add_sq, sq_abs, sq_abs]; ring

theorem N_le (hh : 0 < h) (x : ℝ × ℝ) : N x ^ 2 ≤ (4 / h ^ 2 + 2) * (x.2 ^ 2 + (x.2 + h * x.1) ^ 2) := by
  have hh2 : 0 < h ^ 2 := by positivity
  have e1 : N x ^ 2 ≤ 2 * x.1 ^ 2 + 2 * x.2 ^ 2 := by
    have := sq_nonneg (|x.1| - |x.2|)
    rw [sub_sq, sq_abs, sq_abs] at this
    rw [N_sq]; linarith
  have e2 : 2 * x.1 ^ 2 ≤ 4 / h ^ 2 * (x.2 ^ 2 + (x.2 + h * x.1) ^ 2) := by
    rw [div_mul_eq_mul_div, le_div_iff₀ hh2]
    nlinarith only [sq_nonneg (x.2 + (x.2 + h * x.1))]
  have := sq_nonneg (x.2 + h * x.1)
  rw [add_mul]; linarith

theorem le_N (x : ℝ × ℝ) : x.2 ^ 2 + (x.2 + h * x.1) ^ 2 ≤ (3 + 2 * h ^ 2) * N x ^ 2 := by
  have hp : 0 ≤ |x.1| * |x.2| := by positivity
  have e1 : x.1 ^ 2 ≤ N x ^ 2 := by rw [N_sq]; linarith [sq_nonneg x.2]
  have e2 : x.2 ^ 2 ≤ N x ^ 2 := by rw [N_sq]; linarith [sq_nonneg x.1]
  have e3 : 2 * h ^ 2 * x.1 ^ 2 ≤ 2 * h ^ 2 * N x ^ 2 := mul_le_mul_of_nonneg_left e1 (by positivity)
  nlinarith only [sq_nonneg (x.2 - h * x.1), e2, e3]

/-- Geometric decay. -/
theorem decay (hh : 0 < h) (hb : 0 < b) (h1 : a + b * h < 1) (h2 : 0 < 2 + 2 * a + b * h) :
    ∃ C ρ : ℝ, 0 < C ∧ 0 ≤ ρ ∧ ρ < 1 ∧ ∀ n x, N (pow a b h n x) ≤ C * ρ ^ n * N x := by
  obtain ⟨t, ht⟩ : ∃ t, t = 1 + a := ⟨_, rfl⟩
  obtain ⟨d, hd⟩ : ∃ d, d = a + b * h := ⟨_, rfl⟩
  have hbh : 0 < b * h := mul_pos hb hh
  have htd : |t| < 1 + d := by rw [abs_lt]; constructor <;> linarith
  have hd1 : 0 < 1 - d := by linarith
  have hm : 0 < 1 + d - |t| := by linarith
  obtain ⟨m, hm'⟩ : ∃ m, m = 1 + d - |t| := ⟨_, rfl⟩
  rw [← hm'] at hm
  obtain ⟨det, hdet⟩ : ∃ det, det = (1 + d) * (1 + d - t ^ 2) - (-t) * (t * d) := ⟨_, rfl⟩
  have hdet0 : 0 < det := by
    have : det = (1 + d - t) * (1 + d + t) := by rw [hdet]; ring
    rw [this]
    have := abs_lt.1 htd
    exact mul_pos (by linarith) (by linarith)
  obtain ⟨fr, hfr⟩ : ∃ fr, fr = (1 + d) ^ 2 + (-t) ^ 2 + (t * d) ^ 2 + (1 + d - t ^ 2) ^ 2 := ⟨_, rfl⟩
  have hfr0 : 0 < fr := by
    have : 0 < 1 + d := lt_of_le_of_lt (abs_nonneg t) htd
    rw [hfr]; positivity
  obtain ⟨κ, hκ⟩ : ∃ κ, κ = (1 - d) * (det ^ 2 / fr) := ⟨_, rfl⟩
  have hκ0 : 0 < κ := by rw [hκ]; positivity
  obtain ⟨Λ, hΛ⟩ : ∃ Λ, Λ = |(1 + d) + d ^ 2 * (1 + d)| + |2 * t + 2 * t * d ^ 2| + |2 * (1 + d) + t ^ 2 * (d - 1)| + κ := ⟨_, rfl⟩
  have hΛκ : κ ≤ Λ := by rw [hΛ]; linarith [abs_nonneg ((1 + d) + d ^ 2 * (1 + d)), abs_nonneg (2 * t + 2 * t * d ^ 2), abs_nonneg (2 * (1 + d) + t ^ 2 * (d - 1))]
  have hΛ0 : 0 < Λ := by linarith
  have upper : ∀ x0 x1, V t d x0 x1 ≤ Λ * (x0 ^ 2 + x1 ^ 2) := by
    intro x0 x1
    have := V_upper t d x0 x1
    have : 0 ≤ κ * (x0 ^ 2 + x1 ^ 2) := by positivity
    rw [hΛ]; linarith
  have lower : ∀ x0 x1, m * (x0 ^ 2 + x1 ^ 2) ≤ V t d x0 x1 := by
    intro x0 x1
    have e1 := Q_lower (t := t) (d := d) x0 x1
    have e2 := Q_lower (t := t) (d := d) x1 (t * x1 - d * x0)
    rw [← hm'] at e1 e2
    have : 0 ≤ m * (x1 ^ 2 + (t * x1 - d * x0) ^ 2) := by positivity
    unfold V; linarith
  obtain ⟨q, hq⟩ : ∃ q, q = 1 - κ / Λ := ⟨_, rfl⟩
  have hq0 : 0 ≤ q := by rw [hq, sub_nonneg, div_le_one hΛ0]; exact hΛκ
  have hq1 : q < 1 := by rw [hq]; have : 0 < κ / Λ := div_pos hκ0 hΛ0; linarith
  have contract : ∀ x0 x1, V t d x1 (t * x1 - d * x0) ≤ q * V t d x0 x1 := by
    intro x0 x1
    rw [V_step]
    have g := gram (1 + d) (-t) (t * d) (1 + d - t ^ 2) x0 x1
    rw [← hdet, ← hfr] at g
    have g' : κ * (x0 ^ 2 + x1 ^ 2) ≤
        (1 - d) * (((1 + d) * x0 + (-t) * x1) ^ 2 + ((t * d) * x0 + (1 + d - t ^ 2) * x1) ^ 2) := by
      rw [hκ, mul_assoc]
      apply mul_le_mul_of_nonneg_left _ hd1.le
      rw [div_mul_eq_mul_div, div_le_iff₀ hfr0]
      linarith
    have u := upper x0 x1
    have : κ / Λ * V t d x0 x1 ≤ κ * (x0 ^ 2 + x1 ^ 2) := by
      rw [div_mul_eq_mul_div, div_le_iff₀ hΛ0]
      nlinarith
    rw [hq]; linarith
  have run : ∀ n x, V t d (pow a b h n x).2 ((pow a b h n x).2 + h * (pow a b h n x).1) ≤ q ^ n * V t d x.2 (x.2 + h * x.1) := by
    intro n
    induction n with
    | zero => intro x; simp [pow]
    | succ n ih =>
      intro x
      have h1 := ih (M a b h x)
      have e : (M a b h x).2 + h * (M a b h x).1 = t * (x.2 + h * x.1) - d * x.2 := by simp only [M, ht, hd]; ring
      rw [e] at h1
      have h2 := contract x.2 (x.2 + h * x.1)
      have h3 : (M a b h x).2 = x.2 + h * x.1 := rfl
      rw [h3] at h1
      calc _ ≤ _ := h1
        _ ≤ q ^ n * (q * V t d x.2 (x.2 + h * x.1)) := mul_le_mul_of_nonneg_left h2 (pow_nonneg hq0 n)
        _ = _ := by ring
  have hh2 : 0 < h ^ 2 := by positivity
  obtain ⟨c1, hc1⟩ : ∃ c1, c1 = 4 / h ^ 2 + 2 := ⟨_, rfl⟩
  obtain ⟨c2, hc2⟩ : ∃ c2, c2 = 3 + 2 * h ^ 2 := ⟨_, rfl⟩
  have hc10 : 0 < c1 := by rw [hc1]; positivity
  have hc20 : 0 < c2 := by rw [hc2]; positivity
  have n1 : ∀ x : ℝ × ℝ, N x ^ 2 ≤ c1 * (x.2 ^ 2 + (x.2 + h * x.1) ^ 2) := by
    rw [hc1]; exact N_le hh
  have n2 : ∀ x : ℝ × ℝ, x.2 ^ 2 + (x.2 + h * x.1) ^ 2 ≤ c2 * N x ^ 2 := by
    rw [hc2]; exact le_N
  refine ⟨Real.sqrt (c1 / m * (Λ * c2)), Real.sqrt q, Real.sqrt_pos.2 (by positivity), Real.sqrt_nonneg _, ?_, ?_⟩
  · rw [Real.sqrt_lt' one_pos]; simpa using hq1
  intro n x
  have hr : 0 ≤ Real.sqrt (c1 / m * (Λ * c2)) * Real.sqrt q ^ n * N x := by
    have := N_nonneg x; positivity
  apply le_of_sq_le_sq _ hr
  have e : (Real.sqrt (c1 / m * (Λ * c2)) * Real.sqrt q ^ n * N x) ^ 2 = c1 / m * (Λ * c2) * q ^ n * N x ^ 2 := by
    rw [mul_pow, mul_pow, Real.sq_sqrt (by positivity), ← pow_mul, mul_comm n 2, pow_mul, Real.sq_sqrt hq0]
  rw [e]
  have s1 := n1 (pow a b h n x)
  have s2 := lower (pow a b h n x).2 ((pow a b h n x).2 + h * (pow a b h n x).1)
  have s3 := run n x
  have s4 := upper x.2 (x.2 + h * x.1)
  have s5 := n2 x
  have s6 : m * ((pow a b h n x).2 ^ 2 + ((pow a b h n x).2 + h * (pow a b h n x).1) ^ 2) ≤ q ^ n * (Λ * (c2 * N x ^ 2)) := by
    refine (s2.trans s3).trans (mul_le_mul_of_nonneg_left (s4.trans ?_) (pow_nonneg hq0 n))
    exact mul_le_mul_of_nonneg_left s5 hΛ0.le
  calc N (pow a b h n x) ^ 2 ≤ _ := s1
    _ = c1 / m * (m * ((pow a b h n x).2 ^ 2 + ((pow a b h n x).2 + h * (pow a b h n x).1) ^ 2)) := by field_simp
    _ ≤ c1 / m * (q ^ n * (Λ * (c2 * N x ^ 2))) := mul_le_mul_of_nonneg_left s6 (by positivity)
    _ = _ := by ring

/-- Bounded disturbances. -/
theorem disturbed {C ρ W : ℝ} (hC : 0 < C) (hρ : 0 ≤ ρ) (hρ1 : ρ < 1) (hdec : ∀ n x, N (pow a b h n x) ≤ C * ρ ^ n * N x)
    (x w : ℕ → ℝ × ℝ) (n : ℕ) (hx : ∀ k < n, x (k + 1) = M a b h (x k) + w k) (hw : ∀ k < n, N (w k) ≤ W) :
    N (x n) ≤ C * ρ ^ n * N (x 0) + C * W * ((1 - ρ ^ n) / (1 - ρ)) := by
  have key : ∀ n, (∀ k < n, x (k + 1) = M a b h (x k) + w k) → (∀ k < n, N (w k) ≤ W) →
      ∀ j, N (pow a b h j (x n)) ≤ C * ρ ^ (n + j) * N (x 0) + C * W * (ρ ^ j * ((1 - ρ ^ n) / (1 - ρ))) := by
    intro n
    induction n with
    | zero => intro _ _ j; simpa using hdec j (x 0)
    | succ n ih =>
      intro hx hw j
      rw [hx n (Nat.lt_succ_self n), pow_add]
      have h1 := ih (fun k hk => hx k (Nat.lt_succ_of_lt hk)) (fun k hk => hw k (Nat.lt_succ_of_lt hk)) (j + 1)
      have h2 := hdec j (w n)
      have h3 := hw n (Nat.lt_succ_self n)
      have h4 : C * ρ ^ j * N (w n) ≤ C * ρ ^ j * W := mul_le_mul_of_nonneg_left h3 (by positivity)
      have h5 := N_add (pow a b h j (M a b h (x n))) (pow a b h j (w n))
      have h6 : pow a b h (j + 1) (x n) = pow a b h j (M a b h (x n)) := rfl
      rw [h6] at h1
      have h7 : C * W * (ρ ^ (j + 1) * ((1 - ρ ^ n) / (1 - ρ))) + C * ρ ^ j * W = C * W * (ρ ^ j * ((1 - ρ ^ (n + 1)) / (1 - ρ))) := by
        have : 1 - ρ ≠ 0 := by linarith
        field_simp
        ring
      have h8 : n + (j + 1) = n + 1 + j := by ring
      rw [h8] at h1
      linarith
  simpa [pow] using key n hx hw 0

end

end Verif.Schur
