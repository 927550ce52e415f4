import Verif.Proof.Binary32
import Verif.Props.Detect
/-!
# C74: single precision

That `f32` obeys the laws the theorems about the wall detector ask for, and what they say about it.
-/
namespace Verif.Props
open Verif Verif.Spec Verif.Search Verif.Detect Verif.Binary32

/-- The finite values of type `f32`. -/
def IsF32 (y : ℝ) : Prop := ∃ m e : ℤ, |m| < 2 ^ 24 ∧ -149 ≤ e ∧ e ≤ 104 ∧ y = m * 2 ^ e

theorem isF32_of {m e : ℤ} (hm : |m| ≤ 2 ^ 24) (he : -149 ≤ e) (h : |(m * 2 ^ e : ℝ)| < 2 ^ 128) : IsF32 (m * 2 ^ e) := by
  by_cases h0 : m = 0
  · exact ⟨0, 0, by norm_num, by norm_num, by norm_num, by simp [h0]⟩
  · -- shift digits until the exponent is small enough
    rcases hm.eq_or_lt with heq | hlt
    · obtain ⟨m', hm'⟩ : ∃ m' : ℤ, m = 2 * m' ∧ |m'| = 2 ^ 23 := by
        rcases abs_choice m with h | h
        · exact ⟨2 ^ 23, by omega, by norm_num⟩
        · exact ⟨-2 ^ 23, by omega, by norm_num⟩
      refine ⟨m', e + 1, by omega, by omega, ?_, ?_⟩
      · by_contra hc
        push Not at hc
        have h1 : (2 : ℝ) ^ (128 : ℤ) ≤ |(m * 2 ^ e : ℝ)| := by
          rw [abs_mul, abs_of_pos (pow_pos' e)]
          have : |(m : ℝ)| = 2 ^ (24 : ℤ) := by exact_mod_cast heq
          rw [this, ← zpow_add₀ (by norm_num)]
          exact zpow_le_zpow_right₀ (by norm_num) (by omega)
        have : (2:ℝ) ^ (128:ℤ) = 2 ^ 128 := by norm_num
        linarith
      · rw [hm'.1, zpow_add₀ (by norm_num)]; push_cast; ring
    · by_cases he' : e ≤ 104
      · exact ⟨m, e, hlt, he, he', rfl⟩
      · push Not at he'
        -- then `m * 2^(e-104)` is an integer below `2^24`
        obtain ⟨n, hn⟩ := pow_mult he'.le
        refine ⟨m * n, 104, ?_, by norm_num, le_rfl, by push_cast; rw [mul_assoc, hn]⟩
        have h1 : |((m * n : ℤ) : ℝ)| * 2 ^ (104 : ℤ) < 2 ^ 128 := by
          rw [← abs_of_pos (pow_pos' 104), ← abs_mul]
          push_cast
          rw [mul_assoc, hn]; exact h
        have h2 : |((m * n : ℤ) : ℝ)| < 2 ^ 24 := by
          have e1 : (2 : ℝ) ^ 128 = 2 ^ 24 * 2 ^ (104 : ℤ) := by norm_num
          rw [e1] at h1
          exact lt_of_mul_lt_mul_right h1 (pow_pos' 104).le
        exact_mod_cast h2

theorem rnd_isF32 {y : ℝ} (h : IsF32 y) : rnd y = .fin y := by
  obtain ⟨m, e, hm, he, he', rfl⟩ := h
  refine rnd_fix hm.le he ?_
  rw [abs_mul, abs_of_pos (pow_pos' e)]
  have h1 : |(m : ℝ)| < 2 ^ (24:ℤ) := by exact_mod_cast hm
  have h2 : (2:ℝ) ^ e ≤ 2 ^ (104:ℤ) := zpow_le_zpow_right₀ (by norm_num) he'
  have h3 : (2:ℝ) ^ 128 = 2 ^ (24:ℤ) * 2 ^ (104:ℤ) := by norm_num
  rw [h3]
  exact mul_lt_mul h1 h2 (pow_pos' e) (pow_pos' 24).le

theorem roundEven_nearest (r : ℝ) (n : ℤ) : |(roundEven r : ℝ) - r| ≤ |(n : ℝ) - r| := by
  by_cases h : n = roundEven r
  · rw [h]
  · have h1 := roundEven_err r
    have h2 : (1 : ℝ) ≤ |(n : ℝ) - roundEven r| := by
      have : (1 : ℤ) ≤ |n - roundEven r| := Int.one_le_abs (sub_ne_zero.2 h)
      exact_mod_cast this
    have h3 := abs_sub_le (n : ℝ) r (roundEven r)
    rw [abs_sub_comm r] at h3
    linarith

theorem round24_grid (x : ℝ) (n : ℤ) : |round24 x - x| ≤ |n * 2 ^ ulpExp x - x| := by
  have hp := pow_pos' (ulpExp x)
  have h := roundEven_nearest (x / 2 ^ ulpExp x) n
  have e1 : round24 x - x = (roundEven (x / 2 ^ ulpExp x) - x / 2 ^ ulpExp x) * 2 ^ ulpExp x := by
    unfold round24; field_simp
  have e2 : n * 2 ^ ulpExp x - x = (n - x / 2 ^ ulpExp x) * 2 ^ ulpExp x := by field_simp
  rw [e1, e2, abs_mul, abs_mul, abs_of_pos hp]
  exact mul_le_mul_of_nonneg_right h hp.le

theorem round24_nearest (x z : ℝ) (hz : IsF32 z) : |round24 x - x| ≤ |z - x| := by
  by_cases hx : x = 0
  · rw [hx, round24_zero]; simp
  obtain ⟨m, e, hm, he, -, rfl⟩ := hz
  rcases le_or_gt (ulpExp x) e with h | h
  · obtain ⟨n, hn⟩ := pow_mult h
    have := round24_grid x (m * n)
    push_cast at this
    rwa [mul_assoc, hn] at this
  · have hu : ulpExp x = Int.log 2 |x| - 23 := by unfold ulpExp at h ⊢; omega
    obtain ⟨n, hn⟩ := pow_mult (e := ulpExp x) (k := ulpExp x + 23) (by omega)
    have hxl : (2:ℝ) ^ (ulpExp x + 23) ≤ |x| := by
      have := Int.zpow_log_le_self (b := 2) (r := |x|) (by norm_num) (abs_pos.2 hx)
      rw [hu, sub_add_cancel]; exact_mod_cast this
    have hzl : |(m * 2 ^ e : ℝ)| ≤ 2 ^ (ulpExp x + 23) := by
      rw [abs_mul, abs_of_pos (pow_pos' e)]
      have h1 : |(m : ℝ)| ≤ 2 ^ (24:ℤ) := by exact_mod_cast hm.le
      calc |(m : ℝ)| * 2 ^ e ≤ 2 ^ (24:ℤ) * 2 ^ e := mul_le_mul_of_nonneg_right h1 (pow_pos' e).le
        _ = 2 ^ (24 + e) := (zpow_add₀ (by norm_num) _ _).symm
        _ ≤ _ := zpow_le_zpow_right₀ (by norm_num) (by omega)
    rw [abs_le] at hzl
    rcases lt_or_gt_of_ne hx with hneg | hpos
    · have := round24_grid x (-n)
      push_cast at this
      rw [neg_mul, hn] at this
      rw [abs_of_neg hneg] at hxl
      refine this.trans ?_
      rw [abs_of_nonneg (by linarith), abs_of_nonneg (by linarith)]
      linarith
    · have := round24_grid x n
      rw [hn] at this
      rw [abs_of_pos hpos] at hxl
      refine this.trans ?_
      rw [abs_of_nonpos (by linarith), abs_of_nonpos (by linarith)]
      linarith

theorem top_exp {x : ℝ} (h1 : 2 ^ 127 ≤ x) (h2 : x < 2 ^ 128) : ulpExp x = 104 := by
  have hx : 0 < x := lt_of_lt_of_le (by positivity) h1
  have a : Int.log 2 x < 128 := by
    rw [← Int.lt_zpow_iff_log_lt (by norm_num) hx]; exact_mod_cast h2
  have b : 127 ≤ Int.log 2 x := by
    rw [← Int.zpow_le_iff_le_log (by norm_num) hx]; exact_mod_cast h1
  unfold ulpExp
  rw [abs_of_pos hx]; omega

theorem top_iff (x : ℝ) : 2 ^ 128 ≤ round24 x ↔ 2 ^ 128 - 2 ^ 103 ≤ x := by
  constructor
  · intro h
    by_contra hc
    push Not at hc
    rcases le_or_gt x (2 ^ 128 - 2 ^ 104) with hle | hlt
    · have h1 := round24_mono hle
      have h2 := round24_fix (m := 2 ^ 24 - 1) (e := 104) (by norm_num) (by norm_num)
      have e1 : (((2 ^ 24 - 1 : ℤ) : ℝ)) * 2 ^ (104:ℤ) = 2 ^ 128 - 2 ^ 104 := by norm_num
      rw [e1] at h2
      rw [h2] at h1
      have : (0:ℝ) < 2 ^ 104 := by positivity
      linarith
    · have hu := top_exp (x := x) (by refine le_trans ?_ hlt.le; norm_num) (by refine hc.trans ?_; norm_num)
      have hp : (2:ℝ) ^ (104:ℤ) = 2 ^ 104 := by norm_num
      have hr1 : (2:ℝ) ^ 24 - 1 ≤ x / 2 ^ 104 := by rw [le_div_iff₀ (by positivity)]; refine le_trans ?_ hlt.le; norm_num
      have hr2 : x / 2 ^ 104 < 2 ^ 24 - 1 / 2 := by rw [div_lt_iff₀ (by positivity)]; refine lt_of_lt_of_le hc ?_; norm_num
      have hfl : ⌊x / 2 ^ 104⌋ = 2 ^ 24 - 1 := by
        rw [Int.floor_eq_iff]; push_cast; constructor <;> linarith
      have hfr : Int.fract (x / 2 ^ 104) < 1 / 2 := by
        have := Int.self_sub_floor (x / 2 ^ 104)
        rw [hfl] at this; push_cast at this; linarith
      unfold round24 at h
      rw [hu, hp] at h
      unfold roundEven at h
      rw [if_pos hfr, hfl] at h
      norm_num at h
  · intro h
    refine le_trans ?_ (round24_mono h)
    have hu := top_exp (x := 2 ^ 128 - 2 ^ 103) (by norm_num) (by norm_num)
    unfold round24
    rw [hu]
    have e1 : ((2:ℝ) ^ 128 - 2 ^ 103) / 2 ^ (104:ℤ) = ((2 ^ 24 - 1 : ℤ) : ℝ) + 1 / 2 := by norm_num
    have hfl : ⌊((2 ^ 24 - 1 : ℤ) : ℝ) + 1 / 2⌋ = 2 ^ 24 - 1 := by
      rw [Int.floor_eq_iff]; constructor <;> norm_num
    have hfr : Int.fract (((2 ^ 24 - 1 : ℤ) : ℝ) + 1 / 2) = 1 / 2 := by
      have := Int.self_sub_floor (((2 ^ 24 - 1 : ℤ) : ℝ) + 1 / 2)
      rw [hfl] at this; linarith
    rw [e1]
    unfold roundEven
    rw [hfr, hfl, if_neg (by norm_num), if_neg (by norm_num), if_neg (by decide)]
    norm_num

/-- **C74, rounding is to nearest.** A finite result is a number of type `f32`, and none is nearer; numbers of type `f32` are left
alone; the result is infinite exactly from the middle of the largest number and `2^128` on. -/
theorem C74_nearest (x : ℝ) :
    (∀ y, rnd x = .fin y → IsF32 y ∧ ∀ z, IsF32 z → |y - x| ≤ |z - x|) ∧
    (IsF32 x → rnd x = .fin x) ∧
    (rnd x = .pinf ↔ 2 ^ 128 - 2 ^ 103 ≤ x) ∧ (rnd x = .ninf ↔ x ≤ -(2 ^ 128 - 2 ^ 103)) ∧ rnd x ≠ .nan := by
  refine ⟨fun y hy => ?_, rnd_isF32, ?_, ?_, ?_⟩
  · obtain ⟨rfl, hlt⟩ := rnd_fin hy
    refine ⟨?_, fun z hz => round24_nearest x z hz⟩
    obtain ⟨m, e, h1, h2, h3⟩ := round24_form x
    rw [h3] at hlt ⊢
    exact isF32_of h1 h2 hlt
  · rw [← top_iff]
    unfold rnd
    split_ifs with a b <;> simp [a]
  · have := top_iff (-x)
    rw [round24_neg] at this
    rw [show x ≤ -(2 ^ 128 - 2 ^ 103) ↔ 2 ^ 128 - 2 ^ 103 ≤ -x by constructor <;> intro h <;> linarith, ← this]
    unfold rnd
    split_ifs with a b
    · simp only [reduceCtorEq, false_iff]
      intro hc
      linarith
    · simp only [true_iff]; linarith
    · simp only [reduceCtorEq, false_iff]
      intro hc
      exact b (by linarith)
  · unfold rnd
    split_ifs <;> simp

/-- The functions `exp` considered: 1 at 0, never negative above. -/
structure GoodExp (exp : F → F) : Prop where
  zero : exp (.fin 0) = .fin 1
  nonneg : ∀ x, 0 ≤ x → exp (.fin x) = .pinf ∨ ∃ y, 0 ≤ y ∧ exp (.fin x) = .fin y
  inf : exp .pinf = .pinf
  nan : exp .nan = .nan

/-- **C74, the laws.** `f32` obeys the laws of rounding that the theorems about the wall detector assume. -/
theorem C74_laws (exp : F → F) (h : GoodExp exp) : Rounding (arith exp) where
  zero := rnd_isF32 ⟨0, 0, by norm_num, by norm_num, by norm_num, by norm_num⟩
  half := rnd_isF32 ⟨1, -1, by norm_num, by norm_num, by norm_num, by norm_num⟩
  one := rnd_isF32 ⟨1, 0, by norm_num, by norm_num, by norm_num, by norm_num⟩
  odd := rnd_neg
  mono := fun _ _ => rnd_mono
  idem := fun _ _ => rnd_idem
  exp_zero := h.zero
  exp_nonneg := h.nonneg
  exp_inf := h.inf
  exp_nan := h.nan

/-- **C74, the detector.** With `f32` arithmetic, when the measured distance is always within `2^20` metres of the expected ones and
the deviation at least `2^-40` metres, no history of observations panics and all stored values are `f32` numbers between 0 and 1. -/
theorem C74_detector (exp : F → F) (h : GoodExp exp) (W : Nat) (hW : Supported W) (convert : Pose → Option WallInfo)
    (hc : GoodConverter convert W) (l : List Obs)
    (hl : ∀ o ∈ l, 2 ^ (-40 : ℤ) ≤ o.stddev ∧ ∀ i a, convert o.pose = some i → i.existing = .fin a → |a - o.mean| ≤ 2 ^ 20) :
    ∃ d' rs, observe (arith exp) convert W l Detect.new = .ok (d', rs) ∧ rs.length = l.length ∧
      ∀ i, ∃ p, d' i = .fin p ∧ 0 ≤ p ∧ p ≤ 1 ∧ IsF32 p := by
  have hA := C74_laws exp h
  obtain ⟨d', rs, h1, h2, h3⟩ := C36_history (arith exp) hA W hW convert hc l (fun o ho => by
    obtain ⟨hs, hb⟩ := hl o ho
    have hs0 : 0 < o.stddev := lt_of_lt_of_le (pow_pos' _) hs
    refine ⟨hs0, fun i hi hov => ?_⟩
    obtain ⟨-, a, b, ha, -⟩ := hc _ _ hi
    refine C36_no_overflow (arith exp) hA a o.mean o.stddev (2 ^ 20) (2 ^ 60) (2 ^ 120) hs0
      (rnd_isF32 ⟨1, 20, by norm_num, by norm_num, by norm_num, by norm_num⟩)
      (rnd_isF32 ⟨1, 60, by norm_num, by norm_num, by norm_num, by norm_num⟩) ?_ (hb i a hi ha) ?_ (ha ▸ hov.1)
    · rw [show (2:ℝ) ^ 60 * 2 ^ 60 = 2 ^ 120 by norm_num]
      exact rnd_isF32 ⟨2 ^ 16, 104, by norm_num, by norm_num, by norm_num, by norm_num⟩
    · have : (2:ℝ) ^ 20 = 2 ^ 60 * 2 ^ (-40 : ℤ) := by norm_num
      rw [this]
      exact mul_le_mul_of_nonneg_left hs (by positivity)) Detect.new
    (fun i => ⟨1 / 2, rfl, by norm_num, by norm_num, hA.half⟩)
  refine ⟨d', rs, h1, h2, fun i => ?_⟩
  obtain ⟨r, e, a, b, c⟩ := h3 i
  exact ⟨r, e, a, b, ((C74_nearest r).1 r c).1⟩

open Classical in
/-- The exact exponential function, rounded. -/
noncomputable def expRounded : F → F
  | .nan => .nan | .ninf => .fin 0 | .pinf => .pinf | .fin x => rnd (Real.exp x)

theorem goodExp_rounded : GoodExp expRounded where
  zero := by
    show rnd (Real.exp 0) = _
    rw [Real.exp_zero]
    exact rnd_isF32 ⟨1, 0, by norm_num, by norm_num, by norm_num, by norm_num⟩
  nonneg := fun x _ => by
    have h1 := rnd_mono (Real.exp_pos x).le
    rw [rnd_isF32 (y := 0) ⟨0, 0, by norm_num, by norm_num, by norm_num, by norm_num⟩] at h1
    show rnd (Real.exp x) = _ ∨ ∃ y, _ ∧ rnd (Real.exp x) = _
    cases hr : rnd (Real.exp x) with
    | nan => rw [hr] at h1; exact h1.elim
    | ninf => rw [hr] at h1; exact h1.elim
    | pinf => exact .inl rfl
    | fin y => rw [hr] at h1; exact .inr ⟨y, h1, rfl⟩
  inf := rfl
  nan := rfl

/-- One half is a number of type `f32`, one tenth is not. -/
example : IsF32 (1 / 2) ∧ ¬ IsF32 (1 / 10) := by
  refine ⟨⟨1, -1, by norm_num, by norm_num, by norm_num, by norm_num⟩, ?_⟩
  rintro ⟨m, e, -, -, -, h⟩
  obtain ⟨k, rfl | rfl⟩ := e.eq_nat_or_neg
  · have h1 : (1 : ℤ) = 10 * (m * 2 ^ k) := by
      have : (1 : ℝ) = 10 * (m * 2 ^ k) := by rw [zpow_natCast] at h; linarith
      exact_mod_cast this
    omega
  · have h1 : (2 : ℤ) ^ k = 5 * (2 * m) := by
      have hp : (0:ℝ) < 2 ^ k := by positivity
      have : (2 : ℝ) ^ k = 5 * (2 * m) := by
        rw [zpow_neg, zpow_natCast] at h
        field_simp at h
        linarith
      exact_mod_cast this
    have h2 : ∀ k : ℕ, (2 : ℤ) ^ k % 5 ≠ 0 := by
      intro k
      induction k with
      | zero => norm_num
      | succ k ih => rw [pow_succ]; omega
    have := h2 k
    omega

/-- The smallest and the largest positive number. -/
example : IsF32 (1 / 2 ^ 149) ∧ IsF32 (2 ^ 128 - 2 ^ 104) :=
  ⟨⟨1, -149, by norm_num, by norm_num, by norm_num, by norm_num⟩, ⟨2 ^ 24 - 1, 104, by norm_num, by norm_num, by norm_num, by norm_num⟩⟩

end Verif.Props
