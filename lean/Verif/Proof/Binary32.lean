import Verif.Model.Binary32
import Mathlib.Tactic.Linarith
import Mathlib.Tactic.FieldSimp
import Mathlib.Tactic.Ring
import Mathlib.Algebra.Order.Floor.Ring
/-! # Rounding to binary32 -/
namespace Verif.Binary32
open Verif

theorem roundEven_int (n : ℤ) : roundEven n = n := by
  unfold roundEven; simp

theorem roundEven_err (r : ℝ) : |(roundEven r : ℝ) - r| ≤ 1 / 2 := by
  have h := Int.self_sub_floor r
  have h1 := Int.fract_nonneg r
  have h2 := Int.fract_lt_one r
  unfold roundEven
  rw [abs_le]
  split_ifs with a b c <;> push_cast <;> constructor <;> linarith

theorem roundEven_floor (r : ℝ) : ⌊r⌋ ≤ roundEven r ∧ roundEven r ≤ ⌊r⌋ + 1 := by
  unfold roundEven
  split_ifs <;> omega

theorem roundEven_mono {r s : ℝ} (h : r ≤ s) : roundEven r ≤ roundEven s := by
  rcases (Int.floor_mono h).lt_or_eq with hl | he
  · exact (roundEven_floor r).2.trans ((Int.add_one_le_iff.2 hl).trans (roundEven_floor s).1)
  · have h1 := Int.self_sub_floor r
    have h2 := Int.self_sub_floor s
    rw [he] at h1
    have hf : Int.fract r ≤ Int.fract s := by linarith
    unfold roundEven
    rw [he]
    split_ifs <;> first | omega | (exfalso; linarith)

theorem roundEven_neg (r : ℝ) : roundEven (-r) = -roundEven r := by
  by_cases h0 : Int.fract r = 0
  · obtain ⟨n, hn⟩ : ∃ n : ℤ, r = n := ⟨⌊r⌋, by have := Int.self_sub_floor r; linarith⟩
    rw [hn, ← Int.cast_neg, roundEven_int, roundEven_int]
  · have hf : Int.fract (-r) = 1 - Int.fract r := Int.fract_neg h0
    have hfl : ⌊-r⌋ = -⌊r⌋ - 1 := by
      have h1 := Int.self_sub_floor r
      have h2 := Int.self_sub_floor (-r)
      have : ((⌊-r⌋ : ℤ) : ℝ) = ((-⌊r⌋ - 1 : ℤ) : ℝ) := by push_cast; linarith
      exact_mod_cast this
    have he : Even (-⌊r⌋ - 1) ↔ ¬ Even ⌊r⌋ := by
      rw [show -⌊r⌋ - 1 = -(⌊r⌋ + 1) by ring, even_neg, Int.even_add_one]
    unfold roundEven
    rw [hf, hfl]
    split_ifs <;> first | omega | (exfalso; linarith) | (exfalso; tauto)

theorem pow_pos' (k : ℤ) : (0 : ℝ) < 2 ^ k := zpow_pos (by norm_num) k

theorem ulpExp_neg (x : ℝ) : ulpExp (-x) = ulpExp x := by unfold ulpExp; rw [abs_neg]

theorem round24_neg (x : ℝ) : round24 (-x) = -round24 x := by
  unfold round24
  rw [ulpExp_neg, neg_div, roundEven_neg]; push_cast; ring

theorem round24_zero : round24 0 = 0 := by
  have := roundEven_int 0
  unfold round24
  rw [zero_div]
  simp only [Int.cast_zero] at this
  rw [this]; simp

/-- Rounding does not cross a multiple of the last place. -/
theorem round24_le {x : ℝ} (n : ℤ) (h : x ≤ n * 2 ^ ulpExp x) : round24 x ≤ n * 2 ^ ulpExp x := by
  have hp := pow_pos' (ulpExp x)
  unfold round24
  refine mul_le_mul_of_nonneg_right ?_ hp.le
  have := roundEven_mono (r := x / 2 ^ ulpExp x) (s := n) (by rw [div_le_iff₀ hp]; exact h)
  rw [roundEven_int] at this
  exact_mod_cast this

theorem le_round24 {x : ℝ} (n : ℤ) (h : n * 2 ^ ulpExp x ≤ x) : n * 2 ^ ulpExp x ≤ round24 x := by
  have hp := pow_pos' (ulpExp x)
  unfold round24
  refine mul_le_mul_of_nonneg_right ?_ hp.le
  have := roundEven_mono (r := n) (s := x / 2 ^ ulpExp x) (by rw [le_div_iff₀ hp]; exact h)
  rw [roundEven_int] at this
  exact_mod_cast this

theorem round24_nonneg {x : ℝ} (h : 0 ≤ x) : 0 ≤ round24 x := by
  have := le_round24 (x := x) 0 (by simpa using h)
  simpa using this

/-- A power of two not below the last place is a multiple of it. -/
theorem pow_mult {e k : ℤ} (h : e ≤ k) : ∃ n : ℤ, (n : ℝ) * 2 ^ e = 2 ^ k := by
  obtain ⟨d, rfl⟩ := Int.le.dest h
  refine ⟨2 ^ d, ?_⟩
  push_cast
  rw [zpow_add₀ (by norm_num), zpow_natCast]; ring

theorem round24_mono_pos {x y : ℝ} (hx : 0 < x) (h : x ≤ y) : round24 x ≤ round24 y := by
  have hy := hx.trans_le h
  have hl : Int.log 2 |x| ≤ Int.log 2 |y| := Int.log_mono_right (by rwa [abs_of_pos hx]) (by rwa [abs_of_pos hx, abs_of_pos hy])
  have hu : ulpExp x ≤ ulpExp y := by unfold ulpExp; omega
  rcases hu.eq_or_lt with he | hlt
  · unfold round24
    rw [he]
    refine mul_le_mul_of_nonneg_right ?_ (pow_pos' _).le
    exact_mod_cast roundEven_mono (div_le_div_of_nonneg_right h (pow_pos' _).le)
  · have hye : ulpExp y = Int.log 2 |y| - 23 := by unfold ulpExp at hlt ⊢; omega
    have hk : Int.log 2 |x| + 1 ≤ Int.log 2 |y| := by unfold ulpExp at hlt; omega
    have h1 : x ≤ 2 ^ Int.log 2 |y| := by
      have := Int.lt_zpow_succ_log_self (b := 2) (by norm_num) |x|
      rw [abs_of_pos hx] at this
      refine this.le.trans ?_
      rw [abs_of_pos hx] at hk
      exact_mod_cast zpow_le_zpow_right₀ (by norm_num : (1:ℝ) ≤ 2) hk
    have h2 : (2 : ℝ) ^ Int.log 2 |y| ≤ y := by
      have := Int.zpow_log_le_self (b := 2) (r := |y|) (by norm_num) (by rwa [abs_of_pos hy])
      rw [abs_of_pos hy] at this ⊢
      exact_mod_cast this
    obtain ⟨n, hn⟩ := pow_mult (e := ulpExp x) (k := Int.log 2 |y|) (by omega)
    obtain ⟨m, hm⟩ := pow_mult (e := ulpExp y) (k := Int.log 2 |y|) (by omega)
    have a := round24_le n (hn.symm ▸ h1)
    have b := le_round24 m (hm.symm ▸ h2)
    linarith

theorem round24_mono {x y : ℝ} (h : x ≤ y) : round24 x ≤ round24 y := by
  rcases lt_trichotomy x 0 with hx | hx | hx
  · rcases lt_or_ge y 0 with hy | hy
    · have := round24_mono_pos (x := -y) (y := -x) (by linarith) (by linarith)
      rw [round24_neg, round24_neg] at this
      linarith
    · have h1 := round24_nonneg (x := -x) (by linarith)
      rw [round24_neg] at h1
      have h2 := round24_nonneg hy
      linarith
  · rw [hx, round24_zero]; exact round24_nonneg (hx ▸ h)
  · exact round24_mono_pos hx h

theorem lt_ulp (x : ℝ) : |x| < 2 ^ (ulpExp x + 24) := by
  have := Int.lt_zpow_succ_log_self (b := 2) (by norm_num) |x|
  refine this.trans_le ?_
  exact_mod_cast zpow_le_zpow_right₀ (by norm_num : (1:ℝ) ≤ 2) (by unfold ulpExp; omega)

/-- A multiple `m 2^e` with at most 24 digits is left alone. -/
theorem round24_fix {m e : ℤ} (hm : |m| ≤ 2 ^ 24) (he : -149 ≤ e) : round24 (m * 2 ^ e) = m * 2 ^ e := by
  by_cases h0 : m = 0
  · subst h0; simp [round24_zero]
  · obtain ⟨x, hx⟩ : ∃ x : ℝ, x = m * 2 ^ e := ⟨_, rfl⟩
    rw [← hx]
    have hpe := pow_pos' e
    have hxa : |x| = |(m:ℝ)| * 2 ^ e := by rw [hx, abs_mul, abs_of_pos hpe]
    have hmr : |(m : ℝ)| ≤ 2 ^ 24 := by exact_mod_cast hm
    have hm0 : (0:ℝ) < |(m:ℝ)| := abs_pos.2 (by exact_mod_cast h0)
    have hxpos : 0 < |x| := by rw [hxa]; positivity
    have key : ∃ n : ℤ, (n : ℝ) * 2 ^ ulpExp x = x := by
      rcases hm.lt_or_eq with hlt | heq
      · have hl : Int.log 2 |x| < e + 24 := by
          rw [← Int.lt_zpow_iff_log_lt (by norm_num) hxpos, hxa, zpow_add₀ (by norm_num)]
          have : |(m : ℝ)| < 2 ^ 24 := by exact_mod_cast hlt
          push_cast
          rw [show ((2:ℝ) ^ e * 2 ^ (24:ℤ)) = 2 ^ 24 * 2 ^ e by norm_num; ring]
          exact mul_lt_mul_of_pos_right this hpe
        obtain ⟨n, hn⟩ := pow_mult (e := ulpExp x) (k := e) (by unfold ulpExp; omega)
        exact ⟨m * n, by push_cast; rw [mul_assoc, hn, hx]⟩
      · have hl : Int.log 2 |x| < e + 25 := by
          rw [← Int.lt_zpow_iff_log_lt (by norm_num) hxpos, hxa, zpow_add₀ (by norm_num)]
          push_cast
          rw [show ((2:ℝ) ^ e * 2 ^ (25:ℤ)) = 2 ^ 25 * 2 ^ e by norm_num; ring]
          exact mul_lt_mul_of_pos_right (by linarith [hmr]) hpe
        obtain ⟨n, hn⟩ := pow_mult (e := ulpExp x) (k := e + 1) (by unfold ulpExp; omega)
        obtain ⟨m', hm'⟩ : ∃ m' : ℤ, m = 2 * m' := by
          rcases abs_choice m with h | h
          · exact ⟨2 ^ 23, by omega⟩
          · exact ⟨-2 ^ 23, by omega⟩
        refine ⟨m' * n, ?_⟩
        push_cast; rw [mul_assoc, hn, hx, hm', zpow_add₀ (by norm_num)]; push_cast; ring
    obtain ⟨n, hn⟩ := key
    exact le_antisymm (by
      have := round24_le n hn.ge
      rwa [hn] at this) (by
      have := le_round24 n hn.le
      rwa [hn] at this)

/-- The result has at most 24 digits. -/
theorem round24_form (x : ℝ) : ∃ m e : ℤ, |m| ≤ 2 ^ 24 ∧ -149 ≤ e ∧ round24 x = m * 2 ^ e := by
  refine ⟨_, ulpExp x, ?_, by unfold ulpExp; omega, rfl⟩
  have h := lt_ulp x
  have hp := pow_pos' (ulpExp x)
  rw [zpow_add₀ (by norm_num)] at h
  have h1 : |x / 2 ^ ulpExp x| ≤ 2 ^ 24 := by
    rw [abs_div, abs_of_pos hp, div_le_iff₀ hp]
    have : (2:ℝ) ^ (24:ℤ) = 2 ^ 24 := by norm_num
    rw [this] at h
    linarith
  rw [abs_le] at h1 ⊢
  have a := roundEven_mono (r := ((-2 ^ 24 : ℤ) : ℝ)) (s := x / 2 ^ ulpExp x) (by push_cast; linarith [h1.1])
  have b := roundEven_mono (r := x / 2 ^ ulpExp x) (s := ((2 ^ 24 : ℤ) : ℝ)) (by push_cast; linarith [h1.2])
  rw [roundEven_int] at a b
  exact ⟨a, b⟩

theorem round24_idem (x : ℝ) : round24 (round24 x) = round24 x := by
  obtain ⟨m, e, h1, h2, h3⟩ := round24_form x
  rw [h3, round24_fix h1 h2]

theorem rnd_fin {x y : ℝ} (h : rnd x = .fin y) : y = round24 x ∧ |round24 x| < 2 ^ 128 := by
  unfold rnd at h
  split_ifs at h with a b
  simp only [F.fin.injEq] at h
  push Not at a b
  exact ⟨h.symm, abs_lt.2 ⟨b, a⟩⟩

theorem rnd_of_lt {x : ℝ} (h : |round24 x| < 2 ^ 128) : rnd x = .fin (round24 x) := by
  rw [abs_lt] at h
  unfold rnd
  rw [if_neg (not_le.2 h.2), if_neg (not_le.2 h.1)]

theorem rnd_fix {m e : ℤ} (hm : |m| ≤ 2 ^ 24) (he : -149 ≤ e) (h : |(m * 2 ^ e : ℝ)| < 2 ^ 128) :
    rnd (m * 2 ^ e) = .fin (m * 2 ^ e) := by
  rw [rnd_of_lt (by rwa [round24_fix hm he]), round24_fix hm he]

theorem rnd_neg (x : ℝ) : rnd (-x) = (rnd x).neg := by
  unfold rnd
  rw [round24_neg]
  split_ifs <;> first | rfl | (exfalso; linarith)

theorem rnd_mono {x y : ℝ} (h : x ≤ y) : (rnd x).le (rnd y) := by
  have := round24_mono h
  unfold rnd
  split_ifs <;> simp only [F.le] <;> first | trivial | (exfalso; linarith) | linarith

theorem rnd_idem {x y : ℝ} (h : rnd x = .fin y) : rnd y = .fin y := by
  obtain ⟨rfl, h2⟩ := rnd_fin h
  rw [rnd_of_lt (by rwa [round24_idem]), round24_idem]

/-- Half a unit in the last place. -/
theorem round24_err (x : ℝ) : |round24 x - x| ≤ 2 ^ ulpExp x / 2 := by
  have hp := pow_pos' (ulpExp x)
  have h := roundEven_err (x / 2 ^ ulpExp x)
  have : round24 x - x = (roundEven (x / 2 ^ ulpExp x) - x / 2 ^ ulpExp x) * 2 ^ ulpExp x := by
    unfold round24; field_simp
  rw [this, abs_mul, abs_of_pos hp]
  nlinarith

theorem ulp_le {x : ℝ} (h : x ≠ 0) : (2 : ℝ) ^ ulpExp x ≤ max (|x| / 2 ^ 23) (2 ^ (-149 : ℤ)) := by
  have hx : 0 < |x| := abs_pos.2 h
  have h1 := Int.zpow_log_le_self (b := 2) (r := |x|) (by norm_num) hx
  rcases le_total (Int.log 2 |x| - 23) (-149) with hl | hl
  · have : ulpExp x = -149 := by unfold ulpExp; omega
    rw [this]; exact le_max_right _ _
  · have : ulpExp x = Int.log 2 |x| - 23 := by unfold ulpExp; omega
    rw [this, zpow_sub₀ (by norm_num)]
    refine le_trans ?_ (le_max_left _ _)
    have e : (2:ℝ) ^ (23:ℤ) = 2 ^ 23 := by norm_num
    rw [e]
    push_cast at h1
    exact div_le_div_of_nonneg_right h1 (by positivity)

/-- Relative error `2^-24`, absolute error `2^-150` for subnormal numbers. -/
theorem round24_rel (x : ℝ) : |round24 x - x| ≤ max (|x| / 2 ^ 24) (1 / 2 ^ 150) := by
  by_cases h : x = 0
  · rw [h, round24_zero]; simp
  · refine (round24_err x).trans ?_
    have h2 := ulp_le h
    rcases le_max_iff.1 h2 with h3 | h3
    · exact le_max_of_le_left (by
        have : |x| / 2 ^ 24 = |x| / 2 ^ 23 / 2 := by ring
        rw [this]; linarith)
    · refine le_max_of_le_right ?_
      have : (1 : ℝ) / 2 ^ 150 = 2 ^ (-149 : ℤ) / 2 := by
        rw [zpow_neg, show ((2:ℝ) ^ (149:ℤ)) = 2 ^ 149 by norm_cast]; field_simp
      rw [this]
      exact div_le_div_of_nonneg_right h3 (by norm_num)

end Verif.Binary32
