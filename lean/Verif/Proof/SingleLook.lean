import Verif.Proof.Lasting
import Verif.Proof.Journey
import Verif.Proof.SingleConvert
import Verif.Model.Detect
import Verif.Props.Binary32
/-!
# One observation of the wall detector in single precision
-/
namespace Verif.Proof
open Verif Verif.Spec Verif.Single Verif.Binary32 Verif.Detect Verif.Props

variable {exp : F → F}

/-- The logarithm of a likelihood, for a deviation between `α` and `β`. -/
theorem score_within {x m s α β : ℝ} (s0 : 1 / 10 ^ 6 ≤ s) (s1 : s ≤ 1) (hα : 0 ≤ α) (h1 : α ≤ |x - m|) (h2 : |x - m| ≤ β)
    (hβ : β ≤ 1) : ∃ r, score (arith exp) (.fin x) (.fin m) (.fin s) = .fin r ∧ r ≤ 0 ∧
      -((β / s) ^ 2 / 2 * (1 + 1 / 10 ^ 6) + 1 / 10 ^ 6) ≤ r ∧ r ≤ -((α / s) ^ 2 / 2 * (1 - 1 / 10 ^ 6)) + 1 / 10 ^ 6 := by
  have hs : 0 < s := lt_of_lt_of_le (by norm_num) s0
  have hβ0 : 0 ≤ β := (abs_nonneg _).trans h2
  obtain ⟨g, eg, bg⟩ := rnd_rel (z := x + -m) (by
    rw [← sub_eq_add_neg]; exact h2.trans (hβ.trans (by norm_num)))
  rw [← sub_eq_add_neg] at bg
  have hg := abs_le.1 ((abs_abs_sub_abs_le _ _).trans bg)
  obtain ⟨T, hT⟩ : ∃ T, T = |g| / s := ⟨_, rfl⟩
  have hT0 : 0 ≤ T := by rw [hT]; positivity
  have hsx : ∀ z : ℝ, 0 ≤ z → z ≤ z / s := fun z hz => by rw [le_div_iff₀ hs]; exact mul_le_of_le_one_right hz s1
  obtain ⟨a, ha⟩ : ∃ a, a = α / s := ⟨_, rfl⟩
  obtain ⟨b, hb⟩ : ∃ b, b = β / s := ⟨_, rfl⟩
  have ha0 : 0 ≤ a := by rw [ha]; positivity
  have hb0 : 0 ≤ b := by rw [hb]; positivity
  have hab : a ≤ b := by
    rw [ha, hb]; exact div_le_div_of_nonneg_right (h1.trans h2) hs.le
  have hb1 : b ≤ 10 ^ 6 := by
    rw [hb, div_le_iff₀ hs]
    linarith
  have ha' : α = a * s := by rw [ha]; field_simp
  have hb' : β = b * s := by rw [hb]; field_simp
  have hT' : |g| = T * s := by rw [hT]; field_simp
  have z40 : (1 / 10 ^ 40 : ℝ) ≤ 1 / 10 ^ 30 * s := by
    have := mul_le_mul_of_nonneg_left s0 (show (0:ℝ) ≤ 1 / 10 ^ 30 by positivity)
    refine le_trans ?_ this
    norm_num
  have T1 : T ≤ b * (1 + 1 / 10000000) + 1 / 10 ^ 30 := by
    have : T * s ≤ (b * (1 + 1 / 10000000) + 1 / 10 ^ 30) * s := by
      rw [← hT']
      have e : (b * (1 + 1 / 10000000) + 1 / 10 ^ 30) * s = b * s * (1 + 1 / 10000000) + 1 / 10 ^ 30 * s := by ring
      rw [e, ← hb']
      linarith [hg.2]
    exact le_of_mul_le_mul_right this hs
  have T2 : a * (1 - 1 / 10000000) - 1 / 10 ^ 30 ≤ T := by
    have : (a * (1 - 1 / 10000000) - 1 / 10 ^ 30) * s ≤ T * s := by
      rw [← hT']
      have e : (a * (1 - 1 / 10000000) - 1 / 10 ^ 30) * s = a * s * (1 - 1 / 10000000) - 1 / 10 ^ 30 * s := by ring
      rw [e, ← ha']
      linarith [hg.1]
    exact le_of_mul_le_mul_right this hs
  have hgs : |g / s| = T := by rw [abs_div, abs_of_pos hs, hT]
  obtain ⟨t, et, bt⟩ := rnd_rel (z := g / s) (by rw [hgs]; refine le_trans T1 ?_; norm_num at hb1 ⊢; linarith)
  rw [hgs] at bt
  have ht := abs_le.1 ((abs_abs_sub_abs_le _ _).trans bt)
  rw [hgs] at ht
  have z30 : (1 / 10 ^ 40 : ℝ) ≤ 1 / 10 ^ 29 := by norm_num
  have t1 : |t| ≤ b * (1 + 21 / 10 ^ 8) + 1 / 10 ^ 28 := by
    norm_num at ht T1 ⊢; linarith [ht.2]
  have t2 : a * (1 - 21 / 10 ^ 8) - 1 / 10 ^ 28 ≤ |t| := by
    norm_num at ht T2 ⊢; linarith [ht.1]
  obtain ⟨Q, hQ⟩ : ∃ Q, Q = |t| * |t| := ⟨_, rfl⟩
  have hQ0 : 0 ≤ Q := by rw [hQ]; positivity
  have Q1 : Q ≤ b ^ 2 * (1 + 5 / 10 ^ 7) + 1 / 10 ^ 20 := by
    have := mul_le_mul t1 t1 (abs_nonneg t) (by positivity)
    rw [hQ]
    refine this.trans ?_
    have bb : b * b ≤ b * 10 ^ 6 := mul_le_mul_of_nonneg_left hb1 hb0
    norm_num at bb hb1 ⊢
    nlinarith
  have Q2 : a ^ 2 * (1 - 5 / 10 ^ 7) - 1 / 10 ^ 20 ≤ Q := by
    by_cases hz : a * (1 - 21 / 10 ^ 8) - 1 / 10 ^ 28 ≤ 0
    · have : a ≤ 1 / 10 ^ 27 := by norm_num at hz ⊢; linarith
      have : a ^ 2 ≤ (1 / 10 ^ 27) ^ 2 := pow_le_pow_left₀ ha0 this 2
      norm_num at this ⊢
      linarith
    · have := mul_le_mul t2 t2 (not_le.1 hz).le (abs_nonneg t)
      rw [hQ]
      refine le_trans ?_ this
      have a6 : a ≤ 10 ^ 6 := hab.trans hb1
      norm_num at a6 ⊢
      nlinarith
  have hQt : -t * t = -Q := by rw [hQ, abs_mul_abs_self]; ring
  have hQ12 : Q ≤ 2 * 10 ^ 12 := by
    have : b ^ 2 ≤ (10 ^ 6) ^ 2 := pow_le_pow_left₀ hb0 hb1 2
    norm_num at this Q1 ⊢; linarith
  obtain ⟨q, eq, bq⟩ := rnd_rel (z := -t * t) (by rw [hQt, abs_neg, abs_of_nonneg hQ0]; refine hQ12.trans (by norm_num))
  rw [hQt, abs_neg, abs_of_nonneg hQ0] at bq
  have bq' := abs_le.1 bq
  have q0 : q ≤ 0 := rnd_le_fix round24_zero (by rw [hQt]; linarith) eq
  obtain ⟨r, er, br⟩ := rnd_rel (z := q / 2) (by
    rw [abs_div, abs_of_nonpos q0]; norm_num at bq' hQ12 ⊢; linarith)
  have r0 : r ≤ 0 := rnd_le_fix round24_zero (by linarith) er
  rw [abs_div, abs_of_nonpos q0, abs_two] at br
  have br' := abs_le.1 br
  refine ⟨r, ?_, r0, ?_, ?_⟩
  · unfold score
    have e1 : (arith exp).sub (.fin x) (.fin m) = .fin g := eg
    dsimp only
    rw [e1, div_rnd hs.ne', et]
    have e2 : (arith exp).mul (F.neg (.fin t)) (.fin t) = .fin q := eq
    rw [e2, div_rnd two_ne_zero, er]
  · rw [← hb]
    norm_num at bq' br' Q1 ⊢
    linarith [sq_nonneg b]
  · rw [← ha]
    norm_num at bq' br' Q2 ⊢
    linarith [sq_nonneg a]

/-- The two logarithms differ by more than six. -/
theorem score_gap {u v m s : ℝ} (s0 : 1 / 10 ^ 6 ≤ s) (s1 : s ≤ 201 / 100000) (h1 : |u - m| ≤ 7 / 1000) (h2 : 10 / 1000 ≤ |v - m|)
    (h3 : |v - m| ≤ 1) : ∃ r r' x, score (arith exp) (.fin u) (.fin m) (.fin s) = .fin r ∧
      score (arith exp) (.fin v) (.fin m) (.fin s) = .fin r' ∧ r' < r ∧ rnd (r - r') = .fin x ∧ 6 ≤ x := by
  have hs : 0 < s := lt_of_lt_of_le (by norm_num) s0
  obtain ⟨r, er, r0, rl, -⟩ := score_within (exp := exp) s0 (by linarith) le_rfl (abs_nonneg _) h1 (by norm_num)
  obtain ⟨r', er', r0', rl', ru'⟩ := score_within (exp := exp) s0 (by linarith) (by norm_num) h2 h3 le_rfl
  obtain ⟨h, hh⟩ : ∃ h, h = (1 / s) ^ 2 := ⟨_, rfl⟩
  have e1 : (7 / 1000 / s) ^ 2 = 49 / 10 ^ 6 * h := by rw [hh]; ring
  have e2 : (10 / 1000 / s) ^ 2 = 100 / 10 ^ 6 * h := by rw [hh]; ring
  have e3 : (1 / s) ^ 2 = h := hh.symm
  rw [e1] at rl
  rw [e2] at ru'
  rw [e3] at rl'
  have hl : 247000 ≤ h := by
    have : 497 ≤ 1 / s := by rw [le_div_iff₀ hs]; linarith
    have := pow_le_pow_left₀ (by norm_num) this 2
    rw [e3] at this
    norm_num at this ⊢
    linarith
  have hu : h ≤ 10 ^ 12 := by
    have : 1 / s ≤ 10 ^ 6 := by
      rw [div_le_iff₀ hs]
      have := mul_le_mul_of_nonneg_left s0 (show (0:ℝ) ≤ 10 ^ 6 by norm_num)
      norm_num at this ⊢
      linarith
    have := pow_le_pow_left₀ (by positivity) this 2
    rw [e3] at this
    norm_num at this ⊢
    linarith
  norm_num at rl ru' rl' hu
  have hd : 61 / 10 ≤ r - r' := by linarith
  obtain ⟨x, ex, bx⟩ := rnd_rel (z := r - r') (by
    rw [abs_of_nonneg (by linarith)]; norm_num; linarith)
  rw [abs_of_nonneg (show 0 ≤ r - r' by linarith)] at bx
  have bx' := abs_le.1 bx
  norm_num at bx'
  exact ⟨r, r', x, er, er', by linarith, ex, by linarith⟩

/-- The largest number. -/
theorem fix_le_max {e : ℝ} (h : round24 e = e) (h' : e < 2 ^ 128) : e ≤ (2 ^ 24 - 1) * 2 ^ 104 := by
  by_cases h7 : e < 2 ^ 127
  · refine h7.le.trans (by norm_num)
  · have u := ulp_at (x := e) (k := 127) (by exact_mod_cast not_lt.1 h7) (by exact_mod_cast h') (by norm_num)
    unfold round24 at h
    rw [u] at h
    have e1 : (2 : ℝ) ^ ((127 : ℤ) - 23) = 2 ^ 104 := by norm_num
    rw [e1] at h
    generalize roundEven (e / 2 ^ 104) = j at h
    have : (j : ℝ) < 2 ^ 24 := by
      have : (j : ℝ) * 2 ^ 104 < 2 ^ 24 * 2 ^ 104 := by rw [h]; refine h'.trans_le (by norm_num)
      exact lt_of_mul_lt_mul_right this (by positivity)
    have hj : j < 2 ^ 24 := by exact_mod_cast this
    have hj' : j ≤ 2 ^ 24 - 1 := by omega
    have : (j : ℝ) ≤ 2 ^ 24 - 1 := by exact_mod_cast hj'
    rw [← h]
    exact mul_le_mul_of_nonneg_right this (by positivity)

/-- Adding at most one to a number does not overflow. -/
theorem add_small {e n : ℝ} (h : round24 e = e) (h' : e < 2 ^ 128) (he : 29 ≤ e) (hn : 0 ≤ n) (hn' : n ≤ 1) :
    ∃ σ, rnd (e + n) = .fin σ ∧ e ≤ σ ∧ σ ≤ (e + n) * (1 + 1 / 10 ^ 7) := by
  have hm := fix_le_max h h'
  have r := round24_rel' (z := e + n) (by rw [abs_of_nonneg (by linarith)]; norm_num; linarith)
  rw [abs_of_nonneg (show 0 ≤ e + n by linarith)] at r
  have r' := abs_le.1 r
  have hle : e ≤ round24 (e + n) := by
    have := round24_mono (show e ≤ e + n by linarith)
    rwa [h] at this
  have hM : round24 (((2 : ℤ) ^ 24 - 1 : ℤ) * 2 ^ (104 : ℤ) : ℝ) = ((2 : ℤ) ^ 24 - 1 : ℤ) * 2 ^ (104 : ℤ) :=
    round24_fix (by norm_num) (by norm_num)
  have hlt : round24 (e + n) < 2 ^ 128 := by
    have g := round24_mono (show e + n ≤ (2 ^ 24 - 1) * 2 ^ 104 + 1 by linarith)
    have k := round24_nearest ((2 ^ 24 - 1) * 2 ^ 104 + 1) ((2 ^ 24 - 1) * 2 ^ 104)
      ⟨2 ^ 24 - 1, 104, by norm_num, by norm_num, by norm_num, by norm_num⟩
    have k' := (abs_le.1 (k.trans (show |((2 ^ 24 - 1) * 2 ^ 104 - ((2 ^ 24 - 1) * 2 ^ 104 + 1) : ℝ)| ≤ 1 by
      rw [sub_add_cancel_left]; norm_num))).2
    refine lt_of_le_of_lt (g.trans (show _ ≤ (2 ^ 24 - 1) * 2 ^ 104 + 2 by linarith)) (by norm_num)
  refine ⟨_, rnd_of_lt ?_, hle, ?_⟩
  · rw [abs_of_nonneg (by linarith)]; exact hlt
  · norm_num at r' ⊢
    linarith

end Verif.Proof
