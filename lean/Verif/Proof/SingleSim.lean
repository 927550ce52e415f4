import Verif.Spec.SingleSim
import Verif.Proof.Lasting
import Verif.Proof.Journey
import Verif.Proof.SingleConvert
/-!
# Lemmas about the simulator in single precision
-/
namespace Verif.Proof
open Verif Verif.Spec Verif.Single Verif.Binary32

variable {exp : F → F}

theorem mag {z c : ℝ} (h : |z| ≤ c) (hc : c ≤ 2 ^ 100) : ∃ x, rnd z = .fin x ∧ |x| ≤ c * (1 + 1 / 10000000) + 1 / 10 ^ 40 := by
  obtain ⟨x, e, b⟩ := rnd_rel (h.trans hc)
  refine ⟨x, e, ?_⟩
  have h1 : |x| ≤ |x - z| + |z| := by
    have := abs_add_le (x - z) z
    rwa [sub_add_cancel] at this
  have h2 : |z| / 10000000 ≤ c / 10000000 := div_le_div_of_nonneg_right h (by norm_num)
  linarith

theorem mul_mag {a b p q : ℝ} (ha : |a| ≤ p) (hb : |b| ≤ q) (hc : p * q ≤ 2 ^ 100) :
    ∃ x, (arith exp).mul (.fin a) (.fin b) = .fin x ∧ |x| ≤ p * q * (1 + 1 / 10000000) + 1 / 10 ^ 40 :=
  mag (z := a * b) (by rw [abs_mul]; exact mul_le_mul ha hb (abs_nonneg _) ((abs_nonneg _).trans ha)) hc

theorem add_mag {a b p q : ℝ} (ha : |a| ≤ p) (hb : |b| ≤ q) (hc : p + q ≤ 2 ^ 100) :
    ∃ x, (arith exp).add (.fin a) (.fin b) = .fin x ∧ |x| ≤ (p + q) * (1 + 1 / 10000000) + 1 / 10 ^ 40 :=
  mag (z := a + b) ((abs_add_le _ _).trans (add_le_add ha hb)) hc

theorem sub_mag {a b p q : ℝ} (ha : |a| ≤ p) (hb : |b| ≤ q) (hc : p + q ≤ 2 ^ 100) :
    ∃ x, (arith exp).sub (.fin a) (.fin b) = .fin x ∧ |x| ≤ (p + q) * (1 + 1 / 10000000) + 1 / 10 ^ 40 :=
  mag (z := a + -b) ((abs_add_le _ _).trans (add_le_add ha (by rwa [abs_neg]))) hc

theorem half_mag {a p : ℝ} (ha : |a| ≤ p) (hc : p ≤ 2 ^ 100) :
    ∃ x, (arith exp).div (.fin a) (.fin 2) = .fin x ∧ |x| ≤ p / 2 * (1 + 1 / 10000000) + 1 / 10 ^ 40 := by
  rw [div_rnd (by norm_num)]
  have h0 := (abs_nonneg a).trans ha
  exact mag (by rw [abs_div, abs_of_pos (show (0:ℝ) < 2 by norm_num)]; linarith) (by linarith)

theorem div_mag {a p T : ℝ} (ha : |a| ≤ p) (hT : 1 / 10000 ≤ T) (hc : p * 10000 ≤ 2 ^ 100) :
    ∃ x, (arith exp).div (.fin a) (.fin T) = .fin x ∧ |x| ≤ p * 10000 * (1 + 1 / 10000000) + 1 / 10 ^ 40 := by
  have T0 : 0 < T := by linarith
  rw [div_rnd T0.ne']
  refine mag ?_ hc
  rw [abs_div, abs_of_pos T0, div_le_iff₀ T0]
  have h0 := (abs_nonneg a).trans ha
  have := mul_le_mul_of_nonneg_left hT (show 0 ≤ p * 10000 by linarith)
  linarith

/-- One step of the filter. -/
theorem filter_mag {t T u g U K : ℝ} (hT : 1 / 10000 ≤ T) (hT1 : T ≤ 1 / 400) (ht : 0 ≤ t) (htT : t ≤ 1000 * T) (hu : |u| ≤ U) (hU : U ≤ 10 ^ 6)
    (hg : |g| ≤ K) (hK : K ≤ 10 ^ 6) :
    ∃ α r, (arith exp).div (.fin t) ((arith exp).add (.fin t) (.fin T)) = α ∧
      (arith exp).add ((arith exp).mul (.fin u) α) ((arith exp).mul ((arith exp).sub (.fin 1) α) (.fin g)) = .fin r ∧
      |r| ≤ U * (t / (t + T)) * (1 + 1 / 10 ^ 6) + K * (T / (t + T)) * (1 + 4 / 10 ^ 4) + 1 / 10 ^ 20 := by
  have U0 := (abs_nonneg u).trans hu
  have K0 := (abs_nonneg g).trans hg
  have D0 : 0 < t + T := by linarith
  obtain ⟨σ, eσ, σ0, bσ⟩ := rnd_rel0 (z := t + T) D0.le (by norm_num; linarith)
  have bσ' := abs_le.1 bσ
  norm_num at bσ'
  have σp : 0 < σ := by linarith
  obtain ⟨a, ha⟩ : ∃ a, a = t / (t + T) := ⟨_, rfl⟩
  obtain ⟨b, hb⟩ : ∃ b, b = T / (t + T) := ⟨_, rfl⟩
  have hab : a + b = 1 := by rw [ha, hb]; field_simp
  have a0 : 0 ≤ a := by rw [ha]; positivity
  have b1 : 1 / 1001 ≤ b := by rw [hb, le_div_iff₀ D0]; linarith
  rw [← ha, ← hb]
  have at' : a * (t + T) = t := by rw [ha]; field_simp
  have aT : a * (1 / 10000) ≤ t := by
    have h : a * T ≤ a * (t + T) := mul_le_mul_of_nonneg_left (by linarith) a0
    have := mul_le_mul_of_nonneg_left hT a0
    linarith
  -- the quotient
  have q1 : t / σ ≤ a + a * (11 / 10 ^ 8) := by
    rw [div_le_iff₀ σp]
    have h1 : (1 + 11 / 10 ^ 8) * σ ≥ t + T := by norm_num; linarith
    have := mul_le_mul_of_nonneg_left h1 a0
    linarith
  have q2 : a - a * (11 / 10 ^ 8) ≤ t / σ := by
    rw [le_div_iff₀ σp]
    have h1 : (1 - 11 / 10 ^ 8) * σ ≤ t + T := by norm_num; linarith
    have := mul_le_mul_of_nonneg_left h1 a0
    linarith
  have q0 : 0 ≤ t / σ := by positivity
  have a1 : a ≤ 1 := by linarith
  norm_num at q1 q2
  obtain ⟨α, eα, α0, bα⟩ := rnd_rel0 (z := t / σ) q0 (by norm_num; linarith)
  have bα' := abs_le.1 bα
  norm_num at bα'
  obtain ⟨β, eβ, bβ⟩ := rnd_rel (z := 1 + -α) (by rw [abs_le]; norm_num; constructor <;> linarith)
  have β1 : |1 + -α| ≤ b + 22 / 10 ^ 8 := by rw [abs_le]; norm_num; constructor <;> linarith
  have bβ' : |β| ≤ b + 33 / 10 ^ 8 := by
    have h1 : |β| ≤ |β - (1 + -α)| + |1 + -α| := by
      have := abs_add_le (β - (1 + -α)) (1 + -α)
      rwa [sub_add_cancel] at this
    norm_num at bβ β1 ⊢
    linarith
  have α1 : |α| ≤ a * (1 + 22 / 10 ^ 8) + 1 / 10 ^ 40 := by rw [abs_of_nonneg α0]; norm_num; linarith
  have β2 : |β| ≤ b * (1 + 34 / 10 ^ 5) := by norm_num at bβ' ⊢; linarith
  have hUa : U * (a * (1 + 22 / 10 ^ 8) + 1 / 10 ^ 40) ≤ U * 2 := mul_le_mul_of_nonneg_left (by norm_num; linarith) U0
  have hKb : b * (1 + 34 / 10 ^ 5) * K ≤ 2 * K := mul_le_mul_of_nonneg_right (by norm_num; linarith) K0
  obtain ⟨m, em, bm⟩ := mul_mag (exp := exp) hu α1 (by norm_num at hU ⊢; norm_num at hUa; linarith)
  obtain ⟨n, en, bn⟩ := mul_mag (exp := exp) β2 hg (by norm_num at hK ⊢; norm_num at hKb; linarith)
  have hUa0 : 0 ≤ U * a := mul_nonneg U0 a0
  have hKb0 : 0 ≤ b * K := mul_nonneg (by linarith) K0
  have hm : |m| ≤ U * a * (1 + 5 / 10 ^ 7) + 1 / 10 ^ 30 := by
    refine bm.trans ?_
    norm_num at hU ⊢
    nlinarith
  have hn : |n| ≤ b * K * (1 + 35 / 10 ^ 5) + 1 / 10 ^ 30 := by
    refine bn.trans ?_
    norm_num
    nlinarith
  have hUa1 : U * a ≤ U := mul_le_of_le_one_right U0 a1
  have hKb1 : b * K ≤ K := mul_le_of_le_one_left K0 (by linarith)
  obtain ⟨r, er, br⟩ := add_mag (exp := exp) hm hn (by norm_num at hU hK ⊢; linarith)
  refine ⟨.fin α, r, ?_, ?_, ?_⟩
  · show (arith exp).div (.fin t) (rnd (t + T)) = _
    rw [eσ, div_rnd σp.ne', eα]
  · have : (arith exp).sub (.fin 1) (.fin α) = .fin β := eβ
    rw [em, this, en, er]
  · refine br.trans ?_
    norm_num at hU hK ⊢
    nlinarith

/-- Adding up to 1 does not leave the range up to 2²⁴. -/
theorem saturate {x d : ℝ} (hx : |x| ≤ 2 ^ 24) (hd : |d| ≤ 1) : ∃ y, (arith exp).add (.fin x) (.fin d) = .fin y ∧ |y| ≤ 2 ^ 24 := by
  have key : round24 (2 ^ 24 + 1) = 2 ^ 24 := by
    have hu : ulpExp ((2:ℝ) ^ 24 + 1) = 1 := by
      have := ulp_at (x := (2:ℝ) ^ 24 + 1) (k := 24) (by norm_num) (by norm_num) (by norm_num)
      rw [this]; norm_num
    unfold round24
    rw [hu]
    have hr : roundEven (((2:ℝ) ^ 24 + 1) / 2 ^ (1:ℤ)) = 8388608 := by
      have hf : ⌊((2:ℝ) ^ 24 + 1) / 2 ^ (1:ℤ)⌋ = 8388608 := by
        rw [Int.floor_eq_iff]; norm_num
      unfold roundEven
      simp only [hf]
      norm_num
      try decide
    rw [hr]; norm_num
  have hz : |x + d| ≤ 2 ^ 24 + 1 := (abs_add_le _ _).trans (add_le_add hx hd)
  obtain ⟨h1, h2⟩ := abs_le.1 hz
  have m1 := round24_mono h2
  have m2 := round24_mono h1
  rw [round24_neg, key] at m2
  rw [key] at m1
  have hb : |round24 (x + d)| ≤ 2 ^ 24 := abs_le.2 ⟨m2, m1⟩
  refine ⟨round24 (x + d), rnd_of_lt (hb.trans_lt (by norm_num)), hb⟩

end Verif.Proof
