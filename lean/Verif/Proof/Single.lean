import Verif.Spec.Single
import Verif.Props.Clock
/-!
# Sizes of floating point numbers
-/
namespace Verif.Proof
open Verif Verif.Spec Verif.Binary32 Verif.Props Verif.Single

theorem two_pow_le {i k : ℤ} (h : i ≤ k) : (2:ℝ) ^ i ≤ 2 ^ k := zpow_le_zpow_right₀ (by norm_num) h

theorem round24_two {k : ℤ} (h : -149 ≤ k) : round24 (2 ^ k) = 2 ^ k := by
  have := round24_fix (m := 1) (e := k) (by norm_num) h
  simpa using this

theorem round24_abs_le {z c : ℝ} (hc : round24 c = c) (h : |z| ≤ c) : |round24 z| ≤ c := by
  obtain ⟨h1, h2⟩ := abs_le.1 h
  rw [abs_le]
  refine ⟨?_, hc ▸ round24_mono h2⟩
  have := round24_mono h1
  rwa [round24_neg, hc] at this

theorem rnd_mag {z : ℝ} {k : ℤ} (h : |z| ≤ 2 ^ k) (h1 : -149 ≤ k) (h2 : k ≤ 127) : Mag k (rnd z) := by
  have a := round24_abs_le (round24_two h1) h
  refine ⟨round24 z, rnd_of_lt ?_, a⟩
  refine a.trans_lt ((two_pow_le h2).trans_lt ?_)
  norm_num

theorem _root_.Verif.Spec.Mag.weaken {i k : ℤ} {x : F} (h : Mag i x) (hk : i ≤ k) : Mag k x := by
  obtain ⟨a, rfl, ha⟩ := h
  exact ⟨a, rfl, ha.trans (two_pow_le hk)⟩

theorem mag_neg {k : ℤ} {x : F} (h : Mag k x) : Mag k x.neg := by
  obtain ⟨a, rfl, ha⟩ := h
  exact ⟨-a, rfl, by rwa [abs_neg]⟩

variable {exp : F → F}

theorem mag_add {i j : ℤ} (k : ℤ) {x y : F} (hx : Mag i x) (hy : Mag j y) (h : i + 1 ≤ k ∧ j + 1 ≤ k ∧ -149 ≤ k ∧ k ≤ 127) :
    Mag k ((arith exp).add x y) := by
  obtain ⟨a, rfl, ha⟩ := hx
  obtain ⟨b, rfl, hb⟩ := hy
  refine rnd_mag ?_ h.2.2.1 h.2.2.2
  have e : (2:ℝ) ^ k = 2 ^ (k - 1) + 2 ^ (k - 1) := by
    have := zpow_add_one₀ (show (2:ℝ) ≠ 0 by norm_num) (k - 1)
    rw [sub_add_cancel] at this
    linarith
  have h1 := two_pow_le (show i ≤ k - 1 by omega)
  have h2 := two_pow_le (show j ≤ k - 1 by omega)
  linarith [abs_add_le a b]

theorem mag_sub {i j : ℤ} (k : ℤ) {x y : F} (hx : Mag i x) (hy : Mag j y) (h : i + 1 ≤ k ∧ j + 1 ≤ k ∧ -149 ≤ k ∧ k ≤ 127) :
    Mag k ((arith exp).sub x y) := mag_add k hx (mag_neg hy) h

theorem mag_mul {i j : ℤ} (k : ℤ) {x y : F} (hx : Mag i x) (hy : Mag j y) (h : i + j ≤ k ∧ -149 ≤ k ∧ k ≤ 127) :
    Mag k ((arith exp).mul x y) := by
  obtain ⟨a, rfl, ha⟩ := hx
  obtain ⟨b, rfl, hb⟩ := hy
  refine rnd_mag ?_ h.2.1 h.2.2
  calc |a * b| = |a| * |b| := abs_mul a b
    _ ≤ 2 ^ i * 2 ^ j := mul_le_mul ha hb (abs_nonneg _) (pow_pos' i).le
    _ = 2 ^ (i + j) := (zpow_add₀ (by norm_num) i j).symm
    _ ≤ 2 ^ k := two_pow_le h.1

theorem mag_div {i j : ℤ} (k : ℤ) {x : F} {b : ℝ} (hx : Mag i x) (hb : 2 ^ j ≤ |b|) (h : i - j ≤ k ∧ -149 ≤ k ∧ k ≤ 127) :
    Mag k ((arith exp).div x (.fin b)) := by
  obtain ⟨a, rfl, ha⟩ := hx
  have hb0 : 0 < |b| := (pow_pos' j).trans_le hb
  have : (arith exp).div (.fin a) (.fin b) = rnd (a / b) := by
    unfold Arith.div
    dsimp only
    rw [if_neg (abs_pos.1 hb0)]
    rfl
  rw [this]
  refine rnd_mag ?_ h.2.1 h.2.2
  rw [abs_div, div_le_iff₀ hb0]
  calc |a| ≤ 2 ^ i := ha
    _ ≤ 2 ^ (k + j) := two_pow_le (by omega)
    _ = 2 ^ k * 2 ^ j := zpow_add₀ (by norm_num) k j
    _ ≤ 2 ^ k * |b| := mul_le_mul_of_nonneg_left hb (pow_pos' k).le

/-- A sum to which numbers of at most `2^k` are added, however many. -/
theorem mag_acc (k : ℤ) {x y : F} (hx : Mag (k + 25) x) (hy : Mag k y) (h : -149 ≤ k ∧ k ≤ 102) :
    Mag (k + 25) ((arith exp).add x y) := by
  obtain ⟨a, rfl, ha⟩ := hx
  obtain ⟨b, rfl, hb⟩ := hy
  have hs : round24 (2 ^ (k + 25) + 2 ^ k) = 2 ^ (k + 25) := by
    refine stall k (by omega) (pow_pos' k).le ?_
    have := zpow_add_one₀ (show (2:ℝ) ≠ 0 by norm_num) k
    have := pow_pos' k
    linarith
  have hz : |a + b| ≤ 2 ^ (k + 25) + 2 ^ k := (abs_add_le a b).trans (add_le_add ha hb)
  have : |round24 (a + b)| ≤ 2 ^ (k + 25) := by
    obtain ⟨h1, h2⟩ := abs_le.1 hz
    rw [abs_le]
    refine ⟨?_, hs ▸ round24_mono h2⟩
    have := round24_mono h1
    rwa [round24_neg, hs] at this
  refine ⟨round24 (a + b), rnd_of_lt (this.trans_lt ((two_pow_le (show k + 25 ≤ 127 by omega)).trans_lt (by norm_num))), this⟩

theorem mag_fin {k : ℤ} {a : ℝ} (h : |a| ≤ 2 ^ k) : Mag k (.fin a) := ⟨a, rfl, h⟩

end Verif.Proof
