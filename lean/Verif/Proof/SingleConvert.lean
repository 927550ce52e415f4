import Verif.Spec.SingleConvert
import Verif.Proof.Convert
import Verif.Proof.Journey
import Verif.Proof.Outline
import Verif.Proof.Lasting
/-!
# The pose converter in single precision: constants, cells and angles
-/
namespace Verif.Proof
open Verif Verif.Spec Verif.Convert Verif.Single Verif.Binary32 Verif.Search Verif.Detect

variable {exp : F → F}

theorem rnd_within {z c : ℝ} (h : |z| ≤ c) (hc : c ≤ 1000000) : ∃ x, rnd z = .fin x ∧ |x - z| ≤ c / 10000000 + 1 / 10 ^ 20 := by
  obtain ⟨x, e, b⟩ := rnd_tiny (h.trans hc)
  exact ⟨x, e, b.trans (by linarith)⟩

theorem ulp_at {x : ℝ} {k : ℤ} (h0 : (2 : ℝ) ^ k ≤ x) (h1 : x < 2 ^ (k + 1)) (hk : -126 ≤ k) : ulpExp x = k - 23 := by
  have hx : 0 < x := (pow_pos' k).trans_le h0
  have hl : Int.log 2 |x| = k := by
    rw [abs_of_pos hx]
    have a : k ≤ Int.log 2 x := (Int.zpow_le_iff_le_log (by norm_num) hx).1 (by exact_mod_cast h0)
    have b : Int.log 2 x < k + 1 := (Int.lt_zpow_iff_log_lt (by norm_num) hx).1 (by exact_mod_cast h1)
    omega
  unfold ulpExp
  rw [hl]; omega

/-- The nearest number to nine centimetres. -/
theorem cell_width : round24 (9 / 100) = 12079596 / 2 ^ 27 := by
  have h := ulp_at (x := 9 / 100) (k := -4) (by norm_num) (by norm_num) (by norm_num)
  unfold round24
  rw [h]
  have e : (9 / 100 : ℝ) / 2 ^ ((-4 : ℤ) - 23) = 12079595 + 13 / 25 := by norm_num
  have f : ⌊(9 / 100 : ℝ) / 2 ^ ((-4 : ℤ) - 23)⌋ = 12079595 := by
    rw [e, Int.floor_eq_iff]; norm_num
  have g : Int.fract ((9 / 100 : ℝ) / 2 ^ ((-4 : ℤ) - 23)) = 13 / 25 := by
    unfold Int.fract; rw [f, e]; norm_num
  have r : roundEven ((9 / 100 : ℝ) / 2 ^ ((-4 : ℤ) - 23)) = 12079596 := by
    unfold roundEven
    rw [g, f, if_neg (by norm_num), if_pos (by norm_num)]; norm_num
  rw [r]; norm_num

/-- The settings by default. -/
theorem finder_default : ∃ s ir il p1 p2 n1 n2 : ℝ,
    Finder.default (arith exp) = ⟨90, .fin s, .fin ir, .fin il, .fin p1, .fin p2, .fin n1, .fin n2⟩ ∧
    |s - 9 / 100| ≤ 1 / 10 ^ 8 ∧ |ir - 1 / 100| ≤ 1 / 10 ^ 8 ∧ |il - 8 / 1000| ≤ 1 / 10 ^ 8 ∧
    |p1 - 87 / 1000| ≤ 3 / 10 ^ 8 ∧ |p2 - 177 / 1000| ≤ 6 / 10 ^ 8 ∧ |n1 - 3 / 1000| ≤ 1 / 10 ^ 8 ∧
    |n2 + 87 / 1000| ≤ 3 / 10 ^ 8 := by
  have e9 : rnd (9 / 100) = .fin (12079596 / 2 ^ 27) := by
    have := rnd_of_lt (x := 9 / 100) (by rw [cell_width]; norm_num)
    rw [this, cell_width]
  obtain ⟨w, ew, bw⟩ := rnd_tiny (z := 6 / 1000) (by norm_num)
  obtain ⟨ir, eir, bir⟩ := rnd_tiny (z := 1 / 100) (by norm_num)
  obtain ⟨il, eil, bil⟩ := rnd_tiny (z := 8 / 1000) (by norm_num)
  norm_num at bw bir bil
  rw [abs_le] at bw bir bil
  obtain ⟨n1, en, bn⟩ := rnd_within (z := w / 2) (c := 1 / 100) (by rw [abs_le]; constructor <;> linarith) (by norm_num)
  norm_num at bn
  rw [abs_le] at bn
  obtain ⟨p1, ep, bp⟩ := rnd_within (z := 12079596 / 2 ^ 27 + -n1) (c := 1 / 10) (by rw [abs_le]; constructor <;> norm_num <;> linarith) (by norm_num)
  rw [abs_le] at bp
  norm_num at bp
  obtain ⟨p2, ep2, bp2⟩ := rnd_within (z := p1 + 12079596 / 2 ^ 27) (c := 2 / 10) (by rw [abs_le]; constructor <;> norm_num <;> linarith) (by norm_num)
  rw [abs_le] at bp2
  norm_num at bp2
  obtain ⟨n2, en2, bn2⟩ := rnd_within (z := n1 + -(12079596 / 2 ^ 27)) (c := 1 / 10) (by rw [abs_le]; constructor <;> norm_num <;> linarith) (by norm_num)
  rw [abs_le] at bn2
  norm_num at bn2
  have hm : ∃ v, rnd (12079596 / 2 ^ 27 * 1000) = .fin v ∧ 90 ≤ v ∧ v < 91 := by
    obtain ⟨v, ev, bv⟩ := rnd_within (z := 12079596 / 2 ^ 27 * 1000) (c := 100) (by rw [abs_le]; norm_num) (by norm_num)
    rw [abs_le] at bv
    norm_num at bv
    refine ⟨v, ev, le_rnd_fix (c := 90) ?_ (by norm_num) ev, by linarith⟩
    have := round24_fix (m := 90) (e := 0) (by norm_num) (by norm_num)
    simpa using this
  obtain ⟨v, ev, v1, v2⟩ := hm
  have hi : asI32 (rnd (12079596 / 2 ^ 27 * 1000)) = 90 := by
    rw [ev]
    show toI32 v = 90
    rw [toI32_nat v (by linarith) (by norm_num; linarith), Int.floor_eq_iff]
    constructor <;> push_cast <;> linarith
  have hd : (arith exp).div (rnd (6 / 1000)) (.fin 2) = .fin n1 := by
    rw [ew, div_rnd (by norm_num), en]
  refine ⟨12079596 / 2 ^ 27, ir, il, p1, p2, n1, n2, ?_, ?_, ?_, ?_, ?_, ?_, ?_, ?_⟩
  · show Finder.new (arith exp) (rnd (9 / 100)) (rnd (6 / 1000)) (rnd (1 / 100)) (rnd (8 / 1000)) = _
    unfold Finder.new
    dsimp only
    rw [hd, e9, eir, eil]
    have h1 : (arith exp).sub (.fin (12079596 / 2 ^ 27)) (.fin n1) = .fin p1 := ep
    have h2 : (arith exp).add (.fin p1) (.fin (12079596 / 2 ^ 27)) = .fin p2 := ep2
    have h3 : (arith exp).sub (.fin n1) (.fin (12079596 / 2 ^ 27)) = .fin n2 := en2
    have h4 : (arith exp).mul (.fin (12079596 / 2 ^ 27)) (.fin 1000) = rnd (12079596 / 2 ^ 27 * 1000) := rfl
    rw [h1, h2, h3, h4, hi]
  all_goals rw [abs_le]; constructor <;> norm_num <;> linarith

/-- The remainder is that of the cell up to three micrometres, and inside a cell the quotient is its number. -/
theorem remquo_near {f : Finder} (hf : f.iSquareWidth = 90) {v : ℝ} (hv : |v| ≤ 11) : ∃ (r : ℝ) (q : Int),
    f.remquo (arith exp) (.fin v) = (.fin r, q) ∧ |r - (v - 9 / 100 * q)| ≤ 3 / 10 ^ 6 ∧ |q| ≤ 123 ∧
    (1 / 1000 ≤ r → 0 ≤ q) ∧ ∀ i : Int, 0 ≤ i → i * (9 / 100) + 1 / 1000 ≤ v → v ≤ (i + 1) * (9 / 100) - 1 / 1000 → q = i := by
  have hv' := abs_le.1 hv
  obtain ⟨t, et, bt⟩ := rnd_within (z := v * 1000) (c := 11000) (by rw [abs_le]; constructor <;> linarith) (by norm_num)
  have bt' : |t - v * 1000| ≤ 2 / 1000 := bt.trans (by norm_num)
  rw [abs_le] at bt'
  obtain ⟨n, hn⟩ : ∃ n, n = toI32 t := ⟨_, rfl⟩
  have h31 : t < 2 ^ 31 - 1 ∧ -2 ^ 31 + 1 < t := by constructor <;> norm_num <;> linarith
  -- the integer part
  have hn0 : (0 ≤ t → 0 ≤ n ∧ (n : ℝ) ≤ t ∧ t < n + 1) ∧ (t < 0 → n ≤ 0 ∧ t ≤ n ∧ (n : ℝ) < t + 1) := by
    constructor
    · intro h
      have := toI32_nat t h h31.1
      rw [hn, this]
      exact ⟨Int.floor_nonneg.mpr h, Int.floor_le t, Int.lt_floor_add_one t⟩
    · intro h
      have e : toI32 t = ⌈t⌉ := by
        unfold toI32
        rw [if_neg (by linarith)]
        have h1 : ⌈t⌉ ≤ 0 := by rw [Int.ceil_le]; push_cast; linarith
        have h2 : -2 ^ 31 ≤ ⌈t⌉ := by
          have : (-2 ^ 31 : ℝ) ≤ ⌈t⌉ := by linarith [Int.le_ceil t]
          exact_mod_cast this
        omega
      rw [hn, e]
      refine ⟨by rw [Int.ceil_le]; push_cast; linarith, Int.le_ceil t, Int.ceil_lt_add_one t⟩
  obtain ⟨q, hq⟩ : ∃ q, q = n.tdiv 90 := ⟨_, rfl⟩
  have habs : |n| ≤ 11002 := by
    have : |(n : ℝ)| ≤ 11002 := by
      rw [abs_le]
      rcases le_or_gt 0 t with h | h
      · have := hn0.1 h
        have h0 : (0 : ℝ) ≤ n := by exact_mod_cast this.1
        constructor <;> linarith
      · have := hn0.2 h
        have h0 : (n : ℝ) ≤ 0 := by exact_mod_cast this.1
        constructor <;> linarith
    exact_mod_cast this
  have habs' := abs_le.1 habs
  have hqb : |q| ≤ 123 := by
    rw [abs_le, hq]
    rcases le_or_gt 0 n with h | h
    · rw [Int.tdiv_eq_ediv_of_nonneg h]; omega
    · obtain ⟨m, rfl⟩ : ∃ m : Int, n = -m := ⟨-n, by ring⟩
      rw [Int.neg_tdiv, Int.tdiv_eq_ediv_of_nonneg (by omega)]; omega
  have hqb' := abs_le.1 hqb
  have hqr : |(q : ℝ)| ≤ 123 := by exact_mod_cast hqb
  have hqr' := abs_le.1 hqr
  -- the corner of the cell
  have e90 : rnd ((q * 90 : Int) : ℝ) = .fin ((q * 90 : Int) : ℝ) := by
    have := rnd_fix (m := q * 90) (e := 0) (by rw [abs_mul]; norm_num; omega) (by norm_num) (by
      push_cast
      rw [abs_lt]
      norm_num
      constructor <;> linarith)
    simpa using this
  obtain ⟨k, ek, bk⟩ := rnd_tiny (z := 1 / 1000) (by norm_num)
  norm_num at bk
  have e1000 : rnd (1 / 1000) = .fin k := by rw [← ek]
  have hk : |k - 1 / 1000| ≤ 11 / 10 ^ 11 := by norm_num; linarith
  obtain ⟨z, hz⟩ : ∃ z, z = ((q * 90 : Int) : ℝ) * k := ⟨_, rfl⟩
  have hzb : |z - 9 / 100 * q| ≤ 1218 / 10 ^ 9 := by
    have e : z - 9 / 100 * q = q * 90 * (k - 1 / 1000) := by rw [hz]; push_cast; ring
    rw [e, abs_mul, abs_mul]
    norm_num at hk ⊢
    nlinarith [abs_nonneg (q : ℝ), abs_nonneg (k - 1 / 1000)]
  have hzb' := abs_le.1 hzb
  norm_num at hzb'
  obtain ⟨w, ew, bw⟩ := rnd_within (z := z) (c := 11.08) (by rw [abs_le]; constructor <;> norm_num <;> linarith) (by norm_num)
  rw [abs_le] at bw
  norm_num at bw
  have hnq : (0 ≤ n → 90 * q ≤ n ∧ n < 90 * q + 90) ∧ (n ≤ 0 → n ≤ 90 * q ∧ 90 * q - 90 < n) := by
    constructor
    · intro h
      rw [hq, Int.tdiv_eq_ediv_of_nonneg h]; omega
    · intro h
      obtain ⟨m, rfl⟩ : ∃ m : Int, n = -m := ⟨-n, by ring⟩
      rw [hq, Int.neg_tdiv, Int.tdiv_eq_ediv_of_nonneg (by omega)]; omega
  have hr : |v - 9 / 100 * q| ≤ 9001 / 100000 := by
    rw [abs_le]
    rcases le_or_gt 0 t with h | h
    · obtain ⟨a, b, c⟩ := hn0.1 h
      obtain ⟨d, e⟩ := hnq.1 a
      have d' : (90 : ℝ) * q ≤ n := by exact_mod_cast d
      have e' : (n : ℝ) + 1 ≤ 90 * q + 90 := by exact_mod_cast e
      constructor <;> linarith
    · obtain ⟨a, b, c⟩ := hn0.2 h
      obtain ⟨d, e⟩ := hnq.2 a
      have d' : (n : ℝ) ≤ 90 * q := by exact_mod_cast d
      have e' : (90 : ℝ) * q - 90 + 1 ≤ n := by exact_mod_cast e
      constructor <;> linarith
  have hr' := abs_le.1 hr
  obtain ⟨r, er, br⟩ := rnd_within (z := v + -w) (c := 1 / 10) (by rw [abs_le]; constructor <;> linarith) (by norm_num)
  rw [abs_le] at br
  norm_num at br
  have hrb : |r - (v - 9 / 100 * q)| ≤ 3 / 10 ^ 6 := by
    rw [abs_le]; constructor <;> norm_num <;> linarith
  refine ⟨r, q, ?_, hrb, hqb, fun h1 => ?_, fun i hi h1 h2 => ?_⟩
  · have e1 : asI32 ((arith exp).mul (.fin v) (.fin 1000)) = n := by
      show asI32 (rnd (v * 1000)) = n
      rw [et, hn]; rfl
    unfold Finder.remquo
    dsimp only
    rw [hf, e1, ← hq]
    have e2 : (arith exp).mul (rnd ((q * 90 : Int) : ℝ)) (rnd (1 / 1000)) = .fin w := by
      rw [e90, e1000]
      show rnd (((q * 90 : Int) : ℝ) * k) = .fin w
      rw [← hz, ew]
    have e3 : (arith exp).sub (.fin v) (.fin w) = .fin r := er
    show ((arith exp).sub (.fin v) ((arith exp).mul (rnd ((q * 90 : Int) : ℝ)) (rnd (1 / 1000))), q) = _
    rw [e2, e3]
  · by_contra hneg
    have hn' : n < 0 := by
      by_contra hc
      have := hnq.1 (by omega)
      omega
    have ht : t < 0 := by
      by_contra hc
      have := (hn0.1 (by linarith)).1
      omega
    have a := (hn0.2 ht).2.1
    have d' : (n : ℝ) ≤ 90 * q := by exact_mod_cast (hnq.2 hn'.le).1
    have hrb' := abs_le.1 hrb
    norm_num at hrb'
    linarith
  · have hi' : (0 : ℝ) ≤ i := by exact_mod_cast hi
    obtain ⟨a, b, c⟩ := hn0.1 (by linarith)
    have l1 : 90 * i < n + 1 := by
      have : (90 : ℝ) * i < n + 1 := by linarith
      exact_mod_cast this
    have l2 : n < 90 * i + 90 := by
      have : (n : ℝ) < 90 * i + 90 := by linarith
      exact_mod_cast this
    have := hnq.1 a
    omega

/-- The angle in revolutions is right up to five millionths of a revolution, and full turns. -/
theorem rotation_near {θ : ℝ} (hθ : |θ| ≤ 100) : ∃ (u : ℝ) (n : ℤ), rotation (arith exp) (.fin θ) = .fin u ∧ 0 ≤ u ∧ u ≤ 1 ∧
    |θ - 2 * Real.pi * (u + n)| ≤ 3 / 100000 := by
  have p1 := Real.pi_gt_d6
  have p2 := Real.pi_lt_d6
  have hθ' := abs_le.1 hθ
  obtain ⟨P, eP, bP⟩ := rnd_within (z := 2 * Real.pi) (c := 63 / 10) (by rw [abs_le]; constructor <;> linarith) (by norm_num)
  have bP' := abs_le.1 bP
  norm_num at bP'
  have hP : 6.28 < P := by norm_num; linarith
  have hP0 : P ≠ 0 := by linarith
  obtain ⟨q, eq, bq⟩ := rnd_within (z := θ / P) (c := 16) (by
    rw [abs_div, abs_of_pos (show 0 < P by linarith), div_le_iff₀ (by linarith)]; linarith) (by norm_num)
  have bq' := abs_le.1 bq
  norm_num at bq'
  have hq16 : |θ / P| ≤ 16 := by
    rw [abs_div, abs_of_pos (show 0 < P by linarith), div_le_iff₀ (by linarith)]; linarith
  have hq16' := abs_le.1 hq16
  -- the quotient itself
  have key : |θ - 2 * Real.pi * q| ≤ 22 / 1000000 := by
    have e : θ - 2 * Real.pi * q = (P - 2 * Real.pi) * (θ / P) - 2 * Real.pi * (q - θ / P) := by field_simp; ring
    rw [e]
    refine (abs_sub _ _).trans ?_
    rw [abs_mul, abs_mul, abs_of_pos (show 0 < 2 * Real.pi by positivity)]
    have a1 : |P - 2 * Real.pi| * |θ / P| ≤ (63 / 10 / 10000000 + 1 / 10 ^ 20) * 16 :=
      mul_le_mul bP hq16 (abs_nonneg _) (by norm_num)
    have a2 : 2 * Real.pi * |q - θ / P| ≤ 2 * 3.141593 * (16 / 10000000 + 1 / 10 ^ 20) :=
      mul_le_mul (by linarith) bq (abs_nonneg _) (by norm_num)
    norm_num at a1 a2 ⊢
    linarith
  have hrot : rotation (arith exp) (.fin θ) = remEuclid (arith exp) (.fin q) 1 := by
    unfold rotation
    have : (arith exp).div (.fin θ) ((arith exp).rnd (2 * Real.pi)) = .fin q := by
      show (arith exp).div (.fin θ) (rnd (2 * Real.pi)) = .fin q
      rw [eP, div_rnd hP0, eq]
    rw [this]
  rw [hrot]
  unfold remEuclid
  dsimp only
  rw [div_one, one_mul]
  have ht : (0 ≤ q → 0 ≤ q - trunc q ∧ q - trunc q < 1) ∧ (q < 0 → -1 < q - trunc q ∧ q - trunc q ≤ 0) := by
    unfold trunc
    constructor
    · intro h
      rw [if_pos h]
      have h1 := Int.floor_le q
      have h2 := Int.lt_floor_add_one q
      constructor <;> linarith
    · intro h
      rw [if_neg (by linarith)]
      have h1 := Int.le_ceil q
      have h2 := Int.ceil_lt_add_one q
      constructor <;> linarith
  split_ifs with h
  · have hq : q < 0 := by
      by_contra hc
      linarith [(ht.1 (by linarith)).1]
    obtain ⟨t1, t2⟩ := ht.2 hq
    obtain ⟨u, eu, bu⟩ := rnd_within (z := q - trunc q + 1) (c := 1) (by rw [abs_le]; constructor <;> linarith) (by norm_num)
    have one' : round24 1 = 1 := by
      have := round24_fix (m := 1) (e := 0) (by norm_num) (by norm_num)
      simpa using this
    refine ⟨u, trunc q - 1, eu, ?_, rnd_le_fix one' (by linarith) eu, ?_⟩
    · rw [(rnd_fin eu).1]; exact round24_nonneg (by linarith)
    · have bu' := abs_le.1 bu
      norm_num at bu'
      have e : θ - 2 * Real.pi * (u + ((trunc q - 1 : ℤ) : ℝ)) = (θ - 2 * Real.pi * q) - 2 * Real.pi * (u - (q - trunc q + 1)) := by
        push_cast; ring
      rw [e]
      refine (abs_sub _ _).trans ?_
      rw [abs_mul, abs_of_pos (show 0 < 2 * Real.pi by positivity)]
      have a2 : 2 * Real.pi * |u - (q - trunc q + 1)| ≤ 2 * 3.141593 * (1 / 10000000 + 1 / 10 ^ 20) :=
        mul_le_mul (by linarith) bu (abs_nonneg _) (by norm_num)
      norm_num at a2 key ⊢
      linarith
  · have hr : 0 ≤ q - trunc q := by linarith
    refine ⟨q - trunc q, trunc q, rfl, hr, ?_, ?_⟩
    · rcases le_or_gt 0 q with h0 | h0
      · exact (ht.1 h0).2.le
      · linarith [(ht.2 h0).2]
    · have e : θ - 2 * Real.pi * (q - trunc q + trunc q) = θ - 2 * Real.pi * q := by ring
      rw [e]
      norm_num at key ⊢
      linarith

end Verif.Proof
