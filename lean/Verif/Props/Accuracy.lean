import Verif.Props.Binary32
import Mathlib.Analysis.Complex.ExponentialBounds
/-!
# C75: the belief in single precision

How far the belief computed with `f32` arithmetic is from Bayes' rule.
-/
namespace Verif.Props
open Verif Verif.Spec Verif.Search Verif.Detect Verif.Binary32

/-- An `exp` with relative error `ε` that overflows only for large results. -/
structure AccurateExp (exp : F → F) (ε : ℝ) : Prop extends GoodExp exp where
  acc : ∀ x, 0 ≤ x → (∃ y, exp (.fin x) = .fin y ∧ |y - Real.exp x| ≤ ε * Real.exp x) ∨
    (exp (.fin x) = .pinf ∧ 2 ^ 126 ≤ Real.exp x)

/-! ## Rounding errors -/

theorem fl {x : ℝ} (hx : |x| ≤ 2 ^ 120) : ∃ y, rnd x = .fin y ∧ |y - x| ≤ |x| / 2 ^ 24 + 1 / 2 ^ 150 := by
  have h := round24_rel x
  have h0 := abs_nonneg x
  have h2 : |round24 x - x| ≤ |x| / 2 ^ 24 + 1 / 2 ^ 150 := by
    refine h.trans (max_le ?_ ?_)
    · have : (0:ℝ) ≤ 1 / 2 ^ 150 := by positivity
      linarith
    · have : (0:ℝ) ≤ |x| / 2 ^ 24 := by positivity
      linarith
  refine ⟨_, rnd_of_lt ?_, h2⟩
  have h3 := abs_sub_abs_le_abs_sub (round24 x) x
  have h4 : |x| / 2 ^ 24 ≤ |x| := div_le_self h0 (by norm_num)
  calc |round24 x| ≤ |x| + (|x| / 2 ^ 24 + 1 / 2 ^ 150) := by linarith
    _ ≤ 2 ^ 120 + (2 ^ 120 + 1 / 2 ^ 150) := by linarith
    _ < 2 ^ 128 := by norm_num

theorem score_err (exp : F → F) {a m s K : ℝ} (hK : K ≤ 256) (hs : 1 / 2 ^ 60 ≤ s) (hs' : s ≤ 2 ^ 60) (h : |a - m| ≤ K * s) :
    ∃ r, score (arith exp) (.fin a) (.fin m) (.fin s) = .fin r ∧
      |r - -((a - m) / s) ^ 2 / 2| ≤ (3 * K ^ 2 + 1 / 4) / 2 ^ 24 := by
  have hs0 : 0 < s := lt_of_lt_of_le (by positivity) hs
  have hK0 : 0 ≤ K := by
    have := (abs_nonneg _).trans h
    by_contra hc
    push Not at hc
    nlinarith
  obtain ⟨T, hT⟩ : ∃ T, T = (a - m) / s := ⟨_, rfl⟩
  have hTK : |T| ≤ K := by rw [hT, abs_div, abs_of_pos hs0, div_le_iff₀ hs0]; exact h
  have hD : |a - m| ≤ 2 ^ 68 := by
    refine h.trans ?_
    calc K * s ≤ 256 * 2 ^ 60 := mul_le_mul hK hs' hs0.le (by norm_num)
      _ = 2 ^ 68 := by norm_num
  -- difference
  obtain ⟨d, hd, ed⟩ := fl (x := a + -m) (by rw [← sub_eq_add_neg]; refine hD.trans (by norm_num))
  rw [← sub_eq_add_neg] at ed
  -- quotient
  have q1 : |d / s - T| ≤ K / 2 ^ 24 + 1 / 2 ^ 90 := by
    rw [hT, ← sub_div, abs_div, abs_of_pos hs0, div_le_iff₀ hs0]
    have e1 : |a - m| / 2 ^ 24 ≤ K * s / 2 ^ 24 := div_le_div_of_nonneg_right h (by norm_num)
    have e2 : (1:ℝ) / 2 ^ 150 ≤ 1 / 2 ^ 90 * s := by
      calc (1:ℝ) / 2 ^ 150 = 1 / 2 ^ 90 * (1 / 2 ^ 60) := by norm_num
        _ ≤ _ := mul_le_mul_of_nonneg_left hs (by positivity)
    calc |d - (a - m)| ≤ K * s / 2 ^ 24 + 1 / 2 ^ 90 * s := by linarith
      _ = _ := by ring
  have q2 : |d / s| ≤ K + K / 2 ^ 24 + 1 / 2 ^ 90 := by
    have := abs_sub_abs_le_abs_sub (d / s) T
    linarith
  obtain ⟨t, ht, et⟩ := fl (x := d / s) (by refine q2.trans ?_; norm_num; linarith)
  have t1 : |t - T| ≤ 2 * K / 2 ^ 24 + 1 / 2 ^ 39 := by
    have := abs_sub_le t (d / s) T
    have e1 : |d / s| / 2 ^ 24 ≤ (K + K / 2 ^ 24 + 1 / 2 ^ 90) / 2 ^ 24 := div_le_div_of_nonneg_right q2 (by norm_num)
    norm_num at this e1 q1 et ⊢
    linarith
  have t2 : |t + T| ≤ 2 * K + (2 * K / 2 ^ 24 + 1 / 2 ^ 39) := by
    have : t + T = (t - T) + 2 * T := by ring
    rw [this]
    refine (abs_add_le _ _).trans ?_
    rw [abs_mul, abs_of_pos (by norm_num : (0:ℝ) < 2)]
    linarith
  -- square
  have hKK : K ^ 2 ≤ 65536 := by nlinarith
  have s1 : |t ^ 2 - T ^ 2| ≤ (4 * K ^ 2 + 1 / 16) / 2 ^ 24 := by
    have : t ^ 2 - T ^ 2 = (t - T) * (t + T) := by ring
    rw [this, abs_mul]
    refine (mul_le_mul t1 t2 (abs_nonneg _) (by positivity)).trans ?_
    norm_num
    nlinarith
  have s2 : |t ^ 2| ≤ K ^ 2 + (4 * K ^ 2 + 1 / 16) / 2 ^ 24 := by
    have h1 := abs_sub_abs_le_abs_sub (t ^ 2) (T ^ 2)
    have h2 : |T ^ 2| ≤ K ^ 2 := by rw [abs_pow]; exact pow_le_pow_left₀ (abs_nonneg _) hTK 2
    linarith
  obtain ⟨q, hq, eq⟩ := fl (x := -t * t) (by
    rw [show -t * t = -(t ^ 2) by ring, abs_neg]; refine s2.trans ?_; norm_num; linarith)
  rw [show -t * t = -(t ^ 2) by ring, abs_neg] at eq
  have q3 : |q - -(T ^ 2)| ≤ (5 * K ^ 2 + 1 / 8) / 2 ^ 24 := by
    have h1 := abs_sub_le q (-(t ^ 2)) (-(T ^ 2))
    have h2 : |-(t ^ 2) - -(T ^ 2)| = |t ^ 2 - T ^ 2| := by rw [← abs_neg]; congr 1; ring
    have e1 : |t ^ 2| / 2 ^ 24 ≤ (K ^ 2 + (4 * K ^ 2 + 1 / 16) / 2 ^ 24) / 2 ^ 24 := div_le_div_of_nonneg_right s2 (by norm_num)
    rw [h2] at h1
    norm_num at h1 e1 s1 eq ⊢
    linarith
  have q4 : |q| ≤ K ^ 2 + (5 * K ^ 2 + 1 / 8) / 2 ^ 24 := by
    have h1 := abs_sub_abs_le_abs_sub q (-(T ^ 2))
    have h2 : |-(T ^ 2)| ≤ K ^ 2 := by rw [abs_neg, abs_pow]; exact pow_le_pow_left₀ (abs_nonneg _) hTK 2
    linarith
  have q5 : |q / 2| = |q| / 2 := by rw [abs_div, abs_of_pos (by norm_num : (0:ℝ) < 2)]
  obtain ⟨r, hr, er⟩ := fl (x := q / 2) (by rw [q5]; norm_num at q4 ⊢; linarith)
  refine ⟨r, ?_, ?_⟩
  · unfold score
    have e1 : (arith exp).sub (.fin a) (.fin m) = .fin d := hd
    have e2 : (arith exp).div (.fin d) (.fin s) = .fin t := by
      simp only [Arith.div, if_neg hs0.ne']; exact ht
    have e3 : (arith exp).mul (F.fin t).neg (.fin t) = .fin q := hq
    have e4 : (arith exp).div (.fin q) (.fin 2) = .fin r := by
      simp only [Arith.div, if_neg (two_ne_zero (α := ℝ))]; exact hr
    rw [e1, e2]
    dsimp only
    rw [e3, e4]
  · rw [← hT]
    have h1 := abs_sub_le r (q / 2) (-T ^ 2 / 2)
    have h2 : |q / 2 - -T ^ 2 / 2| = |q - -(T ^ 2)| / 2 := by
      rw [← sub_div, abs_div, abs_of_pos (by norm_num : (0:ℝ) < 2)]
    rw [h2] at h1
    rw [q5] at er
    norm_num at h1 er q3 q4 ⊢
    linarith

/-! ## Products and quotients -/

/-- `a` and `b` differ by a factor of at most `l`. -/
def Near (l a b : ℝ) : Prop := a ≤ l * b ∧ b ≤ l * a

theorem Near.mul {l k a b c d : ℝ} (ha : 0 ≤ a) (hb : 0 ≤ b) (hc : 0 ≤ c) (hd : 0 ≤ d) (hl : 0 ≤ l) (hk : 0 ≤ k) (h1 : Near l a b)
    (h2 : Near k c d) : Near (l * k) (a * c) (b * d) := by
  constructor
  · calc a * c ≤ (l * b) * (k * d) := mul_le_mul h1.1 h2.1 hc (by positivity)
      _ = _ := by ring
  · calc b * d ≤ (l * a) * (k * c) := mul_le_mul h1.2 h2.2 hd (by positivity)
      _ = _ := by ring

theorem Near.trans {l k a b c : ℝ} (hl : 0 ≤ l) (hk : 0 ≤ k) (h1 : Near l a b) (h2 : Near k b c) : Near (l * k) a c := by
  constructor
  · calc a ≤ l * b := h1.1
      _ ≤ l * (k * c) := mul_le_mul_of_nonneg_left h2.1 hl
      _ = _ := by ring
  · calc c ≤ k * b := h2.2
      _ ≤ k * (l * a) := mul_le_mul_of_nonneg_left h1.2 hk
      _ = _ := by ring

/-- Relative error `e`. -/
theorem near_of_err {a b e : ℝ} (hb : 0 ≤ b) (he : 0 ≤ e) (he1 : e < 1) (h : |a - b| ≤ e * b) : Near (1 / (1 - e)) a b := by
  rw [abs_le] at h
  have h1 : 0 < 1 - e := by linarith
  constructor
  · rw [div_mul_eq_mul_div, le_div_iff₀ h1]; nlinarith
  · rw [div_mul_eq_mul_div, le_div_iff₀ h1]; nlinarith

/-- Half a unit in the last place of 24 digits. -/
noncomputable def nu : ℝ := 1 / (1 - 1 / 2 ^ 24)

/-- Rounding a number that is neither too small nor too large. -/
theorem rnd_near {x : ℝ} (h1 : 1 / 2 ^ 100 ≤ x) (h2 : x ≤ 2 ^ 120) : ∃ y, rnd x = .fin y ∧ Near nu y x ∧ |y - x| ≤ x / 2 ^ 24 := by
  have hx : 0 < x := lt_of_lt_of_le (by positivity) h1
  have h := round24_rel x
  rw [abs_of_pos hx, max_eq_left (by
    rw [le_div_iff₀ (by positivity)]; refine le_trans ?_ h1; norm_num)] at h
  obtain ⟨y, hy, -⟩ := fl (x := x) (by rwa [abs_of_pos hx])
  obtain ⟨rfl, -⟩ := rnd_fin hy
  exact ⟨_, hy, near_of_err hx.le (by norm_num) (by norm_num) (by rw [one_div, inv_mul_eq_div]; exact h), h⟩

theorem quotient_near {x y X Y l : ℝ} (hx : 0 < x) (hy : 0 < y) (hX : 0 < X) (hY : 0 < Y) (hl : 1 ≤ l)
    (h : Near l (y * X) (x * Y)) : |x / (x + y) - X / (X + Y)| ≤ (l - 1) / 4 := by
  have e : x / (x + y) - X / (X + Y) = (x * Y - y * X) / ((x + y) * (X + Y)) := by field_simp; ring
  have hp : 0 < (x + y) * (X + Y) := by positivity
  rw [e, abs_div, abs_of_pos hp, div_le_iff₀ hp]
  have key : ∀ a b : ℝ, 0 < a → a ≤ b → b ≤ l * a → a * b = (x * X) * (y * Y) → a + b + (x * X + y * Y) = (x + y) * (X + Y) →
      b - a ≤ (l - 1) / 4 * ((x + y) * (X + Y)) := by
    intro a b ha hab hla hm hs
    have h1 : 2 * a ≤ x * X + y * Y := by
      have hP : 0 < x * X := by positivity
      have hQ : 0 < y * Y := by positivity
      generalize x * X = P at hm hP ⊢
      generalize y * Y = Q at hm hQ ⊢
      by_contra hc
      push Not at hc
      nlinarith [sq_nonneg (P - Q)]
    rw [← hs]
    nlinarith
  have hA : 0 < y * X := by positivity
  have hB : 0 < x * Y := by positivity
  rcases le_total (y * X) (x * Y) with hle | hle
  · rw [abs_of_nonneg (by linarith)]
    exact key _ _ hA hle h.2 (by ring) (by ring)
  · rw [abs_of_nonpos (by linarith), neg_sub]
    exact key _ _ hB hle h.1 (by ring) (by ring)

theorem isF32_le {y : ℝ} (h : IsF32 y) : y ≤ 2 ^ 128 - 2 ^ 104 := by
  obtain ⟨m, e, hm, -, he, rfl⟩ := h
  have h1 : (m : ℝ) ≤ 2 ^ 24 - 1 := by
    have : m ≤ 2 ^ 24 - 1 := by have := (abs_lt.1 hm).2; omega
    exact_mod_cast this
  have h2 : (2:ℝ) ^ e ≤ 2 ^ 104 := by
    have := zpow_le_zpow_right₀ (by norm_num : (1:ℝ) ≤ 2) he
    exact_mod_cast this
  have := pow_pos' e
  calc (m:ℝ) * 2 ^ e ≤ (2 ^ 24 - 1) * 2 ^ e := mul_le_mul_of_nonneg_right h1 this.le
    _ ≤ (2 ^ 24 - 1) * 2 ^ 104 := mul_le_mul_of_nonneg_left h2 (by norm_num)
    _ = _ := by norm_num

/-- The last two operations. -/
theorem belief_err (exp : F → F) {x y X Y l : ℝ} (hx : 1 / 2 ^ 30 ≤ x) (hy : 1 / 2 ^ 30 ≤ y) (hx' : IsF32 x) (hy' : IsF32 y)
    (hmin : x ≤ 1 ∨ y ≤ 1) (hX : 0 < X) (hY : 0 < Y) (hl : 1 ≤ l) (h : Near l (y * X) (x * Y)) :
    ∃ q, unwrap (probability ((arith exp).div (.fin x) ((arith exp).add (.fin x) (.fin y)))) = .ok (.fin q) ∧
      |q - X / (X + Y)| ≤ (l - 1) / 4 + 3 / 2 ^ 24 := by
  have hx0 : 0 < x := lt_of_lt_of_le (by positivity) hx
  have hy0 : 0 < y := lt_of_lt_of_le (by positivity) hy
  have hS : 0 < x + y := by positivity
  have hlt : x + y < 2 ^ 128 - 2 ^ 103 := by
    have h1 := isF32_le hx'
    have h2 := isF32_le hy'
    have h3 : (2:ℝ) ^ 128 - 2 ^ 104 + 1 < 2 ^ 128 - 2 ^ 103 := by norm_num
    rcases hmin with h | h <;> linarith
  have hfin : rnd (x + y) = .fin (round24 (x + y)) := by
    have h1 := (C74_nearest (x + y)).2.2.1.not.2 (not_le.2 hlt)
    have h2 := (C74_nearest (x + y)).2.2.2.1.not.2 (not_le.2 (lt_of_lt_of_le (by norm_num) hS.le))
    unfold rnd at h1 h2 ⊢
    split_ifs at h1 h2 ⊢ with a b
    · exact absurd rfl h1
    · exact absurd rfl h2
    · rfl
  obtain ⟨S, hSe⟩ : ∃ S, S = round24 (x + y) := ⟨_, rfl⟩
  have herr : |S - (x + y)| ≤ (x + y) / 2 ^ 24 := by
    have := round24_rel (x + y)
    rw [abs_of_pos hS, max_eq_left (by
      rw [le_div_iff₀ (by positivity)]; refine le_trans ?_ (hx.trans (by linarith)); norm_num)] at this
    rwa [hSe]
  have hxS : x ≤ S := by
    have h1 := round24_mono (x := x) (y := x + y) (by linarith)
    obtain ⟨h2, -⟩ := rnd_fin (rnd_isF32 hx')
    rw [← h2, ← hSe] at h1
    exact h1
  have hS0 : 0 < S := hx0.trans_le hxS
  have hq0 : 0 ≤ x / S := by positivity
  have hq1 : x / S ≤ 1 := (div_le_one hS0).2 hxS
  obtain ⟨q, hq, eq⟩ := fl (x := x / S) (by rw [abs_of_nonneg hq0]; exact hq1.trans (by norm_num))
  have z0 : rnd 0 = .fin 0 := rnd_isF32 ⟨0, 0, by norm_num, by norm_num, by norm_num, by norm_num⟩
  have z1 : rnd 1 = .fin 1 := rnd_isF32 ⟨1, 0, by norm_num, by norm_num, by norm_num, by norm_num⟩
  have b0 : 0 ≤ q := by have := rnd_mono hq0; rw [z0, hq] at this; exact this
  have b1 : q ≤ 1 := by have := rnd_mono hq1; rw [z1, hq] at this; exact this
  refine ⟨q, ?_, ?_⟩
  · have e1 : (arith exp).add (.fin x) (.fin y) = .fin S := by rw [hSe]; exact hfin
    have e2 : (arith exp).div (.fin x) (.fin S) = .fin q := by
      simp only [Arith.div, if_neg hS0.ne']; exact hq
    rw [e1, e2]
    unfold probability
    rw [if_neg (by simp only [F.isNan, F.lt, not_or, not_lt, not_false_eq_true, true_and]; exact ⟨b0, b1⟩)]
    rfl
  · have h1 := quotient_near hx0 hy0 hX hY hl h
    have h2 : |x / S - x / (x + y)| ≤ 1 / 2 ^ 24 := by
      have e : x / S - x / (x + y) = x / S * ((x + y - S) / (x + y)) := by field_simp
      rw [e, abs_mul, abs_of_nonneg hq0, abs_div, abs_of_pos hS, abs_sub_comm]
      have : |S - (x + y)| / (x + y) ≤ 1 / 2 ^ 24 := by rw [div_le_iff₀ hS]; linarith
      calc x / S * (|S - (x + y)| / (x + y)) ≤ 1 * (1 / 2 ^ 24) := mul_le_mul hq1 this (by positivity) (by norm_num)
        _ = _ := one_mul _
    have h3 : |q - x / S| ≤ 3 / 2 / 2 ^ 24 := by
      rw [abs_of_nonneg hq0] at eq
      refine eq.trans ?_
      have : x / S / 2 ^ 24 ≤ 1 / 2 ^ 24 := div_le_div_of_nonneg_right hq1 (by norm_num)
      norm_num at this ⊢
      linarith
    have h4 := abs_sub_le q (x / S) (X / (X + Y))
    have h5 := abs_sub_le (x / S) (x / (x + y)) (X / (X + Y))
    norm_num at h1 h2 h3 h4 h5 ⊢
    linarith

/-- Rounding a number that is not too small. -/
theorem rnd_near' {x y : ℝ} (h1 : 1 / 2 ^ 100 ≤ x) (h2 : rnd x = .fin y) : Near nu y x := by
  have hx : 0 < x := lt_of_lt_of_le (by positivity) h1
  have h := round24_rel x
  rw [abs_of_pos hx, max_eq_left (by
    rw [le_div_iff₀ (by positivity)]; refine le_trans ?_ h1; norm_num)] at h
  obtain ⟨rfl, -⟩ := rnd_fin h2
  exact near_of_err hx.le (by norm_num) (by norm_num) (by rw [one_div, inv_mul_eq_div]; exact h)

theorem nu_bounds : 1 ≤ nu ∧ nu ≤ 1 + 2 / 2 ^ 24 := by
  unfold nu
  constructor <;> norm_num

/-- A likelihood times a belief. -/
theorem weigh (exp : F → F) {ε : ℝ} (hexp : AccurateExp exp ε) (hε : 0 ≤ ε) (hε1 : ε ≤ 1 / 8) {d w : ℝ} (hd : 0 ≤ d)
    (hw : 1 / 2 ^ 26 ≤ w) (hw1 : w ≤ 1) :
    ((arith exp).mul (exp (.fin d)) (.fin w) = .pinf ∧ 2 ^ 96 ≤ Real.exp d * w) ∨
    ∃ z, (arith exp).mul (exp (.fin d)) (.fin w) = .fin z ∧ IsF32 z ∧ 1 / 2 ^ 30 ≤ z ∧
      Near (nu * (1 / (1 - ε))) z (Real.exp d * w) := by
  have hw0 : 0 < w := lt_of_lt_of_le (by positivity) hw
  rcases hexp.acc d hd with ⟨y, hy, ey⟩ | ⟨hy, hbig⟩
  · have he1 : 1 ≤ Real.exp d := Real.one_le_exp hd
    have hyn := near_of_err (Real.exp_pos d).le hε (by linarith) ey
    rw [abs_le] at ey
    have hy78 : 7 / 8 ≤ y := by nlinarith
    have hyw : 1 / 2 ^ 30 ≤ y * w := by
      calc (1:ℝ) / 2 ^ 30 ≤ 7 / 8 * (1 / 2 ^ 26) := by norm_num
        _ ≤ _ := mul_le_mul hy78 hw (by positivity) (by linarith)
    have hm : (arith exp).mul (exp (.fin d)) (.fin w) = rnd (y * w) := by rw [hy]; rfl
    rw [hm]
    have hN := C74_nearest (y * w)
    cases hr : rnd (y * w) with
    | nan => exact absurd hr hN.2.2.2.2
    | ninf =>
      have := hN.2.2.2.1.1 hr
      exfalso
      have h3 : (0:ℝ) < 1 / 2 ^ 30 := by positivity
      have h4 : -((2:ℝ) ^ 128 - 2 ^ 103) < 0 := by norm_num
      linarith
    | pinf =>
      left
      refine ⟨rfl, ?_⟩
      have h1 := hN.2.2.1.1 hr
      have h2 : y * w ≤ 2 * (Real.exp d * w) := by nlinarith
      have h3 : (2:ℝ) * 2 ^ 96 ≤ 2 ^ 128 - 2 ^ 103 := by norm_num
      linarith
    | fin z =>
      right
      refine ⟨z, rfl, (hN.1 z hr).1, ?_, ?_⟩
      · have h1 := rnd_mono hyw
        rw [rnd_isF32 (y := 1 / 2 ^ 30) ⟨1, -30, by norm_num, by norm_num, by norm_num, by norm_num⟩, hr] at h1
        exact h1
      · refine Near.trans (by linarith [nu_bounds.1]) (by rw [one_div_nonneg]; linarith) (rnd_near' (le_trans (by norm_num) hyw) hr) ?_
        have := hyn.mul (by linarith) (Real.exp_pos d).le hw0.le hw0.le (by rw [one_div_nonneg]; linarith) zero_le_one
          (⟨by rw [one_mul], by rw [one_mul]⟩ : Near 1 w w)
        rwa [mul_one] at this
  · left
    rw [hy]
    refine ⟨by simp [Arith.mul, F.infOf, hw0], ?_⟩
    calc (2:ℝ) ^ 96 ≤ 2 ^ 126 * (1 / 2 ^ 26) := by norm_num
      _ ≤ _ := mul_le_mul hbig hw (by positivity) (Real.exp_pos d).le

theorem near_exp {a b D : ℝ} (h : |a - b| ≤ D) : Near (Real.exp D) (Real.exp a) (Real.exp b) := by
  rw [abs_le] at h
  constructor
  · rw [← Real.exp_add]; exact Real.exp_le_exp.2 (by linarith)
  · rw [← Real.exp_add]; exact Real.exp_le_exp.2 (by linarith)

/-- The factor of all errors together. -/
theorem factor {ε D : ℝ} (hε : 0 ≤ ε) (hε1 : ε ≤ 1 / 8) (hD : 0 ≤ D) (hD1 : D ≤ 1 / 8) :
    1 ≤ nu * (1 / (1 - ε)) * nu * Real.exp D ∧
    (nu * (1 / (1 - ε)) * nu * Real.exp D - 1) / 4 + 3 / 2 ^ 24 ≤ D / 2 + ε / 2 + 5 / 2 ^ 24 ∧
    nu * (1 / (1 - ε)) * nu * Real.exp D ≤ 2 := by
  have n1 := nu_bounds.1
  have n2 := nu_bounds.2
  have e1 : 1 ≤ 1 / (1 - ε) := by rw [le_div_iff₀ (by linarith)]; linarith
  have e2 : 1 / (1 - ε) ≤ 1 + 8 / 7 * ε := by rw [div_le_iff₀ (by linarith)]; nlinarith
  have d1 : 1 ≤ Real.exp D := Real.one_le_exp hD
  have d2 : Real.exp D ≤ 1 + 8 / 7 * D := by
    have h1 : Real.exp D ≤ 1 / (1 - D) := by
      have := Real.add_one_le_exp (-D)
      rw [Real.exp_neg] at this
      rw [le_div_iff₀ (by linarith)]
      have hp := Real.exp_pos D
      have : (1 - D) * Real.exp D ≤ (Real.exp D)⁻¹ * Real.exp D := mul_le_mul_of_nonneg_right (by linarith) hp.le
      rw [inv_mul_cancel₀ hp.ne'] at this
      linarith
    refine h1.trans ?_
    rw [div_le_iff₀ (by linarith)]; nlinarith
  have m1 : 1 ≤ nu * nu := by nlinarith
  have m2 : nu * nu ≤ 1 + 5 / 2 ^ 24 := by
    calc nu * nu ≤ (1 + 2 / 2 ^ 24) * (1 + 2 / 2 ^ 24) := mul_le_mul n2 n2 (by linarith) (by norm_num)
      _ ≤ _ := by norm_num
  have f1 : 1 ≤ 1 / (1 - ε) * Real.exp D := by nlinarith
  have f2 : 1 / (1 - ε) * Real.exp D ≤ 1 + 8 / 7 * ε + 4 / 3 * D := by
    calc 1 / (1 - ε) * Real.exp D ≤ (1 + 8 / 7 * ε) * (1 + 8 / 7 * D) := mul_le_mul e2 d2 (by linarith) (by positivity)
      _ ≤ _ := by nlinarith
  have e : nu * (1 / (1 - ε)) * nu * Real.exp D = (nu * nu) * (1 / (1 - ε) * Real.exp D) := by ring
  rw [e]
  have g2 : (nu * nu) * (1 / (1 - ε) * Real.exp D) ≤ (1 + 5 / 2 ^ 24) * (1 + 8 / 7 * ε + 4 / 3 * D) :=
    mul_le_mul m2 f2 (by linarith) (by norm_num)
  refine ⟨by nlinarith, ?_, ?_⟩
  · norm_num at g2 ⊢
    linarith
  · norm_num at g2 ⊢
    linarith

open Classical in
/-- The value of the last two operations, and the cases of overflow. -/
theorem posterior_err (exp : F → F) {ε D : ℝ} (hexp : AccurateExp exp ε) (hε : 0 ≤ ε) (hε1 : ε ≤ 1 / 8) (hD : 0 ≤ D) (hD1 : D ≤ 1 / 8)
    {p u v U V : ℝ} (hp : IsF32 p) (hp0 : 1 / 2 ^ 24 ≤ p) (hp1 : p ≤ 1 - 1 / 2 ^ 24) (hu : |u| ≤ 2 ^ 100) (hv : |v| ≤ 2 ^ 100)
    (hd : |(v - u) - (V - U)| + |v - u| / 2 ^ 24 + 1 / 2 ^ 150 ≤ D) :
    ∃ q, posterior (arith exp) (.fin p) (.fin u) (.fin v) = .ok (.fin q) ∧
      |q - bayes p (Real.exp U) (Real.exp V)| ≤ D / 2 + ε / 2 + 5 / 2 ^ 24 := by
  have z0 : rnd 0 = .fin 0 := rnd_isF32 ⟨0, 0, by norm_num, by norm_num, by norm_num, by norm_num⟩
  have z1 : rnd 1 = .fin 1 := rnd_isF32 ⟨1, 0, by norm_num, by norm_num, by norm_num, by norm_num⟩
  obtain ⟨f1, f2, f3⟩ := factor hε hε1 hD hD1
  obtain ⟨l, hl⟩ : ∃ l, l = nu * (1 / (1 - ε)) * nu * Real.exp D := ⟨_, rfl⟩
  rw [← hl] at f1 f2 f3
  have n1 := nu_bounds.1
  have n2 := nu_bounds.2
  have c1 : 1 ≤ 1 / (1 - ε) := by rw [le_div_iff₀ (by linarith)]; linarith
  have hp00 : 0 < p := lt_of_lt_of_le (by positivity) hp0
  have hq0 : 1 / 2 ^ 24 ≤ 1 - p := by linarith
  have hq00 : 0 < 1 - p := lt_of_lt_of_le (by positivity) hq0
  -- the complement
  obtain ⟨r, hr, hrn, -⟩ := rnd_near (x := 1 + -p) (by rw [← sub_eq_add_neg]; refine le_trans ?_ hq0; norm_num) (by
    rw [← sub_eq_add_neg]; refine le_trans (by linarith : 1 - p ≤ 1) (by norm_num))
  have hrF : IsF32 r := ((C74_nearest _).1 r hr).1
  have hr1 : r ≤ 1 := by
    have := rnd_mono (x := 1 + -p) (y := 1) (by linarith)
    rw [z1, hr] at this; exact this
  have hr0 : 1 / 2 ^ 24 ≤ r := by
    have := rnd_mono (x := 1 / 2 ^ 24) (y := 1 + -p) (by linarith)
    rw [rnd_isF32 (y := 1 / 2 ^ 24) ⟨1, -24, by norm_num, by norm_num, by norm_num, by norm_num⟩, hr] at this; exact this
  have hr00 : 0 < r := lt_of_lt_of_le (by positivity) hr0
  have hrev : reverse (arith exp) (.fin p) = .fin r := hr
  rw [← sub_eq_add_neg] at hrn
  have hU := Real.exp_pos U
  have hV := Real.exp_pos V
  have pX : 0 < p * Real.exp U := by positivity
  have pY : 0 < (1 - p) * Real.exp V := by positivity
  have selfmul : ∀ w : ℝ, IsF32 w → (arith exp).mul (exp (.fin 0)) (.fin w) = .fin w := by
    intro w hw
    rw [hexp.zero]
    show rnd (1 * w) = _
    rw [one_mul]; exact rnd_isF32 hw
  have selfsub : ∀ w : ℝ, (arith exp).sub (.fin w) (.fin w) = .fin 0 := by
    intro w
    show rnd (w + -w) = _
    rw [add_neg_cancel]; exact z0
  have lim : ∀ w : ℝ, 2 ^ 90 ≤ w → 1 / w ≤ D / 2 + ε / 2 + 5 / 2 ^ 24 := by
    intro w hw
    have : 1 / w ≤ 1 / 2 ^ 90 := one_div_le_one_div_of_le (by positivity) hw
    have h2 : (1:ℝ) / 2 ^ 90 ≤ 5 / 2 ^ 24 := by norm_num
    linarith
  have hdU : |u - v| ≤ 2 ^ 120 := by
    refine (abs_sub _ _).trans ?_
    norm_num at hu hv ⊢; linarith
  by_cases hlt : u < v
  · obtain ⟨d, hdr, ed⟩ := fl (x := v + -u) (by rw [← sub_eq_add_neg, abs_sub_comm]; exact hdU)
    have hd0 : 0 ≤ d := by
      have := rnd_mono (x := 0) (y := v + -u) (by linarith)
      rw [z0, hdr] at this; exact this
    rw [← sub_eq_add_neg] at ed
    have hdD : |d - (V - U)| ≤ D := by
      have := abs_sub_le d (v - u) (V - U)
      linarith
    have hsub : (arith exp).sub (.fin v) (.fin u) = .fin d := hdr
    have hpost : posterior (arith exp) (.fin p) (.fin u) (.fin v) =
        if ((arith exp).mul (exp (.fin d)) (.fin r)).isInfinite then .ok (.fin 0)
        else unwrap (probability ((arith exp).div (.fin p) ((arith exp).add (.fin p) ((arith exp).mul (exp (.fin d)) (.fin r))))) := by
      unfold posterior
      rw [if_neg (by simp [F.isNan]), if_neg (by simp [F.isNan])]
      have hm : (if (F.fin u).lt (.fin v) then F.fin u else .fin v) = .fin u := if_pos hlt
      dsimp only
      rw [hm, selfsub, hsub, hrev, show (arith exp).exp = exp from rfl, selfmul p hp, if_neg (by simp [F.isInfinite])]
    rw [hpost]
    have hne := near_exp hdD
    rcases weigh exp hexp hε hε1 hd0 (le_trans (by norm_num) hr0) hr1 with ⟨hi, hbig⟩ | ⟨z, hz, hzF, hz0, hzn⟩
    · rw [hi, if_pos (by simp [F.isInfinite])]
      refine ⟨0, rfl, ?_⟩
      have hb : bayes p (Real.exp U) (Real.exp V) ≤ 1 / (Real.exp (V - U) * (1 - p)) := by
        unfold bayes
        rw [Real.exp_sub]
        rw [div_le_div_iff₀ (by positivity) (by positivity)]
        have e : p * Real.exp U * (Real.exp V / Real.exp U * (1 - p)) = p * ((1 - p) * Real.exp V) := by field_simp
        rw [e]
        nlinarith
      have hb0 : 0 ≤ bayes p (Real.exp U) (Real.exp V) := by unfold bayes; positivity
      rw [zero_sub, abs_neg, abs_of_nonneg hb0]
      refine hb.trans (lim _ ?_)
      have k1 : Real.exp d * r ≤ (Real.exp D * nu) * (Real.exp (V - U) * (1 - p)) :=
        (hne.mul (Real.exp_pos _).le (Real.exp_pos _).le hr00.le hq00.le (Real.exp_pos _).le (by linarith) hrn).1
      have k2 : Real.exp D * nu ≤ 2 := by
        refine le_trans ?_ f3
        rw [hl]
        have : 0 < Real.exp D * nu := mul_pos (Real.exp_pos _) (by linarith)
        have e : nu * (1 / (1 - ε)) * nu * Real.exp D = (nu * (1 / (1 - ε))) * (Real.exp D * nu) := by ring
        rw [e]
        exact le_mul_of_one_le_left this.le (by nlinarith)
      have k3 : 0 < Real.exp (V - U) * (1 - p) := mul_pos (Real.exp_pos _) hq00
      have k4 : (2:ℝ) ^ 96 ≤ 2 * (Real.exp (V - U) * (1 - p)) := hbig.trans (k1.trans (mul_le_mul_of_nonneg_right k2 k3.le))
      norm_num at k4 ⊢
      linarith
    · rw [hz, if_neg (by simp [F.isInfinite])]
      have hzz : Near l z (Real.exp (V - U) * (1 - p)) := by
        have := hzn.trans (by positivity) (mul_nonneg (Real.exp_pos _).le (by linarith))
          (hne.mul (Real.exp_pos _).le (Real.exp_pos _).le hr00.le hq00.le (Real.exp_pos _).le (by linarith) hrn)
        rw [hl]
        have e : nu * (1 / (1 - ε)) * (Real.exp D * nu) = nu * (1 / (1 - ε)) * nu * Real.exp D := by ring
        rwa [e] at this
      obtain ⟨q, hq, eq⟩ := belief_err exp (x := p) (y := z) (X := p * Real.exp U) (Y := (1 - p) * Real.exp V) (l := l)
        (le_trans (by norm_num) hp0) hz0 hp hzF (.inl (by linarith)) pX pY f1 (by
          have h1 := hzz.mul (by linarith [(by positivity : (0:ℝ) < 1 / 2 ^ 30)]) (mul_pos (Real.exp_pos _) hq00).le pX.le pX.le (by linarith) zero_le_one
            (⟨by rw [one_mul], by rw [one_mul]⟩ : Near 1 (p * Real.exp U) (p * Real.exp U))
          rw [mul_one] at h1
          have e : Real.exp (V - U) * (1 - p) * (p * Real.exp U) = p * ((1 - p) * Real.exp V) := by
            rw [Real.exp_sub]; field_simp
          rwa [e] at h1)
      exact ⟨q, hq, eq.trans f2⟩
  · push Not at hlt
    obtain ⟨d, hdr, ed⟩ := fl (x := u + -v) (by rw [← sub_eq_add_neg]; exact hdU)
    have hd0 : 0 ≤ d := by
      have := rnd_mono (x := 0) (y := u + -v) (by linarith)
      rw [z0, hdr] at this; exact this
    rw [← sub_eq_add_neg] at ed
    have hdD : |d - (U - V)| ≤ D := by
      have h1 := abs_sub_le d (u - v) (U - V)
      have h2 : |u - v - (U - V)| = |v - u - (V - U)| := by rw [← abs_neg]; congr 1; ring
      rw [abs_sub_comm u v] at ed
      linarith
    have hsub : (arith exp).sub (.fin u) (.fin v) = .fin d := hdr
    have hpost : posterior (arith exp) (.fin p) (.fin u) (.fin v) =
        if ((arith exp).mul (exp (.fin d)) (.fin p)).isInfinite then .ok (.fin 1)
        else unwrap (probability ((arith exp).div ((arith exp).mul (exp (.fin d)) (.fin p))
          ((arith exp).add ((arith exp).mul (exp (.fin d)) (.fin p)) (.fin r)))) := by
      unfold posterior
      rw [if_neg (by simp [F.isNan]), if_neg (by simp [F.isNan])]
      have hm : (if (F.fin u).lt (.fin v) then F.fin u else .fin v) = .fin v := if_neg (not_lt.2 hlt)
      dsimp only
      rw [hm, selfsub, hsub, hrev, show (arith exp).exp = exp from rfl, selfmul r hrF, if_neg (show ¬ (F.fin r).isInfinite by simp [F.isInfinite])]
    rw [hpost]
    have hne := near_exp hdD
    rcases weigh exp hexp hε hε1 hd0 (le_trans (by norm_num) hp0) (by linarith) with ⟨hi, hbig⟩ | ⟨z, hz, hzF, hz0, hzn⟩
    · rw [hi, if_pos (by simp [F.isInfinite])]
      refine ⟨1, rfl, ?_⟩
      have hb : 1 - bayes p (Real.exp U) (Real.exp V) ≤ 1 / (Real.exp (U - V) * p) := by
        unfold bayes
        rw [one_sub_div (by positivity), Real.exp_sub]
        rw [div_le_div_iff₀ (by positivity) (by positivity)]
        have e : (p * Real.exp U + (1 - p) * Real.exp V - p * Real.exp U) * (Real.exp U / Real.exp V * p) = (1 - p) * (p * Real.exp U) := by
          field_simp; ring
        rw [e]
        nlinarith
      have hb0 : 0 ≤ 1 - bayes p (Real.exp U) (Real.exp V) := by
        unfold bayes
        rw [sub_nonneg, div_le_one (by positivity)]
        linarith
      rw [abs_of_nonneg hb0]
      refine hb.trans (lim _ ?_)
      have k1 : Real.exp d * p ≤ Real.exp D * (Real.exp (U - V) * p) := by
        have := mul_le_mul_of_nonneg_right hne.1 hp00.le
        linarith
      have k2 : Real.exp D ≤ 2 := by
        have := Real.exp_le_exp.2 (show D ≤ 1 / 2 by linarith)
        have h3 := Real.exp_one_lt_d9
        have h4 : Real.exp (1 / 2) * Real.exp (1 / 2) = Real.exp 1 := by rw [← Real.exp_add]; norm_num
        nlinarith [Real.exp_pos (1 / 2 : ℝ)]
      have k3 : 0 < Real.exp (U - V) * p := mul_pos (Real.exp_pos _) hp00
      have k4 : (2:ℝ) ^ 96 ≤ 2 * (Real.exp (U - V) * p) := hbig.trans (k1.trans (mul_le_mul_of_nonneg_right k2 k3.le))
      norm_num at k4 ⊢
      linarith
    · rw [hz, if_neg (by simp [F.isInfinite])]
      have hz00 : 0 < z := lt_of_lt_of_le (by positivity) hz0
      have hzz : Near (nu * (1 / (1 - ε)) * Real.exp D) z (Real.exp (U - V) * p) := by
        have h1 := hne.mul (Real.exp_pos _).le (Real.exp_pos _).le hp00.le hp00.le (Real.exp_pos _).le zero_le_one
          (⟨by rw [one_mul], by rw [one_mul]⟩ : Near 1 p p)
        rw [mul_one] at h1
        exact hzn.trans (by positivity) (Real.exp_pos _).le h1
      obtain ⟨q, hq, eq⟩ := belief_err exp (x := z) (y := r) (X := p * Real.exp U) (Y := (1 - p) * Real.exp V) (l := l)
        hz0 (le_trans (by norm_num) hr0) hzF hrF (.inr hr1) pX pY f1 (by
          have hsym : Near (nu * (1 / (1 - ε)) * Real.exp D) (Real.exp (U - V) * p) z := ⟨hzz.2, hzz.1⟩
          have h1 := hsym.mul (mul_pos (Real.exp_pos _) hp00).le hz00.le hr00.le hq00.le
            (mul_nonneg (by positivity) (Real.exp_pos _).le) (by linarith) hrn
          have h2 := h1.mul (by positivity) (by positivity) hV.le hV.le (by positivity) zero_le_one
            (⟨by rw [one_mul], by rw [one_mul]⟩ : Near 1 (Real.exp V) (Real.exp V))
          rw [mul_one] at h2
          have e1 : Real.exp (U - V) * p * r * Real.exp V = r * (p * Real.exp U) := by rw [Real.exp_sub]; field_simp
          have e2 : z * (1 - p) * Real.exp V = z * ((1 - p) * Real.exp V) := by ring
          have e3 : nu * (1 / (1 - ε)) * Real.exp D * nu = l := by rw [hl]; ring
          rwa [e1, e2, e3] at h2)
      exact ⟨q, hq, eq.trans f2⟩

/-- **C75.** With `f32` arithmetic and an `exp` of relative error `ε`, the new belief in a wall that was undecided is within
`ε / 2 + 2^-22 (K² + 3)` of what Bayes' rule gives for the old one, when the measured distance is at most `K` deviations away from
both expected distances. -/
theorem C75_accuracy (exp : F → F) {ε K : ℝ} (hexp : AccurateExp exp ε) (hε : 0 ≤ ε) (hε1 : ε ≤ 1 / 8) (hK : K ≤ 256)
    {p a b m s : ℝ} (hp : IsF32 p) (hp0 : 0 ≤ p) (hp1 : p ≤ 1) (hz : ¬ isZero (.fin p)) (ho : ¬ isOne (arith exp) (.fin p))
    (hs : 1 / 2 ^ 60 ≤ s) (hs' : s ≤ 2 ^ 60) (ha : |a - m| ≤ K * s) (hb : |b - m| ≤ K * s) :
    ∃ q, posterior (arith exp) (.fin p) (score (arith exp) (.fin a) (.fin m) (.fin s)) (score (arith exp) (.fin b) (.fin m) (.fin s)) =
        .ok (.fin q) ∧
      |q - bayes p (likelihood a m s) (likelihood b m s)| ≤ ε / 2 + (K ^ 2 + 3) / 2 ^ 22 := by
  obtain ⟨u, hu, eu⟩ := score_err exp hK hs hs' ha
  obtain ⟨v, hv, ev⟩ := score_err exp hK hs hs' hb
  have hs0 : 0 < s := lt_of_lt_of_le (by positivity) hs
  have hK0 : 0 ≤ K := by
    have := (abs_nonneg _).trans ha
    by_contra hc
    push Not at hc
    nlinarith
  have hKK : K ^ 2 ≤ 65536 := by nlinarith
  have sq : ∀ c : ℝ, |c - m| ≤ K * s → |-((c - m) / s) ^ 2 / 2| ≤ K ^ 2 / 2 := by
    intro c hc
    have h1 : |(c - m) / s| ≤ K := by rw [abs_div, abs_of_pos hs0, div_le_iff₀ hs0]; exact hc
    have h2 : ((c - m) / s) ^ 2 ≤ K ^ 2 := by rw [← sq_abs]; exact pow_le_pow_left₀ (abs_nonneg _) h1 2
    rw [neg_div, abs_neg, abs_of_nonneg (by positivity)]
    linarith
  have sa := sq a ha
  have sb := sq b hb
  have lik : ∀ c : ℝ, likelihood c m s = Real.exp (-((c - m) / s) ^ 2 / 2) := by
    intro c
    unfold likelihood
    congr 3
    rw [← neg_sub c m, neg_div]; ring
  rw [hu, hv, lik, lik]
  generalize -((a - m) / s) ^ 2 / 2 = U at *
  generalize -((b - m) / s) ^ 2 / 2 = V at *
  have bu : |u| ≤ K ^ 2 / 2 + (3 * K ^ 2 + 1 / 4) / 2 ^ 24 := by
    have := abs_sub_abs_le_abs_sub u U; linarith
  have bv : |v| ≤ K ^ 2 / 2 + (3 * K ^ 2 + 1 / 4) / 2 ^ 24 := by
    have := abs_sub_abs_le_abs_sub v V; linarith
  have hlo : 1 / 2 ^ 23 ≤ p := by
    by_contra hc
    push Not at hc
    refine hz ?_
    show |p| < EPSILON
    rw [abs_of_nonneg hp0]; exact hc
  have hhi : p ≤ 1 - 1 / 2 ^ 24 := by
    by_contra hc
    push Not at hc
    refine ho ?_
    have h1 := rnd_mono (x := -(1 / 2 ^ 24)) (y := p + -1) (by linarith)
    have h2 := rnd_mono (x := p + -1) (y := 0) (by linarith)
    rw [rnd_neg, rnd_isF32 (y := 1 / 2 ^ 24) ⟨1, -24, by norm_num, by norm_num, by norm_num, by norm_num⟩] at h1
    rw [rnd_isF32 (y := 0) ⟨0, 0, by norm_num, by norm_num, by norm_num, by norm_num⟩] at h2
    unfold isOne
    show (rnd (p + -1)).abs.lt _
    cases hr : rnd (p + -1) with
    | nan => rw [hr] at h1; exact h1.elim
    | ninf => rw [hr] at h1; exact h1.elim
    | pinf => rw [hr] at h2; exact h2.elim
    | fin w =>
      rw [hr] at h1 h2
      have h1' : -(1 / 2 ^ 24) ≤ w := h1
      have h2' : w ≤ 0 := h2
      show |w| < EPSILON
      rw [abs_of_nonpos h2']
      unfold EPSILON
      norm_num at h1' ⊢
      linarith
  obtain ⟨q, hq, eq⟩ := posterior_err exp (D := 8 * (K ^ 2 + 1) / 2 ^ 24) (u := u) (v := v) (U := U) (V := V) hexp hε hε1 (by positivity)
    (by norm_num at hKK ⊢; linarith) hp (le_trans (by norm_num) hlo) hhi
    (by norm_num at bu ⊢; linarith) (by norm_num at bv ⊢; linarith) (by
      have h1 : |(v - u) - (V - U)| ≤ |v - V| + |u - U| := by
        have : (v - u) - (V - U) = (v - V) - (u - U) := by ring
        rw [this]; exact abs_sub _ _
      have h2 : |v - u| ≤ |v| + |u| := abs_sub _ _
      have h3 : 0 ≤ K ^ 2 := by positivity
      norm_num at h1 h2 eu ev bu bv ⊢
      linarith)
  refine ⟨q, hq, eq.trans ?_⟩
  norm_num
  linarith

/-- The correctly rounded exponential function has error `2^-24`. -/
theorem accurateExp_rounded : AccurateExp expRounded (1 / 2 ^ 24) where
  toGoodExp := goodExp_rounded
  acc := fun x hx => by
    have h1 : 1 ≤ Real.exp x := Real.one_le_exp hx
    show (∃ y, rnd (Real.exp x) = _ ∧ _) ∨ (rnd (Real.exp x) = _ ∧ _)
    have hN := C74_nearest (Real.exp x)
    cases hr : rnd (Real.exp x) with
    | nan => exact absurd hr hN.2.2.2.2
    | ninf =>
      have := hN.2.2.2.1.1 hr
      have h4 : -((2:ℝ) ^ 128 - 2 ^ 103) < 0 := by norm_num
      linarith
    | pinf =>
      refine .inr ⟨rfl, le_trans (by norm_num) (hN.2.2.1.1 hr)⟩
    | fin y =>
      refine .inl ⟨y, rfl, ?_⟩
      obtain ⟨rfl, -⟩ := rnd_fin hr
      have h := round24_rel (Real.exp x)
      rw [abs_of_pos (Real.exp_pos x), max_eq_left (by
        rw [le_div_iff₀ (by positivity)]; refine le_trans ?_ h1; norm_num)] at h
      rw [one_div, inv_mul_eq_div]; exact h

/-- A fresh wall, expected at 30 mm if it exists and at 120 mm if not; 60 mm measured with a deviation of 10 mm. -/
example : ∃ q, posterior (arith expRounded) (.fin (1 / 2)) (score (arith expRounded) (.fin 0.03) (.fin 0.06) (.fin 0.01))
    (score (arith expRounded) (.fin 0.12) (.fin 0.06) (.fin 0.01)) = .ok (.fin q) ∧
    |q - bayes (1 / 2) (likelihood 0.03 0.06 0.01) (likelihood 0.12 0.06 0.01)| ≤ 0.00001 := by
  obtain ⟨q, h1, h2⟩ := C75_accuracy expRounded (K := 6) accurateExp_rounded (by norm_num) (by norm_num) (by norm_num) (p := 1 / 2)
    (a := 0.03) (b := 0.12) (m := 0.06) (s := 0.01) ⟨1, -1, by norm_num, by norm_num, by norm_num, by norm_num⟩ (by norm_num) (by norm_num)
    (by show ¬ |(1 / 2 : ℝ)| < EPSILON; unfold EPSILON; norm_num [abs_of_pos])
    (by
      have : rnd (1 / 2 + -1) = .fin (-(1 / 2)) := by
        rw [show (1 / 2 + -1 : ℝ) = -(1 / 2) by norm_num, rnd_neg,
          rnd_isF32 (y := 1 / 2) ⟨1, -1, by norm_num, by norm_num, by norm_num, by norm_num⟩]; rfl
      show ¬ (rnd (1 / 2 + -1)).abs.lt _
      rw [this]
      show ¬ |(-(1 / 2) : ℝ)| < EPSILON
      unfold EPSILON; norm_num [abs_of_pos])
    (by norm_num) (by norm_num) (by rw [abs_le]; norm_num) (by rw [abs_le]; norm_num)
  exact ⟨q, h1, h2.trans (by norm_num)⟩

end Verif.Props
