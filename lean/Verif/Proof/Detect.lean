import Verif.Model.Detect
import Verif.Spec.Float
import Mathlib.Tactic.Linarith
import Mathlib.Tactic.Positivity
namespace Verif.Proof
open Verif Verif.Spec Verif.Detect

theorem rounding_exact : Rounding exact where
  zero := rfl
  half := rfl
  one := rfl
  odd _ := rfl
  mono x y h := h
  idem x y h := rfl
  exp_zero := by simp [exact]
  exp_nonneg x _ := Or.inr ⟨Real.exp x, (Real.exp_pos x).le, rfl⟩
  exp_inf := rfl
  exp_nan := rfl

section
variable {A : Arith} (hA : Rounding A)
include hA

theorem rnd_nonneg {x : ℝ} (hx : 0 ≤ x) : A.rnd x = .pinf ∨ ∃ y, 0 ≤ y ∧ A.rnd x = .fin y ∧ A.rnd y = .fin y := by
  have h := hA.mono 0 x hx
  rw [hA.zero] at h
  cases hr : A.rnd x with
  | nan => rw [hr] at h; exact h.elim
  | ninf => rw [hr] at h; exact h.elim
  | pinf => exact Or.inl rfl
  | fin y =>
    rw [hr] at h
    exact Or.inr ⟨y, h, rfl, hA.idem x y hr⟩

theorem rnd_nonpos {x : ℝ} (hx : x ≤ 0) : A.rnd x = .ninf ∨ ∃ y, y ≤ 0 ∧ A.rnd x = .fin y ∧ A.rnd y = .fin y := by
  have h := hA.mono x 0 hx
  rw [hA.zero] at h
  cases hr : A.rnd x with
  | nan => rw [hr] at h; exact h.elim
  | ninf => exact Or.inl rfl
  | pinf => rw [hr] at h; exact h.elim
  | fin y =>
    rw [hr] at h
    exact Or.inr ⟨y, h, rfl, hA.idem x y hr⟩

theorem rnd_le {x y b : ℝ} (h : x ≤ b) (hb : A.rnd b = .fin b) (hx : A.rnd x = .fin y) : y ≤ b := by
  have := hA.mono x b h
  rw [hb, hx] at this
  exact this

theorem le_rnd {x y b : ℝ} (h : b ≤ x) (hb : A.rnd b = .fin b) (hx : A.rnd x = .fin y) : b ≤ y := by
  have := hA.mono b x h
  rw [hb, hx] at this
  exact this

theorem rnd_not_nan (x : ℝ) : A.rnd x ≠ .nan := by
  intro h
  have := hA.mono x x le_rfl
  rw [h] at this
  exact this

/-- The normalised deviation is a number or an infinity. -/
theorem dev_not_nan (a m s : ℝ) (hs : 0 < s) : A.div (A.sub (.fin a) (.fin m)) (.fin s) ≠ .nan := by
  have h1 := rnd_not_nan hA (a + -m)
  show A.div (A.rnd (a + -m)) (.fin s) ≠ .nan
  cases hr : A.rnd (a + -m) with
  | nan => exact absurd hr h1
  | ninf => simp [Arith.div, not_lt.mpr hs.le]
  | pinf => simp [Arith.div, not_lt.mpr hs.le]
  | fin t =>
    simp only [Arith.div, if_neg hs.ne']
    exact rnd_not_nan hA _

theorem score_cases (a m s : ℝ) (hs : 0 < s) :
    (score A (.fin a) (.fin m) (.fin s) = .ninf ∧ SquareOverflows A (.fin a) m s) ∨
    ∃ r, r ≤ 0 ∧ score A (.fin a) (.fin m) (.fin s) = .fin r ∧ A.rnd r = .fin r := by
  unfold score SquareOverflows
  have h1 := dev_not_nan hA a m s hs
  have h2 : ¬ ((2 : ℝ) < 0) := by norm_num
  cases ht : A.div (A.sub (.fin a) (.fin m)) (.fin s) with
  | nan => exact absurd ht h1
  | ninf => left; simp [Arith.mul, Arith.div, F.neg, h2]
  | pinf => left; simp [Arith.mul, Arith.div, F.neg, h2]
  | fin t =>
    simp only [F.neg, Arith.mul]
    have hn : -t * t ≤ 0 := by nlinarith [mul_self_nonneg t]
    have e : t * t = -(-t * t) := by ring
    rcases rnd_nonpos hA hn with h | ⟨y, hy, h, hyy⟩
    · left
      rw [e, hA.odd, h]
      simp [Arith.div, F.neg, h2]
    · right
      rw [h]
      simp only [Arith.div, if_neg (two_ne_zero (α := ℝ))]
      have hy2 : y / 2 ≤ 0 := by linarith
      rcases rnd_nonpos hA hy2 with h' | ⟨z, hz, h', hzz⟩
      · exfalso
        have := hA.mono y (y / 2) (by linarith)
        rw [hyy, h'] at this
        exact this
      · exact ⟨z, hz, h', hzz⟩

theorem overflow_score {a m s : ℝ} (hs : 0 < s) (h : SquareOverflows A (.fin a) m s) :
    score A (.fin a) (.fin m) (.fin s) = .ninf := by
  unfold score
  unfold SquareOverflows at h
  have h1 := dev_not_nan hA a m s hs
  have h2 : ¬ ((2 : ℝ) < 0) := by norm_num
  cases ht : A.div (A.sub (.fin a) (.fin m)) (.fin s) with
  | nan => exact absurd ht h1
  | ninf => simp [Arith.mul, Arith.div, F.neg, h2]
  | pinf => simp [Arith.mul, Arith.div, F.neg, h2]
  | fin t =>
    rw [ht] at h
    simp only [Arith.mul] at h
    have e : -t * t = -(t * t) := by ring
    simp only [F.neg, Arith.mul]
    rw [e, hA.odd, h]
    simp [Arith.div, F.neg, h2]

/-- A probability that is neither 0 nor 1 within `EPSILON`: it and its complement are positive. -/
theorem undecided {p : F} (hp : IsProb A p) (h : ¬ (isZero p ∨ isOne A p)) :
    ∃ r q, p = .fin r ∧ 0 < r ∧ r ≤ 1 ∧ A.rnd r = .fin r ∧ reverse A p = .fin q ∧ 0 < q ∧ q ≤ 1 ∧ A.rnd q = .fin q := by
  obtain ⟨r, rfl, h0, h1, hr⟩ := hp
  have hE : (0 : ℝ) < EPSILON := by unfold EPSILON; positivity
  have hz : ¬ isZero (.fin r) := fun hz => h (Or.inl hz)
  have ho : ¬ isOne A (.fin r) := fun ho => h (Or.inr ho)
  have hr0 : 0 < r := by
    rcases h0.lt_or_eq with h0 | h0
    · exact h0
    · exact absurd (show isZero (.fin r) by subst h0; simpa [isZero, F.abs, F.lt] using hE) hz
  have hq : reverse A (.fin r) = A.rnd (1 - r) := by
    show A.rnd (1 + -r) = _
    rw [sub_eq_add_neg]
  have hsub : A.sub (.fin r) (.fin 1) = (A.rnd (1 - r)).neg := by
    show A.rnd (r + -1) = _
    rw [← hA.odd]; congr 1; ring
  rcases rnd_nonneg hA (show 0 ≤ 1 - r by linarith) with h' | ⟨q, hq0, h', hqq⟩
  · exfalso
    have := hA.mono (1 - r) 1 (by linarith)
    rw [h', hA.one] at this
    exact this
  · have hq1 : q ≤ 1 := rnd_le hA (show 1 - r ≤ 1 by linarith) hA.one h'
    refine ⟨r, q, rfl, hr0, h1, hr, by rw [hq, h'], ?_, hq1, hqq⟩
    rcases hq0.lt_or_eq with h0 | h0
    · exact h0
    · refine absurd (show isOne A (.fin r) from ?_) ho
      unfold isOne
      rw [hsub, h', ← h0]
      simpa [F.neg, F.abs, F.lt] using hE

theorem posterior_overflow (p : F) : posterior A p .ninf .ninf = .error .unwrapNone := by
  have h : A.sub .ninf .ninf = .nan := rfl
  unfold posterior
  simp [F.isNan, h, hA.exp_nan, Arith.mul, F.isInfinite, F.lt, Arith.add, Arith.div, probability, unwrap]

theorem isProb_zero : IsProb A (.fin 0) := ⟨0, rfl, le_rfl, zero_le_one, hA.zero⟩
theorem isProb_one : IsProb A (.fin 1) := ⟨1, rfl, zero_le_one, le_rfl, hA.one⟩

omit hA in
theorem probability_ok {v : ℝ} (h0 : 0 ≤ v) (h1 : v ≤ 1) : unwrap (probability (.fin v)) = .ok (.fin v) := by
  have h : ¬ ((F.fin v).isNan ∨ (F.fin v).lt (.fin 0) ∨ (F.fin 1).lt (.fin v)) := by
    simp [F.isNan, F.lt, h0, h1]
  unfold probability
  rw [if_neg h]
  rfl

/-- The quotient in the last step. -/
theorem posterior_quot {x y : ℝ} (hx : 0 ≤ x) (hy : 0 ≤ y) (hxx : A.rnd x = .fin x) (hyy : A.rnd y = .fin y)
    (hpos : 0 < x ∨ 0 < y) :
    ∃ v, unwrap (probability (A.div (.fin x) (A.add (.fin x) (.fin y)))) = .ok v ∧ IsProb A v := by
  have hadd : A.add (.fin x) (.fin y) = A.rnd (x + y) := rfl
  rw [hadd]
  rcases rnd_nonneg hA (add_nonneg hx hy) with h | ⟨s, hs, h, hss⟩
  · rw [h]
    exact ⟨.fin 0, probability_ok le_rfl zero_le_one, isProb_zero hA⟩
  · rw [h]
    have hxs : x ≤ s := le_rnd hA (by linarith) hxx h
    have hys : y ≤ s := le_rnd hA (by linarith) hyy h
    have hs0 : 0 < s := by rcases hpos with h | h <;> linarith
    simp only [Arith.div, if_neg hs0.ne']
    have hq1 : x / s ≤ 1 := (div_le_one hs0).mpr hxs
    rcases rnd_nonneg hA (div_nonneg hx hs0.le) with h' | ⟨v, hv, h', hvv⟩
    · exfalso
      have := hA.mono _ _ hq1
      rw [h', hA.one] at this
      exact this
    · have hv1 : v ≤ 1 := rnd_le hA hq1 hA.one h'
      refine ⟨.fin v, ?_, v, rfl, hv, hv1, hvv⟩
      rw [h']
      exact probability_ok hv hv1

/-- Product of an exponential and a positive probability. -/
theorem mul_exp {z r : ℝ} (hz : 0 ≤ z) (hr : 0 < r) :
    A.mul (A.exp (.fin z)) (.fin r) = .pinf ∨
      ∃ y, 0 ≤ y ∧ A.mul (A.exp (.fin z)) (.fin r) = .fin y ∧ A.rnd y = .fin y := by
  rcases hA.exp_nonneg z hz with h | ⟨y, hy, h⟩
  · left; rw [h]; simp [Arith.mul, F.infOf, hr]
  · rw [h]
    exact rnd_nonneg hA (mul_nonneg hy hr.le)

open Classical in
theorem posterior_ok {p : F} (hp : IsProb A p) (h : ¬ (isZero p ∨ isOne A p)) {a b : F}
    (ha : a = .ninf ∨ ∃ r, r ≤ 0 ∧ a = .fin r ∧ A.rnd r = .fin r) (hb : b = .ninf ∨ ∃ r, r ≤ 0 ∧ b = .fin r ∧ A.rnd r = .fin r)
    (hab : ¬ (a = .ninf ∧ b = .ninf)) : ∃ v, posterior A p a b = .ok v ∧ IsProb A v := by
  obtain ⟨r, q, rfl, hr0, hr1, hrr, hrev, hq0, hq1, hqq⟩ := undecided hA hp h
  have hnn : A.sub .ninf .ninf = .nan := rfl
  rcases ha with rfl | ⟨a, ha0, rfl, haa⟩ <;> rcases hb with rfl | ⟨b, hb0, rfl, hbb⟩
  · exact absurd ⟨rfl, rfl⟩ hab
  · refine ⟨.fin 0, ?_, isProb_zero hA⟩
    have e : A.sub (.fin b) .ninf = .pinf := rfl
    unfold posterior
    simp [F.isNan, F.lt, hnn, e, hA.exp_nan, hA.exp_inf, Arith.mul, F.isInfinite, hrev, F.infOf, hq0]
  · refine ⟨.fin 1, ?_, isProb_one hA⟩
    have e : A.sub (.fin a) .ninf = .pinf := rfl
    unfold posterior
    simp [F.isNan, F.lt, e, hA.exp_inf, Arith.mul, F.isInfinite, F.infOf, hr0]
  · -- both finite
    have key : ∀ m : ℝ, (m = a ∨ m = b) → m ≤ a → m ≤ b →
        ∃ v, (if (A.mul (A.exp (A.sub (.fin a) (.fin m))) (.fin r)).isInfinite then Except.ok (.fin 1)
          else if (A.mul (A.exp (A.sub (.fin b) (.fin m))) (.fin q)).isInfinite then .ok (.fin 0)
          else unwrap (probability (A.div (A.mul (A.exp (A.sub (.fin a) (.fin m))) (.fin r))
            (A.add (A.mul (A.exp (A.sub (.fin a) (.fin m))) (.fin r)) (A.mul (A.exp (A.sub (.fin b) (.fin m))) (.fin q)))))
            : R F) = .ok v ∧ IsProb A v := by
      intro m hm hma hmb
      have prod : ∀ c t : ℝ, m ≤ c → 0 < t → A.rnd t = .fin t →
          (A.mul (A.exp (A.sub (.fin c) (.fin m))) (.fin t) = .pinf) ∨
          ∃ y, 0 ≤ y ∧ A.mul (A.exp (A.sub (.fin c) (.fin m))) (.fin t) = .fin y ∧ A.rnd y = .fin y ∧ (m = c → 0 < y) := by
        intro c t hc ht htt
        have hs : A.sub (.fin c) (.fin m) = A.rnd (c - m) := by rw [sub_eq_add_neg]; rfl
        rw [hs]
        by_cases hmc : m = c
        · subst hmc
          right
          refine ⟨t, ht.le, ?_, htt, fun _ => ht⟩
          rw [sub_self, hA.zero, hA.exp_zero]
          show A.rnd (1 * t) = _
          rw [one_mul, htt]
        · rcases rnd_nonneg hA (show 0 ≤ c - m by linarith) with h | ⟨z, hz, h, -⟩
          · left; rw [h, hA.exp_inf]; simp [Arith.mul, F.infOf, ht]
          · rw [h]
            rcases mul_exp hA hz ht with h | ⟨y, hy, h, hyy⟩
            · exact Or.inl h
            · exact Or.inr ⟨y, hy, h, hyy, fun e => absurd e hmc⟩
      rcases prod a r hma hr0 hrr with h1 | ⟨x, hx, h1, hxx, hxp⟩
      · rw [h1]; exact ⟨.fin 1, by simp [F.isInfinite], isProb_one hA⟩
      · rcases prod b q hmb hq0 hqq with h2 | ⟨y, hy, h2, hyy, hyp⟩
        · rw [h1, h2]; exact ⟨.fin 0, by simp [F.isInfinite], isProb_zero hA⟩
        · rw [h1, h2]
          rw [if_neg (show ¬ (F.fin x).isInfinite from id), if_neg (show ¬ (F.fin y).isInfinite from id)]
          exact posterior_quot hA hx hy hxx hyy (by rcases hm with h | h; exacts [Or.inl (hxp h), Or.inr (hyp h)])
    unfold posterior
    simp only [F.isNan, if_false, hrev]
    by_cases hlt : a < b
    · have : (F.fin a).lt (.fin b) := hlt
      rw [if_pos this]
      exact key a (Or.inl rfl) le_rfl hlt.le
    · have : ¬ (F.fin a).lt (.fin b) := hlt
      rw [if_neg this]
      exact key b (Or.inr rfl) (not_lt.mp hlt) le_rfl

end
end Verif.Proof
