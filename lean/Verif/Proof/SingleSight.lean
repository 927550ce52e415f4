import Verif.Proof.SingleConvert
/-!
# The pose converter in single precision: distances along the ray
-/
namespace Verif.Proof
open Verif Verif.Spec Verif.Convert Verif.Single Verif.Binary32 Verif.Search Verif.Detect

variable {exp : F → F}

/-- A line is never at a distance that is not a number. -/
theorem lineAt_ne_nan (A : Arith) (l r c : F) : lineAt A l r c ≠ .nan := by
  unfold lineAt
  dsimp only
  split_ifs with h
  · simp
  · intro e
    exact h (Or.inr (by rw [e]; trivial))

/-- The mirror image. -/
theorem lineAt_neg (l r c : ℝ) :
    lineAt (arith exp) (.fin (-l)) (.fin (-r)) (.fin (-c)) = lineAt (arith exp) (.fin l) (.fin r) (.fin c) := by
  have e1 : (arith exp).sub (.fin (-l)) (.fin (-r)) = ((arith exp).sub (.fin l) (.fin r)).neg := by
    show rnd (-l + - -r) = (rnd (l + -r)).neg
    rw [← rnd_neg]; congr 1; ring
  unfold lineAt
  dsimp only
  rw [e1]
  obtain ⟨D, hD⟩ : ∃ D, D = (arith exp).sub (.fin l) (.fin r) := ⟨_, rfl⟩
  rw [← hD]
  by_cases hc : c = 0
  · subst hc
    have z : ∀ D : F, ((arith exp).div D (.fin 0)).lt (.fin 0) ∨ ((arith exp).div D (.fin 0)).isNan ∨
        (arith exp).div D (.fin 0) = .pinf := by
      intro D
      cases D with
      | nan => right; left; trivial
      | ninf =>
        left
        show F.lt (if (0:ℝ) < 0 then .pinf else .ninf) _
        rw [if_neg (lt_irrefl _)]; trivial
      | pinf =>
        right; right
        show (if (0:ℝ) < 0 then _ else _) = _
        rw [if_neg (lt_irrefl _)]
      | fin d =>
        have : (arith exp).div (.fin d) (.fin 0) = F.infOf d := by
          show (if (0:ℝ) = 0 then _ else _) = _
          rw [if_pos rfl]
        rw [this]
        unfold F.infOf
        split_ifs
        · right; right; rfl
        · left; trivial
        · right; left; trivial
    have y : ∀ D : F, (open Classical in (if ((arith exp).div D (.fin 0)).lt (.fin 0) ∨ ((arith exp).div D (.fin 0)).isNan then .pinf
        else (arith exp).div D (.fin 0))) = F.pinf := by
      intro D
      split_ifs with h
      · rfl
      · rcases z D with h1 | h1 | h1
        · exact absurd (Or.inl h1) h
        · exact absurd (Or.inr h1) h
        · exact h1
    rw [neg_zero, y, y]
  · have e2 : (arith exp).div D.neg (.fin (-c)) = (arith exp).div D (.fin c) := by
      cases D with
      | nan => rfl
      | ninf =>
        show (if -c < 0 then F.ninf else .pinf) = if c < 0 then F.pinf else .ninf
        rcases lt_or_gt_of_ne hc with h | h
        · rw [if_neg (by linarith), if_pos h]
        · rw [if_pos (by linarith), if_neg (by linarith)]
      | pinf =>
        show (if -c < 0 then F.pinf else .ninf) = if c < 0 then F.ninf else .pinf
        rcases lt_or_gt_of_ne hc with h | h
        · rw [if_neg (by linarith), if_pos h]
        · rw [if_pos (by linarith), if_neg (by linarith)]
      | fin d =>
        show (arith exp).div (.fin (-d)) (.fin (-c)) = _
        rw [div_rnd (neg_ne_zero.2 hc), div_rnd hc, neg_div_neg_eq]
    rw [e2]

/-- The distance of a line ahead. -/
theorem line_pos {l r c C ε : ℝ} (h0 : 0 < l - r) (h1 : l - r ≤ 1 / 5) (hc : |c - C| ≤ ε) (hc2 : |c| ≤ 2) :
    (∀ t, lineAt (arith exp) (.fin l) (.fin r) (.fin c) = .fin t → 0 ≤ t ∧ |r + t * C - l| ≤ t * ε + 1 / 10 ^ 7) ∧
    (∀ t, 0 ≤ t → t ≤ 1 → (F.fin t).le (lineAt (arith exp) (.fin l) (.fin r) (.fin c)) → r + t * C ≤ l + t * ε + 1 / 10 ^ 7) ∧
    (69 / 100 ≤ c → ∃ t, lineAt (arith exp) (.fin l) (.fin r) (.fin c) = .fin t ∧ t * c ≤ l - r + 1 / 10 ^ 7) := by
  obtain ⟨d, ed, bd⟩ := rnd_within (z := l + -r) (c := 1 / 5) (by rw [abs_le]; constructor <;> linarith) (by norm_num)
  have d0 : 0 ≤ d := by rw [(rnd_fin ed).1]; exact round24_nonneg (by linarith)
  have bd' := abs_le.1 bd
  norm_num at bd'
  have hc' := abs_le.1 hc
  have es : (arith exp).sub (.fin l) (.fin r) = .fin d := ed
  have el : lineAt (arith exp) (.fin l) (.fin r) (.fin c) =
      open Classical in (if ((arith exp).div (.fin d) (.fin c)).lt (.fin 0) ∨ ((arith exp).div (.fin d) (.fin c)).isNan then .pinf
      else (arith exp).div (.fin d) (.fin c)) := by
    unfold lineAt
    dsimp only
    rw [es]
  -- the product of the distance and the cosine
  have prod : c ≠ 0 → |round24 (d / c) * c - d| ≤ 3 / 10 ^ 8 := by
    intro hc0
    have h := round24_rel (d / c)
    have e : round24 (d / c) * c - d = (round24 (d / c) - d / c) * c := by field_simp
    have e' : |d / c| * |c| = d := by rw [abs_div, abs_of_nonneg d0]; field_simp
    rw [e, abs_mul]
    have h2 : |round24 (d / c) - d / c| ≤ |d / c| / 2 ^ 24 + 1 / 2 ^ 150 :=
      h.trans (max_le (le_add_of_nonneg_right (by positivity)) (le_add_of_nonneg_left (by positivity)))
    have h3 := mul_le_mul_of_nonneg_right h2 (abs_nonneg c)
    refine h3.trans ?_
    have e3 : (|d / c| / 2 ^ 24 + 1 / 2 ^ 150) * |c| = d / 2 ^ 24 + |c| / 2 ^ 150 := by
      rw [add_mul, div_mul_eq_mul_div, e']; ring
    rw [e3]
    norm_num
    linarith
  refine ⟨fun t ht => ?_, fun t t0 t1 ht => ?_, fun hc69 => ?_⟩
  · rw [el] at ht
    split_ifs at ht with hb
    have hc0 : c ≠ 0 := by
      rintro rfl
      have : (arith exp).div (.fin d) (.fin 0) = F.infOf d := by
        show (if (0:ℝ) = 0 then _ else _) = _
        rw [if_pos rfl]
      rw [this] at ht
      unfold F.infOf at ht
      split_ifs at ht
    rw [div_rnd hc0] at ht hb
    rw [ht] at hb
    have t0 : 0 ≤ t := by
      by_contra hneg
      exact hb (Or.inl (show t < 0 by linarith))
    have p := prod hc0
    rw [← (rnd_fin ht).1] at p
    refine ⟨t0, ?_⟩
    have e : r + t * C - l = -(t * (c - C)) + (t * c - d) + (d - (l + -r)) := by ring
    rw [e]
    have a1 := abs_add_le (-(t * (c - C)) + (t * c - d)) (d - (l + -r))
    have a2 := abs_add_le (-(t * (c - C))) (t * c - d)
    rw [abs_neg, abs_mul, abs_of_nonneg t0] at a2
    have a3 := mul_le_mul_of_nonneg_left hc t0
    norm_num at p bd ⊢
    linarith
  · have tc : t * C ≤ t * c + t * ε := by nlinarith
    rcases le_or_gt c 0 with hc0 | hc0
    · have : t * c ≤ 0 := mul_nonpos_of_nonneg_of_nonpos t0 hc0
      linarith [show (0:ℝ) < 1 / 10 ^ 7 by norm_num]
    rw [el] at ht
    rw [div_rnd hc0.ne'] at ht
    have hq : 0 ≤ d / c := by positivity
    have hr0 := round24_nonneg hq
    have p := abs_le.1 (prod hc0.ne')
    suffices hs : t * c ≤ d + 3 / 10 ^ 8 by
      norm_num at hs ⊢
      linarith
    by_cases hbig : 2 ^ 128 ≤ round24 (d / c)
    · have : 2 ^ 128 * c ≤ round24 (d / c) * c := mul_le_mul_of_nonneg_right hbig hc0.le
      have h2 : t * c ≤ 1 * c := mul_le_mul_of_nonneg_right t1 hc0.le
      norm_num at p this ⊢
      linarith
    · have e : rnd (d / c) = .fin (round24 (d / c)) := rnd_of_lt (by rw [abs_of_nonneg hr0]; linarith)
      rw [e, if_neg] at ht
      · have : t ≤ round24 (d / c) := ht
        have := mul_le_mul_of_nonneg_right this hc0.le
        linarith [p.2]
      · rintro (h | h)
        · exact absurd h (not_lt.2 hr0)
        · exact h
  · have hc0 : 0 < c := by linarith
    have hq : 0 ≤ d / c := by positivity
    have hr0 := round24_nonneg hq
    have p := abs_le.1 (prod hc0.ne')
    have hsmall : round24 (d / c) < 2 ^ 128 := by
      by_contra hbig
      push Not at hbig
      have : 2 ^ 128 * c ≤ round24 (d / c) * c := mul_le_mul_of_nonneg_right hbig hc0.le
      norm_num at p this
      linarith
    have e : rnd (d / c) = .fin (round24 (d / c)) := rnd_of_lt (by rwa [abs_of_nonneg hr0])
    refine ⟨round24 (d / c), ?_, ?_⟩
    · rw [el, div_rnd hc0.ne', e, if_neg]
      rintro (h | h)
      · exact absurd h (not_lt.2 hr0)
      · exact h
    · norm_num at p ⊢
      linarith

theorem lineAt_ne_ninf (A : Arith) (l r c : F) : lineAt A l r c ≠ .ninf := by
  unfold lineAt
  dsimp only
  split_ifs with h
  · simp
  · intro e
    exact h (Or.inl (by rw [e]; trivial))

/-- What the two lines of one axis tell about the points at a distance: whether they are on the first or the second line, and
whether they are still in the first room or in the two rooms. -/
structure Outlook (D1 D2 : F) (H1 H2 P1 P2 : ℝ → Prop) : Prop where
  n1 : D1 ≠ .nan ∧ D1 ≠ .ninf
  n2 : D2 ≠ .nan ∧ D2 ≠ .ninf
  hit1 : ∀ t, D1 = .fin t → t ≤ 3 / 10 → 0 ≤ t ∧ H1 t
  hit2 : ∀ t, D2 = .fin t → t ≤ 3 / 10 → 0 ≤ t ∧ H2 t
  before1 : ∀ t, 0 ≤ t → t ≤ 3 / 10 → (F.fin t).le D1 → P1 t
  before2 : ∀ t, 0 ≤ t → t ≤ 3 / 10 → (F.fin t).le D2 → P2 t
  order : ∀ t, D2 = .fin t → t ≤ 3 / 10 → ¬ D2.le D1

/-- The first and the second line are near. -/
def Handy (D1 D2 : F) : Prop := ∃ t1 t2, D1 = .fin t1 ∧ t1 ≤ 13 / 100 ∧ D2 = .fin t2 ∧ t2 ≤ 26 / 100

/-- Lines ahead. -/
theorem outlook_up {l1 l2 r c C ε X : ℝ} (hl1 : |l1 - 87 / 1000| ≤ 3 / 10 ^ 8) (hl2 : |l2 - 177 / 1000| ≤ 6 / 10 ^ 8)
    (hX : |r - X| ≤ 3 / 10 ^ 6) (hr0 : 2999 / 1000000 < r) (hr1 : r < l1) (hc : |c - C| ≤ ε) (hC : |C| ≤ 1)
    (hC0 : -(3 / 100000) ≤ C) (hε : ε ≤ 1 / 1000) :
    Outlook (lineAt (arith exp) (.fin l1) (.fin r) (.fin c)) (lineAt (arith exp) (.fin l2) (.fin r) (.fin c)) 
      (fun t => |X + t * C - 87 / 1000| ≤ 3 / 10 * ε + 13 / 1000000) (fun t => |X + t * C - 177 / 1000| ≤ 3 / 10 * ε + 13 / 1000000)
      (fun t => 3 / 1000 - (3 / 10 * ε + 13 / 1000000) ≤ X + t * C ∧ X + t * C ≤ 87 / 1000 + (3 / 10 * ε + 13 / 1000000))
      (fun t => 3 / 1000 - (3 / 10 * ε + 13 / 1000000) ≤ X + t * C ∧ X + t * C ≤ 177 / 1000 + (3 / 10 * ε + 13 / 1000000)) ∧
    (69 / 100 ≤ c →
      Handy (lineAt (arith exp) (.fin l1) (.fin r) (.fin c)) (lineAt (arith exp) (.fin l2) (.fin r) (.fin c))) := by
  have hl1' := abs_le.1 hl1
  have hl2' := abs_le.1 hl2
  have hX' := abs_le.1 hX
  have hc' := abs_le.1 hc
  have hC' := abs_le.1 hC
  norm_num at hl1' hl2' hX'
  have hε0 : 0 ≤ ε := (abs_nonneg _).trans hc
  have hc2 : |c| ≤ 2 := by rw [abs_le]; constructor <;> linarith
  obtain ⟨a1, a2, a3⟩ := line_pos (exp := exp) (l := l1) (r := r) (by linarith) (by linarith) hc hc2
  obtain ⟨b1, b2, b3⟩ := line_pos (exp := exp) (l := l2) (r := r) (by linarith) (by linarith) hc hc2
  have low : ∀ t, 0 ≤ t → t ≤ 3 / 10 → 3 / 1000 - (3 / 10 * ε + 13 / 1000000) ≤ X + t * C := by
    intro t t0 t1
    have tε := mul_le_mul_of_nonneg_right t1 hε0
    have tC := mul_le_mul_of_nonneg_left hC0 t0
    linarith
  refine ⟨⟨⟨lineAt_ne_nan _ _ _ _, lineAt_ne_ninf _ _ _ _⟩, ⟨lineAt_ne_nan _ _ _ _, lineAt_ne_ninf _ _ _ _⟩, ?_, ?_, ?_, ?_, ?_⟩, ?_⟩
  · intro t ht t1
    obtain ⟨t0, h⟩ := a1 t ht
    have h' := abs_le.1 h
    norm_num at h'
    have tε := mul_le_mul_of_nonneg_right t1 hε0
    refine ⟨t0, ?_⟩
    show |X + t * C - _| ≤ _
    rw [abs_le]
    constructor <;> linarith
  · intro t ht t1
    obtain ⟨t0, h⟩ := b1 t ht
    have h' := abs_le.1 h
    norm_num at h'
    have tε := mul_le_mul_of_nonneg_right t1 hε0
    refine ⟨t0, ?_⟩
    show |X + t * C - _| ≤ _
    rw [abs_le]
    constructor <;> linarith
  · intro t t0 t1 h
    have := a2 t t0 (by linarith) h
    norm_num at this
    refine ⟨low t t0 t1, ?_⟩
    have tε := mul_le_mul_of_nonneg_right t1 hε0
    show X + t * C ≤ _
    linarith
  · intro t t0 t1 h
    have := b2 t t0 (by linarith) h
    norm_num at this
    refine ⟨low t t0 t1, ?_⟩
    have tε := mul_le_mul_of_nonneg_right t1 hε0
    show X + t * C ≤ _
    linarith
  · intro t ht t1 hle
    obtain ⟨t0, h⟩ := b1 t ht
    rw [ht] at hle
    have := a2 t t0 (by linarith) hle
    have h' := abs_le.1 h
    norm_num at h' this
    have tε := mul_le_mul_of_nonneg_right t1 hε0
    linarith
  · intro h69
    obtain ⟨t1, e1, h1⟩ := a3 h69
    obtain ⟨t2, e2, h2⟩ := b3 h69
    have p1 := (a1 t1 e1).1
    have p2 := (b1 t2 e2).1
    norm_num at h1 h2
    have q1 := mul_le_mul_of_nonneg_left h69 p1
    have q2 := mul_le_mul_of_nonneg_left h69 p2
    refine ⟨t1, t2, e1, ?_, e2, ?_⟩ <;> linarith

/-- Lines behind the origin: the mirror image. -/
theorem outlook_down {l1 l2 r c C ε X : ℝ} (hl1 : |l1 - 3 / 1000| ≤ 1 / 10 ^ 8) (hl2 : |l2 + 87 / 1000| ≤ 3 / 10 ^ 8)
    (hX : |r - X| ≤ 3 / 10 ^ 6) (hr0 : l1 < r) (hr1 : r < 87001 / 1000000) (hc : |c - C| ≤ ε) (hC : |C| ≤ 1)
    (hC0 : C ≤ 3 / 100000) (hε : ε ≤ 1 / 1000) :
    Outlook (lineAt (arith exp) (.fin l1) (.fin r) (.fin c)) (lineAt (arith exp) (.fin l2) (.fin r) (.fin c)) 
      (fun t => |X + t * C - 3 / 1000| ≤ 3 / 10 * ε + 13 / 1000000) (fun t => |X + t * C - -87 / 1000| ≤ 3 / 10 * ε + 13 / 1000000)
      (fun t => 3 / 1000 - (3 / 10 * ε + 13 / 1000000) ≤ X + t * C ∧ X + t * C ≤ 87 / 1000 + (3 / 10 * ε + 13 / 1000000))
      (fun t => -87 / 1000 - (3 / 10 * ε + 13 / 1000000) ≤ X + t * C ∧ X + t * C ≤ 87 / 1000 + (3 / 10 * ε + 13 / 1000000)) ∧
    (c ≤ -(69 / 100) →
      Handy (lineAt (arith exp) (.fin l1) (.fin r) (.fin c)) (lineAt (arith exp) (.fin l2) (.fin r) (.fin c))) := by
  have hl1' := abs_le.1 hl1
  have hl2' := abs_le.1 hl2
  have hX' := abs_le.1 hX
  have hc' := abs_le.1 hc
  have hC' := abs_le.1 hC
  norm_num at hl1' hl2' hX'
  have hε0 : 0 ≤ ε := (abs_nonneg _).trans hc
  have hc2 : |-c| ≤ 2 := by rw [abs_le]; constructor <;> linarith
  have hcn : |-c - -C| ≤ ε := by rw [show -c - -C = -(c - C) by ring, abs_neg]; exact hc
  obtain ⟨a1, a2, a3⟩ := line_pos (exp := exp) (l := -l1) (r := -r) (by linarith) (by linarith) hcn hc2
  obtain ⟨b1, b2, b3⟩ := line_pos (exp := exp) (l := -l2) (r := -r) (by linarith) (by linarith) hcn hc2
  rw [lineAt_neg] at a1 a2 a3 b1 b2 b3
  have high : ∀ t, 0 ≤ t → t ≤ 3 / 10 → X + t * C ≤ 87 / 1000 + (3 / 10 * ε + 13 / 1000000) := by
    intro t t0 t1
    have tε := mul_le_mul_of_nonneg_right t1 hε0
    have tC := mul_le_mul_of_nonneg_left hC0 t0
    linarith
  refine ⟨⟨⟨lineAt_ne_nan _ _ _ _, lineAt_ne_ninf _ _ _ _⟩, ⟨lineAt_ne_nan _ _ _ _, lineAt_ne_ninf _ _ _ _⟩, ?_, ?_, ?_, ?_, ?_⟩, ?_⟩
  · intro t ht t1
    obtain ⟨t0, h⟩ := a1 t ht
    have h' := abs_le.1 h
    norm_num at h'
    have tε := mul_le_mul_of_nonneg_right t1 hε0
    refine ⟨t0, ?_⟩
    show |X + t * C - _| ≤ _
    rw [abs_le]
    constructor <;> linarith
  · intro t ht t1
    obtain ⟨t0, h⟩ := b1 t ht
    have h' := abs_le.1 h
    norm_num at h'
    have tε := mul_le_mul_of_nonneg_right t1 hε0
    refine ⟨t0, ?_⟩
    show |X + t * C - _| ≤ _
    rw [abs_le]
    constructor <;> linarith
  · intro t t0 t1 h
    have := a2 t t0 (by linarith) h
    norm_num at this
    refine ⟨?_, high t t0 t1⟩
    have tε := mul_le_mul_of_nonneg_right t1 hε0
    show _ ≤ X + t * C
    linarith
  · intro t t0 t1 h
    have := b2 t t0 (by linarith) h
    norm_num at this
    refine ⟨?_, high t t0 t1⟩
    have tε := mul_le_mul_of_nonneg_right t1 hε0
    show _ ≤ X + t * C
    linarith
  · intro t ht t1 hle
    obtain ⟨t0, h⟩ := b1 t ht
    rw [ht] at hle
    have := a2 t t0 (by linarith) hle
    have h' := abs_le.1 h
    norm_num at h' this
    have tε := mul_le_mul_of_nonneg_right t1 hε0
    linarith
  · intro h69
    obtain ⟨t1, e1, h1⟩ := a3 (by linarith)
    obtain ⟨t2, e2, h2⟩ := b3 (by linarith)
    have p1 := (a1 t1 e1).1
    have p2 := (b1 t2 e2).1
    norm_num at h1 h2
    have q1 := mul_le_mul_of_nonneg_left (show 69 / 100 ≤ -c by linarith) p1
    have q2 := mul_le_mul_of_nonneg_left (show 69 / 100 ≤ -c by linarith) p2
    refine ⟨t1, t2, e1, ?_, e2, ?_⟩ <;> linarith

theorem fin_of_le {a : F} {t : ℝ} (n : a ≠ .nan ∧ a ≠ .ninf) (h : a.le (.fin t)) : ∃ s, a = .fin s ∧ s ≤ t := by
  cases a with
  | nan => exact absurd rfl n.1
  | ninf => exact absurd rfl n.2
  | pinf => exact h.elim
  | fin s => exact ⟨s, rfl, h⟩

/-- What is known of the two nearest lines, the nearest belonging to the axis `(H1, H2, P2)` and `(H1', P1')` being the other
axis. -/
def Selected (H1 H2 P2 H1' P1' : ℝ → Prop) (α β : ℝ) : Prop :=
  H1 α ∧ P1' α ∧ ((H2 β ∧ P1' β) ∨ (H1' β ∧ P2 β))

theorem selected_of {D1 D2 D1' D2' : F} {H1 H2 P1 P2 H1' H2' P1' P2' : ℝ → Prop} (hx : Outlook D1 D2 H1 H2 P1 P2)
    (hy : Outlook D1' D2' H1' H2' P1' P2') (hfin : Handy D1 D2 ∨ Handy D1' D2') {b : F} (h1 : D1.le D1')
    (hb : b = D2 ∨ b = D1' ∨ b = D2') (hb0 : D1.le b) (hb2 : b.le D2) (hb1 : b.le D1') :
    ∃ α β, D1 = .fin α ∧ b = .fin β ∧ 0 ≤ α ∧ α ≤ 13 / 100 ∧ α ≤ β ∧ β ≤ 26 / 100 ∧ Selected H1 H2 P2 H1' P1' α β := by
  obtain ⟨α, eα, hα⟩ : ∃ α, D1 = .fin α ∧ α ≤ 13 / 100 := by
    rcases hfin with ⟨t1, t2, e1, l1, -, -⟩ | ⟨t1, t2, e1, l1, -, -⟩
    · exact ⟨t1, e1, l1⟩
    · rw [e1] at h1
      obtain ⟨s, e, hs⟩ := fin_of_le hx.n1 h1
      exact ⟨s, e, hs.trans l1⟩
  have hbn : b ≠ .nan ∧ b ≠ .ninf := by
    rcases hb with rfl | rfl | rfl
    exacts [hx.n2, hy.n1, hy.n2]
  obtain ⟨β, eβ, hβ⟩ : ∃ β, b = .fin β ∧ β ≤ 26 / 100 := by
    rcases hfin with ⟨t1, t2, -, -, e2, l2⟩ | ⟨t1, t2, e1, l1, -, -⟩
    · rw [e2] at hb2
      obtain ⟨s, e, hs⟩ := fin_of_le hbn hb2
      exact ⟨s, e, hs.trans l2⟩
    · rw [e1] at hb1
      obtain ⟨s, e, hs⟩ := fin_of_le hbn hb1
      exact ⟨s, e, by linarith⟩
  have hαβ : α ≤ β := by rw [eα, eβ] at hb0; exact hb0
  obtain ⟨α0, hα1⟩ := hx.hit1 α eα (by linarith)
  have hP : P1' α := hy.before1 α α0 (by linarith) (eα ▸ h1)
  refine ⟨α, β, eα, eβ, α0, hα, hαβ, hβ, hα1, hP, ?_⟩
  rw [eβ] at hb2 hb1
  rcases hb with e | e | e
  · exact Or.inl ⟨(hx.hit2 β (e ▸ eβ) (by linarith)).2, hy.before1 β (by linarith) (by linarith) hb1⟩
  · exact Or.inr ⟨(hy.hit1 β (e ▸ eβ) (by linarith)).2, hx.before2 β (by linarith) (by linarith) hb2⟩
  · exfalso
    refine hy.order β (e ▸ eβ) (by linarith) ?_
    rw [← e, eβ]; exact hb1

/-- The two nearest of four lines. -/
theorem select {dx dy : Dir} {X1 X2 Y1 Y2 : F} {HX1 HX2 PX1 PX2 HY1 HY2 PY1 PY2 : ℝ → Prop} (hx : Outlook X1 X2 HX1 HX2 PX1 PX2)
    (hy : Outlook Y1 Y2 HY1 HY2 PY1 PY2) (hfin : Handy X1 X2 ∨ Handy Y1 Y2) {l : List (Dir × F)}
    (hperm : l.Perm [(dx, X1), (dx, X2), (dy, Y1), (dy, Y2)]) (hs : l.Pairwise (fun a b => a.2.le b.2)) :
    ∃ u v α β r, l = (u, F.fin α) :: (v, F.fin β) :: r ∧ 0 ≤ α ∧ α ≤ 13 / 100 ∧ α ≤ β ∧ β ≤ 26 / 100 ∧
      ((u = dx ∧ Selected HX1 HX2 PX2 HY1 PY1 α β) ∨ (u = dy ∧ Selected HY1 HY2 PY2 HX1 PX1 α β)) := by
  match l, hperm.length_eq with
  | [], h => cases h
  | [_], h => cases h
  | (u, a) :: (v, b) :: r, _ => ?_
  obtain ⟨ha, hs'⟩ := List.pairwise_cons.mp hs
  obtain ⟨hb, -⟩ := List.pairwise_cons.mp hs'
  have refl : ∀ x : F, x ≠ .nan → x.le x := by intro x hx; cases x <;> simp_all [F.le]
  have hab : a.le b := ha (v, b) (by simp)
  have hmem : (u, a) ∈ [(dx, X1), (dx, X2), (dy, Y1), (dy, Y2)] := hperm.mem_iff.mp (by simp)
  simp only [List.mem_cons, Prod.mk.injEq, List.not_mem_nil, or_false] at hmem
  have an : a ≠ .nan ∧ a ≠ .ninf := by
    rcases hmem with ⟨-, rfl⟩ | ⟨-, rfl⟩ | ⟨-, rfl⟩ | ⟨-, rfl⟩
    exacts [hx.n1, hx.n2, hy.n1, hy.n2]
  have hall : ∀ e ∈ [(dx, X1), (dx, X2), (dy, Y1), (dy, Y2)], a.le e.2 := by
    intro e he
    rcases List.mem_cons.mp (hperm.mem_iff.mpr he) with rfl | h
    · exact refl _ an.1
    · exact ha e h
  have aX1 : a.le X1 := hall (dx, X1) (by simp)
  have aY1 : a.le Y1 := hall (dy, Y1) (by simp)
  obtain ⟨α, eα, hα⟩ : ∃ α, a = .fin α ∧ α ≤ 13 / 100 := by
    rcases hfin with ⟨t1, t2, e1, l1, -, -⟩ | ⟨t1, t2, e1, l1, -, -⟩
    · rw [e1] at aX1
      obtain ⟨s, e, hs⟩ := fin_of_le an aX1
      exact ⟨s, e, hs.trans l1⟩
    · rw [e1] at aY1
      obtain ⟨s, e, hs⟩ := fin_of_le an aY1
      exact ⟨s, e, hs.trans l1⟩
  -- the second element among the remaining ones
  have rest : ∀ {e1 e2 e3 : Dir × F}, ((v, b) :: r).Perm [e1, e2, e3] → e1.2 ≠ .nan → e2.2 ≠ .nan → e3.2 ≠ .nan →
      (b = e1.2 ∨ b = e2.2 ∨ b = e3.2) ∧ b.le e1.2 ∧ b.le e2.2 := by
    intro e1 e2 e3 hp n1 n2 n3
    have hm : (v, b) = e1 ∨ (v, b) = e2 ∨ (v, b) = e3 := by simpa using hp.mem_iff.mp (by simp : (v, b) ∈ (v, b) :: r)
    have hbn : b ≠ .nan := by rcases hm with rfl | rfl | rfl <;> assumption
    have hle : ∀ e ∈ [e1, e2, e3], b.le e.2 := by
      intro e he
      rcases List.mem_cons.mp (hp.mem_iff.mpr he) with rfl | h
      · exact refl _ hbn
      · exact hb e h
    refine ⟨?_, hle e1 (by simp), hle e2 (by simp)⟩
    rcases hm with rfl | rfl | rfl <;> simp
  rcases hmem with ⟨hu, hX⟩ | ⟨hu, hX⟩ | ⟨hu, hX⟩ | ⟨hu, hX⟩
  · subst hu hX
    obtain ⟨h1, h2, h3⟩ := rest (List.Perm.cons_inv hperm) hx.n2.1 hy.n1.1 hy.n2.1
    obtain ⟨α, β, e1, e2, h⟩ := selected_of hx hy hfin aY1 h1 hab h2 h3
    rw [e1, e2]
    exact ⟨u, v, α, β, r, rfl, h.1, h.2.1, h.2.2.1, h.2.2.2.1, Or.inl ⟨rfl, h.2.2.2.2⟩⟩
  · exfalso
    exact hx.order α (hX ▸ eα) (by linarith) (hX ▸ aX1)
  · subst hu hX
    have hp' : ((u, a) :: (v, b) :: r).Perm ((u, a) :: [(u, Y2), (dx, X1), (dx, X2)]) := by
      refine hperm.trans ?_
      exact (List.perm_append_comm (l₁ := [(dx, X1), (dx, X2)]) (l₂ := [(u, a), (u, Y2)]))
    obtain ⟨h1, h2, h3⟩ := rest (List.Perm.cons_inv hp') hy.n2.1 hx.n1.1 hx.n2.1
    obtain ⟨α, β, e1, e2, h⟩ := selected_of hy hx hfin.symm aX1 h1 hab h2 h3
    rw [e1, e2]
    exact ⟨u, v, α, β, r, rfl, h.1, h.2.1, h.2.2.1, h.2.2.2.1, Or.inr ⟨rfl, h.2.2.2.2⟩⟩
  · exfalso
    exact hy.order α (hX ▸ eα) (by linarith) (hX ▸ aY1)

end Verif.Proof
