import Verif.Proof.SingleExit
/-!
# How far the two distances of the pose converter are apart: plane geometry
-/
namespace Verif.Proof
open Verif Verif.Spec Verif.Convert Verif.Single Verif.Binary32 Verif.Search Verif.Detect

/-- The direction is at most a little more than 45 degrees away from the normal of the side. -/
def Fronts (C S : ℝ) : Dir → Prop
  | .right => 69 / 100 ≤ C
  | .top => 69 / 100 ≤ S
  | .left => C ≤ -(69 / 100)
  | .bottom => S ≤ -(69 / 100)

theorem cos_wide {t : ℝ} (h1 : -(Real.pi / 4) ≤ t) (h2 : t ≤ Real.pi / 4) : 7 / 10 ≤ Real.cos t := by
  have hp := Real.pi_pos
  have := Real.cos_le_cos_of_nonneg_of_le_pi (abs_nonneg t) (by linarith : Real.pi / 4 ≤ Real.pi) (abs_le.2 ⟨h1, h2⟩)
  rw [Real.cos_abs, Real.cos_pi_div_four] at this
  have : (7 / 5 : ℝ) ≤ √2 := Real.le_sqrt_of_sq_le (by norm_num)
  linarith

theorem octants {θ u : ℝ} {n : ℤ} (h0 : 0 ≤ u) (h1 : u ≤ 1) (h : |θ - 2 * Real.pi * (u + n)| ≤ 3 / 100000) :
    (¬ (1 / 8 ≤ u ∧ u ≤ 7 / 8) → Fronts (Real.cos θ) (Real.sin θ) .right) ∧
    (1 / 8 ≤ u → u < 3 / 8 → Fronts (Real.cos θ) (Real.sin θ) .top) ∧
    (3 / 8 ≤ u → u < 5 / 8 → Fronts (Real.cos θ) (Real.sin θ) .left) ∧
    (5 / 8 ≤ u → u ≤ 7 / 8 → Fronts (Real.cos θ) (Real.sin θ) .bottom) := by
  have hp := Real.pi_pos
  have hc := abs_le.1 ((Real.abs_cos_sub_cos_le θ (2 * Real.pi * (u + n))).trans h)
  have hs := abs_le.1 ((Real.abs_sin_sub_sin_le θ (2 * Real.pi * (u + n))).trans h)
  have e : 2 * Real.pi * (u + n) = 2 * Real.pi * u + n * (2 * Real.pi) := by ring
  rw [e, Real.cos_add_int_mul_two_pi] at hc
  rw [e, Real.sin_add_int_mul_two_pi] at hs
  have m : ∀ {c d : ℝ}, c ≤ d → Real.pi * c ≤ Real.pi * d := fun hh => mul_le_mul_of_nonneg_left hh hp.le
  refine ⟨fun hu => ?_, fun a b => ?_, fun a b => ?_, fun a b => ?_⟩
  · show 69 / 100 ≤ Real.cos θ
    by_cases a : 1 / 8 ≤ u
    · have b : 7 / 8 < u := by
        by_contra hb
        exact hu ⟨a, not_lt.1 hb⟩
      have := cos_wide (t := 2 * Real.pi * u - 2 * Real.pi) (by linarith [m b.le]) (by linarith [m h1])
      rw [Real.cos_sub_two_pi] at this
      linarith
    · have := cos_wide (t := 2 * Real.pi * u) (by linarith [m h0]) (by linarith [m (not_le.1 a).le])
      linarith
  · show 69 / 100 ≤ Real.sin θ
    have := cos_wide (t := Real.pi / 2 - 2 * Real.pi * u) (by linarith [m b.le]) (by linarith [m a])
    rw [Real.cos_pi_div_two_sub] at this
    linarith
  · show Real.cos θ ≤ -(69 / 100)
    have := cos_wide (t := 2 * Real.pi * u - Real.pi) (by linarith [m a]) (by linarith [m b.le])
    rw [Real.cos_sub_pi] at this
    linarith
  · show Real.sin θ ≤ -(69 / 100)
    have := cos_wide (t := Real.pi / 2 - (2 * Real.pi * u - Real.pi)) (by linarith [m b]) (by linarith [m a])
    rw [Real.cos_pi_div_two_sub, Real.sin_sub_pi] at this
    linarith

/-- The trigonometric inequality. -/
theorem gap_trig {C S : ℝ} (hsq : S ^ 2 + C ^ 2 = 1) (hC : 0 ≤ C) (hS : 0 ≤ S) :
    C * (17 / 1000 * S + 332 / 100000) < 97 / 10000 + 268 / 100000 * S := by
  have h1 : S + C ≤ 1415 / 1000 := by nlinarith [sq_nonneg (S - C)]
  have h2 : 2 * (S * C) = 1 - (C - S) ^ 2 := by ring_nf; linarith
  have h3 := sq_nonneg (C - S - 3 / 17)
  nlinarith

/-- The ray enters the next cell and leaves it through its top. -/
theorem gap_front {C S P1 P2 d τ : ℝ} (hsq : S ^ 2 + C ^ 2 = 1) (hC : 69 / 100 ≤ C) (hd : 0 ≤ d) (hτ : τ ≤ 32 / 100000)
    (h1 : |P1 - 87 / 1000| ≤ τ) (h3 : P2 ≤ 87 / 1000 + τ) (hQ : |P2 + d * S - 87 / 1000| ≤ τ)
    (hp : 97 / 10000 ≤ |S * (P1 - 9 / 100) - C * (P2 - 9 / 100)|) : 17 / 1000 ≤ d := by
  have h1' := abs_le.1 h1
  have hQ' := abs_le.1 hQ
  have hS : |S| ≤ 1 := abs_le_one_iff_mul_self_le_one.2 (by nlinarith)
  have hC1 : |C| ≤ 1 := abs_le_one_iff_mul_self_le_one.2 (by nlinarith)
  have hS' := abs_le.1 hS
  have hC' := abs_le.1 hC1
  by_cases hS0 : S ≤ 0
  · exfalso
    have := mul_nonpos_of_nonneg_of_nonpos hd hS0
    have a1 := abs_sub (S * (P1 - 9 / 100)) (C * (P2 - 9 / 100))
    have a2 : |S * (P1 - 9 / 100)| ≤ 332 / 100000 := abs_mul_unit hS (by rw [abs_le]; constructor <;> linarith)
    have a3 : |C * (P2 - 9 / 100)| ≤ 332 / 100000 := abs_mul_unit hC1 (by rw [abs_le]; constructor <;> linarith)
    linarith
  · push Not at hS0
    have b1 : S * (268 / 100000) ≤ S * (9 / 100 - P1) := mul_le_mul_of_nonneg_left (by linarith) hS0.le
    have b2 : S * (9 / 100 - P1) ≤ 332 / 100000 := by
      have := abs_le.1 (abs_mul_unit hS (show |9 / 100 - P1| ≤ 332 / 100000 by rw [abs_le]; constructor <;> linarith))
      exact this.2
    have b3 : 0 ≤ C * (9 / 100 - P2) := mul_nonneg (by linarith) (by linarith)
    have e : S * (P1 - 9 / 100) - C * (P2 - 9 / 100) = C * (9 / 100 - P2) - S * (9 / 100 - P1) := by ring
    rw [e] at hp
    have b4 : 97 / 10000 ≤ C * (9 / 100 - P2) - S * (9 / 100 - P1) := by
      rcases le_abs.1 hp with g | g
      · exact g
      · exfalso; linarith
    by_contra hn
    push Not at hn
    have b5 : d * S ≤ 17 / 1000 * S := mul_le_mul_of_nonneg_right hn.le hS0.le
    have b6 : C * (9 / 100 - P2) ≤ C * (17 / 1000 * S + 332 / 100000) := mul_le_mul_of_nonneg_left (by linarith) (by linarith)
    have := gap_trig hsq (by linarith) hS0.le
    linarith

/-- The ray enters the upper cell, and leaves it through its right side. -/
theorem gap_flank {x y C S a d τ : ℝ} (hsq : S ^ 2 + C ^ 2 = 1) (hC : 69 / 100 ≤ C) (hd : 0 ≤ d) (hτ : τ ≤ 32 / 100000)
    (ha : 7999 / 1000000 < a) (hy : y < 87 / 1000 + 4 / 10 ^ 6) (h1 : |y + a * S - 87 / 1000| ≤ τ)
    (h2 : 3 / 1000 - τ ≤ x + a * C) (h3 : x + a * C ≤ 87 / 1000 + τ)
    (hp : 97 / 10000 ≤ |S * (x + a * C - 9 / 100) - C * (y + a * S - 9 / 100)|) :
    0 < S ∧ (|x + a * C + d * C - 87 / 1000| ≤ τ → 17 / 1000 ≤ d) := by
  have h1' := abs_le.1 h1
  have hS : |S| ≤ 1 := abs_le_one_iff_mul_self_le_one.2 (by nlinarith)
  have hC1 : |C| ≤ 1 := abs_le_one_iff_mul_self_le_one.2 (by nlinarith)
  have hS' := abs_le.1 hS
  have hC' := abs_le.1 hC1
  obtain ⟨P1, hP1⟩ : ∃ P1, P1 = x + a * C := ⟨_, rfl⟩
  obtain ⟨P2, hP2⟩ : ∃ P2, P2 = y + a * S := ⟨_, rfl⟩
  rw [← hP1, ← hP2] at hp
  rw [← hP1] at h2 h3 ⊢
  rw [← hP2] at h1'
  have c1 : |C * (P2 - 9 / 100)| ≤ 332 / 100000 := abs_mul_unit hC1 (by rw [abs_le]; constructor <;> linarith)
  have hS0 : 0 < S := by
    by_contra hn
    push Not at hn
    norm_num at hy
    have s1 : a * -S ≤ 33 / 100000 := by linarith
    have s2 : 7999 / 1000000 * -S ≤ a * -S := mul_le_mul_of_nonneg_right ha.le (by linarith)
    have s3 : |S| ≤ 42 / 1000 := by rw [abs_le]; constructor <;> linarith
    have a1 := abs_sub (S * (P1 - 9 / 100)) (C * (P2 - 9 / 100))
    have a2 : |S * (P1 - 9 / 100)| ≤ 42 / 1000 * (88 / 1000) := by
      rw [abs_mul]
      exact mul_le_mul s3 (by rw [abs_le]; constructor <;> linarith) (abs_nonneg _) (by norm_num)
    linarith
  refine ⟨hS0, fun hQ => ?_⟩
  have hQ' := abs_le.1 hQ
  have c1' := abs_le.1 c1
  have b1 : C * (268 / 100000) ≤ C * (9 / 100 - P2) := mul_le_mul_of_nonneg_left (by linarith) (by linarith)
  have b3 : 0 ≤ S * (9 / 100 - P1) := mul_nonneg hS0.le (by linarith)
  have b4 : 97 / 10000 ≤ S * (9 / 100 - P1) - C * (9 / 100 - P2) := by
    rcases le_abs.1 hp with g | g
    · exfalso; linarith
    · linarith
  by_contra hn
  push Not at hn
  have b5 : d * C ≤ 17 / 1000 * C := mul_le_mul_of_nonneg_right hn.le (by linarith)
  have b6 : S * (9 / 100 - P1) ≤ S * (17 / 1000 * C + 332 / 100000) := mul_le_mul_of_nonneg_left (by linarith) hS0.le
  have := gap_trig (C := S) (S := C) (by linarith) hS0.le (by linarith)
  linarith

/-- A quarter turn about the centre of the first cell. -/
noncomputable def quarterTurn (q : ℝ × ℝ) : ℝ × ℝ := (9 / 100 - q.2, q.1)

def turnDir : Dir → Dir
  | .right => .top
  | .top => .left
  | .left => .bottom
  | .bottom => .right

theorem turn_near {τ : ℝ} {q : ℝ × ℝ} {side : Dir} (h : (room (9 / 100) (6 / 1000) 0 0).nearSide τ q side) :
    (room (9 / 100) (6 / 1000) 0 0).nearSide τ (quarterTurn q) (turnDir side) := by
  cases side <;> simp only [Box.nearSide, room, quarterTurn, turnDir, abs_le] at h ⊢ <;> push_cast at h ⊢ <;> norm_num at h ⊢ <;>
    obtain ⟨⟨h1, h2⟩, h3, h4⟩ := h <;> refine ⟨⟨?_, ?_⟩, ?_, ?_⟩ <;> linarith

theorem turn_extend {τ : ℝ} {q : ℝ × ℝ} {side side' : Dir}
    (h : ((room (9 / 100) (6 / 1000) 0 0).extend (9 / 100) side).nearSide τ q side') :
    ((room (9 / 100) (6 / 1000) 0 0).extend (9 / 100) (turnDir side)).nearSide τ (quarterTurn q) (turnDir side') := by
  cases side <;> cases side' <;> simp only [Box.nearSide, Box.extend, room, quarterTurn, turnDir, abs_le] at h ⊢ <;> push_cast at h ⊢ <;> norm_num at h ⊢ <;>
    obtain ⟨⟨h1, h2⟩, h3, h4⟩ := h <;> refine ⟨⟨?_, ?_⟩, ?_, ?_⟩ <;> linarith

/-- The robot looks to the right. -/
theorem gap_right {x y C S a b τ : ℝ} (hsq : S ^ 2 + C ^ 2 = 1) (hC : 69 / 100 ≤ C) (hτ : τ ≤ 32 / 100000)
    (ha : 7999 / 1000000 < a) (hab : a ≤ b) (hin : ((room (9 / 100) (6 / 1000) 0 0).grow (4 / 10 ^ 6)).inside (x, y)) {side side' : Dir}
    (h : (room (9 / 100) (6 / 1000) 0 0).nearSide τ (x + a * C, y + a * S) side)
    (h' : ((room (9 / 100) (6 / 1000) 0 0).extend (9 / 100) side).nearSide τ (x + b * C, y + b * S) side')
    (hp : 97 / 10000 ≤ |S * (x - 9 / 100) - C * (y - 9 / 100)|) (hq : 97 / 10000 ≤ |S * (x - 9 / 100) - C * y|) :
    17 / 1000 ≤ b - a := by
  simp only [Box.inside, Box.grow, room] at hin
  push_cast at hin
  norm_num at hin
  obtain ⟨⟨i1, i2⟩, i3, i4⟩ := hin
  have hC' : C ≤ 1 := (abs_le.1 (abs_le_one_iff_mul_self_le_one.2 (by nlinarith [sq_nonneg S] : C * C ≤ 1))).2
  have haC : 7999 / 1000000 * (69 / 100) ≤ a * C := mul_le_mul ha.le hC (by norm_num) (by linarith)
  have e1 : S * (x + a * C - 9 / 100) - C * (y + a * S - 9 / 100) = S * (x - 9 / 100) - C * (y - 9 / 100) := by ring
  have e2 : -S * (x + a * C - 9 / 100) - C * (9 / 100 - (y + a * S) - 9 / 100) = -(S * (x - 9 / 100) - C * y) := by ring
  have e3 : x + b * C = x + a * C + (b - a) * C := by ring
  have e4 : y + b * S = y + a * S + (b - a) * S := by ring
  have hd : 0 ≤ b - a := by linarith
  have hdC : 0 ≤ (b - a) * C := mul_nonneg hd (by linarith)
  have hdC' : (b - a) * C ≤ b - a := by
    have := mul_le_mul_of_nonneg_left hC' hd
    linarith
  rw [e3, e4] at h'
  cases side with
  | left =>
    exfalso
    simp only [Box.nearSide, room] at h
    push_cast at h
    have := abs_le.1 h.1
    linarith
  | right =>
    simp only [Box.nearSide, room] at h
    push_cast at h
    norm_num at h
    obtain ⟨h1, h2, h3⟩ := h
    have h1' := abs_le.1 h1
    cases side' <;> simp only [Box.nearSide, Box.extend, room] at h' <;> push_cast at h' <;> norm_num at h' <;> obtain ⟨k1, k2, k3⟩ := h'
    case right => have := abs_le.1 k1; linarith
    case left => have := abs_le.1 k1; linarith
    case top => exact gap_front hsq hC hd hτ h1 (by linarith) k1 (by rw [e1]; exact hp)
    case bottom =>
      refine gap_front (S := -S) (P2 := 9 / 100 - (y + a * S)) (by rw [neg_sq]; exact hsq) hC hd hτ h1 (by linarith) ?_
        (by rw [e2, abs_neg]; exact hq)
      rw [← abs_neg]
      refine le_trans (le_of_eq ?_) k1
      congr 1; ring
  | top =>
    simp only [Box.nearSide, room] at h
    push_cast at h
    norm_num at h
    obtain ⟨h1, h2, h3⟩ := h
    have h1' := abs_le.1 h1
    obtain ⟨hS, G⟩ := gap_flank (x := x) hsq hC hd hτ ha (by norm_num; linarith) h1 (by linarith) (by linarith) (by rw [e1]; exact hp)
    have hdS : 0 ≤ (b - a) * S := mul_nonneg hd hS.le
    have hS' : S ≤ 1 := (abs_le.1 (abs_le_one_iff_mul_self_le_one.2 (by nlinarith [sq_nonneg C] : S * S ≤ 1))).2
    have hdS' : (b - a) * S ≤ b - a := by
      have := mul_le_mul_of_nonneg_left hS' hd
      linarith
    cases side' <;> simp only [Box.nearSide, Box.extend, room] at h' <;> push_cast at h' <;> norm_num at h' <;> obtain ⟨k1, k2, k3⟩ := h'
    case right => exact G k1
    case left => have := abs_le.1 k1; linarith
    case top => have := abs_le.1 k1; linarith
    case bottom => have := abs_le.1 k1; linarith
  | bottom =>
    simp only [Box.nearSide, room] at h
    push_cast at h
    norm_num at h
    obtain ⟨h1, h2, h3⟩ := h
    have h1' := abs_le.1 h1
    have h1n : |9 / 100 - y + a * -S - 87 / 1000| ≤ τ := by
      rw [← abs_neg]
      refine le_trans (le_of_eq ?_) h1
      congr 1; ring
    have e5 : 9 / 100 - y + a * -S = 9 / 100 - (y + a * S) := by ring
    obtain ⟨hS, G⟩ := gap_flank (x := x) (S := -S) (y := 9 / 100 - y) (by rw [neg_sq]; exact hsq) hC hd hτ ha (by norm_num; linarith) h1n (by linarith)
      (by linarith) (by rw [e5, e2, abs_neg]; exact hq)
    have hdS : 0 ≤ (b - a) * -S := mul_nonneg hd hS.le
    have hS' : S * S ≤ 1 := by nlinarith [sq_nonneg C]
    have hS'' := (abs_le.1 (abs_le_one_iff_mul_self_le_one.2 hS')).1
    have hdS' : (b - a) * -S ≤ b - a := by
      have := mul_le_mul_of_nonneg_left (by linarith : -S ≤ 1) hd
      linarith
    cases side' <;> simp only [Box.nearSide, Box.extend, room] at h' <;> push_cast at h' <;> norm_num at h' <;> obtain ⟨k1, k2, k3⟩ := h'
    case right => exact G k1
    case left => have := abs_le.1 k1; linarith
    case top => have := abs_le.1 k1; linarith
    case bottom => have := abs_le.1 k1; linarith

/-- The robot looks to any side. -/
theorem gap_any {x y C S a b τ : ℝ} (hsq : S ^ 2 + C ^ 2 = 1) (hτ : τ ≤ 32 / 100000)
    (ha : 7999 / 1000000 < a) (hab : a ≤ b) (hin : ((room (9 / 100) (6 / 1000) 0 0).grow (4 / 10 ^ 6)).inside (x, y)) {side side' facing : Dir}
    (hf : Fronts C S facing)
    (h : (room (9 / 100) (6 / 1000) 0 0).nearSide τ (x + a * C, y + a * S) side)
    (h' : ((room (9 / 100) (6 / 1000) 0 0).extend (9 / 100) side).nearSide τ (x + b * C, y + b * S) side')
    (hp : ∀ q, pillarsAt (9 / 100) 0 0 facing q → 97 / 10000 ≤ |S * (x - q.1) - C * (y - q.2)|) :
    17 / 1000 ≤ b - a := by
  have insideTurn : ∀ {q : ℝ × ℝ}, ((room (9 / 100) (6 / 1000) 0 0).grow (4 / 10 ^ 6)).inside q →
      ((room (9 / 100) (6 / 1000) 0 0).grow (4 / 10 ^ 6)).inside (quarterTurn q) := by
    intro q hq
    simp only [Box.inside, Box.grow, room, quarterTurn] at hq ⊢
    push_cast at hq ⊢
    norm_num at hq ⊢
    obtain ⟨⟨i1, i2⟩, i3, i4⟩ := hq
    refine ⟨⟨?_, ?_⟩, ?_, ?_⟩ <;> linarith
  cases facing with
  | right =>
    exact gap_right hsq hf hτ ha hab hin h h' (hp (9 / 100, 9 / 100) ⟨by norm_num, .inr (by norm_num)⟩)
      (by simpa using hp (9 / 100, 0) ⟨by norm_num, .inl (by norm_num)⟩)
  | bottom =>
    have hf : S ≤ -(69 / 100) := hf
    have g := turn_near h
    have g' := turn_extend h'
    have p1 := hp (9 / 100, 0) ⟨by norm_num, .inr (by norm_num)⟩
    have p2 := hp (0, 0) ⟨by norm_num, .inl (by norm_num)⟩
    refine gap_right (x := 9 / 100 - y) (y := x) (C := -S) (S := C) (by rw [neg_sq]; linarith) (by linarith) hτ ha hab (insideTurn hin)
      (side := turnDir side) (side' := turnDir side') ?_ ?_ ?_ ?_
    · simp only [quarterTurn] at g
      convert g using 2; ring
    · simp only [quarterTurn] at g'
      convert g' using 2; ring
    · refine p1.trans (le_of_eq ?_); congr 1; ring
    · refine p2.trans (le_of_eq ?_); congr 1; ring
  | left =>
    have hf : C ≤ -(69 / 100) := hf
    have g := turn_near (turn_near h)
    have g' := turn_extend (turn_extend h')
    have p1 := hp (0, 0) ⟨by norm_num, .inl (by norm_num)⟩
    have p2 := hp (0, 9 / 100) ⟨by norm_num, .inr (by norm_num)⟩
    refine gap_right (x := 9 / 100 - x) (y := 9 / 100 - y) (C := -C) (S := -S) (by rw [neg_sq, neg_sq]; linarith) (by linarith) hτ ha hab
      (insideTurn (insideTurn hin)) (side := turnDir (turnDir side)) (side' := turnDir (turnDir side')) ?_ ?_ ?_ ?_
    · simp only [quarterTurn] at g
      convert g using 2 <;> ring
    · simp only [quarterTurn] at g'
      convert g' using 2 <;> ring
    · refine p1.trans (le_of_eq ?_); congr 1; ring
    · refine p2.trans (le_of_eq ?_); congr 1; ring
  | top =>
    have hf : 69 / 100 ≤ S := hf
    have g := turn_near (turn_near (turn_near h))
    have g' := turn_extend (turn_extend (turn_extend h'))
    have p1 := hp (0, 9 / 100) ⟨by norm_num, .inl (by norm_num)⟩
    have p2 := hp (9 / 100, 9 / 100) ⟨by norm_num, .inr (by norm_num)⟩
    have hin3 := insideTurn (insideTurn (insideTurn hin))
    refine gap_right (x := y) (y := 9 / 100 - x) (C := S) (S := -C) (by rw [neg_sq]; linarith) hf hτ ha hab ?_
      (side := turnDir (turnDir (turnDir side))) (side' := turnDir (turnDir (turnDir side'))) ?_ ?_ ?_ ?_
    · simp only [quarterTurn] at hin3
      convert hin3 using 2; ring
    · simp only [quarterTurn] at g
      convert g using 2 <;> ring
    · simp only [quarterTurn] at g'
      convert g' using 2 <;> ring
    · refine p1.trans (le_of_eq ?_); congr 1; ring
    · refine p2.trans (le_of_eq ?_); congr 1; ring

end Verif.Proof
