import Verif.Proof.SingleGap
import Verif.Props.SingleConvert
/-!
# C130: the two distances of a returned wall are far apart
-/
namespace Verif.Props
open Verif Verif.Spec Verif.Convert Verif.Single Verif.Binary32 Verif.Search Verif.Detect Verif.Proof

variable {exp : F → F}

/-- The line of sight keeps away from both pillars of a side that the robot faces. -/
theorem checked {L : Lib} {ε θ px py : ℝ} (hx : |px| ≤ 11) (hy : |py| ≤ 11) (hθ : |θ| ≤ 100) (ht : TrigNear L ε θ)
    (hε : ε ≤ 1 / 1000) {W : Nat} {sort : List (Dir × F) → List (Dir × F)} (info : WallInfo)
    (h : (Finder.default (arith exp)).convert (arith exp) L W sort (.fin px) (.fin py) (.fin θ) = some info) {i j : Int} (hi : 0 ≤ i)
    (hj : 0 ≤ j) (hin : ((room (9 / 100) (6 / 1000) i j).grow (4 / 10 ^ 6)).inside (px, py)) :
    ∃ facing, Fronts (Real.cos θ) (Real.sin θ) facing ∧ ∀ q, pillarsAt (9 / 100) i j facing q →
      1 / 100 - ε / 5 - 8 / 10 ^ 6 ≤ lineDist ⟨px, py, θ⟩ q := by
  obtain ⟨s, ir, il, p1, p2, n1, n2, hf, b1, b2, b3, b4, b5, b6, b7⟩ := finder_default (exp := exp)
  have hf90 : (Finder.default (arith exp)).iSquareWidth = 90 := by rw [hf]
  simp only [Box.inside, Box.grow, room] at hin
  norm_num at hin
  obtain ⟨⟨x1, x2⟩, y1, y2⟩ := hin
  obtain ⟨rx, i', ex, bx, -, -, zx⟩ := remquo_near (exp := exp) hf90 hx
  obtain ⟨ry, j', ey, by', -, -, zy⟩ := remquo_near (exp := exp) hf90 hy
  obtain rfl := zx i hi (by linarith) (by linarith)
  obtain rfl := zy j hj (by linarith) (by linarith)
  obtain ⟨hn, -⟩ := finder_some hf ex ey h
  obtain ⟨sn, c, es, ec, bs, bc⟩ := ht
  obtain ⟨u, n, er, hu0, hu1, hun⟩ := rotation_near (exp := exp) hθ
  have hε0 : 0 ≤ ε := (abs_nonneg _).trans bs
  rw [hf] at hn
  have z : |(0:ℝ) - 0| ≤ 1 / 10 ^ 8 := by norm_num
  have D : ∀ {a b A B : ℝ}, |a - A| ≤ 1 / 10 ^ 8 → |b - B| ≤ 1 / 10 ^ 8 → (A = 0 ∨ A = 9 / 100) → (B = 0 ∨ B = 9 / 100) →
      ∃ d, (Arith.sub (arith exp) ((arith exp).mul (L.sin (.fin θ)) ((arith exp).sub (.fin rx) (.fin a)))
        ((arith exp).mul (L.cos (.fin θ)) ((arith exp).sub (.fin ry) (.fin b)))).abs = .fin d ∧
        (ir ≤ d → 1 / 100 - ε / 5 - 8 / 10 ^ 6 ≤
          |Real.sin θ * (px - 9 / 100 * i' - A) - Real.cos θ * (py - 9 / 100 * j' - B)|) := by
    intro a b A B ha hb hA hB
    rw [es, ec]
    obtain ⟨d, e, hd⟩ := pillar_dist (exp := exp) hε0 hε bs bc (Real.abs_sin_le_one θ) (Real.abs_cos_le_one θ) bx by' ha hb
      (by rw [abs_le]; rcases hA with rfl | rfl <;> constructor <;> linarith)
      (by rw [abs_le]; rcases hB with rfl | rfl <;> constructor <;> linarith)
    refine ⟨d, e, fun hle => ?_⟩
    have b2' := abs_le.1 b2
    have hd' := abs_le.1 hd
    norm_num at b2' hd' ⊢
    linarith
  have fin' : ∀ {a1 c1 a2 c2 A1 B1 A2 B2 : ℝ}, |a1 - A1| ≤ 1 / 10 ^ 8 → |c1 - B1| ≤ 1 / 10 ^ 8 → (A1 = 0 ∨ A1 = 9 / 100) →
      (B1 = 0 ∨ B1 = 9 / 100) → |a2 - A2| ≤ 1 / 10 ^ 8 → |c2 - B2| ≤ 1 / 10 ^ 8 → (A2 = 0 ∨ A2 = 9 / 100) → (B2 = 0 ∨ B2 = 9 / 100) →
      Finder.pillars ⟨90, .fin s, .fin ir, .fin il, .fin p1, .fin p2, .fin n1, .fin n2⟩ (.fin u) =
        ((.fin a1, .fin c1), (.fin a2, .fin c2)) → ∀ q : ℝ × ℝ,
      ((q.1 = 9 / 100 * i' + A1 ∧ q.2 = 9 / 100 * j' + B1) ∨ (q.1 = 9 / 100 * i' + A2 ∧ q.2 = 9 / 100 * j' + B2)) →
      1 / 100 - ε / 5 - 8 / 10 ^ 6 ≤ lineDist ⟨px, py, θ⟩ q := by
    intro a1 c1 a2 c2 A1 B1 A2 B2 h1 h2 h3 h4 h5 h6 h7 h8 hp q hq
    obtain ⟨d1, e1, k1⟩ := D h1 h2 h3 h4
    obtain ⟨d2, e2, k2⟩ := D h5 h6 h7 h8
    have hpp : Finder.pillars ⟨90, .fin s, .fin ir, .fin il, .fin p1, .fin p2, .fin n1, .fin n2⟩ (rotation (arith exp) (.fin θ)) =
        ((.fin a1, .fin c1), (.fin a2, .fin c2)) := by rw [er]; exact hp
    obtain ⟨m1, m2⟩ := (near_two (exp := exp) (L := L) hpp e1 e2 rfl).1 hn
    unfold lineDist
    rcases hq with ⟨g1, g2⟩ | ⟨g1, g2⟩
    · refine (k1 m1).trans (le_of_eq ?_)
      rw [g1, g2]; congr 1; ring
    · refine (k2 m2).trans (le_of_eq ?_)
      rw [g1, g2]; congr 1; ring
  obtain ⟨o1, o2, o3, o4⟩ := octants hu0 hu1 hun
  by_cases c1 : 1 / 8 ≤ u ∧ u ≤ 7 / 8
  · have c1' : ¬ ¬ ((F.fin (1 / 8)).le (.fin u) ∧ (F.fin u).le (.fin (7 / 8))) := not_not.2 c1
    by_cases c2 : u < 3 / 8
    · refine ⟨.top, o2 c1.1 c2, fun q hq => fin' b1 b1 (.inr rfl) (.inr rfl) z b1 (.inl rfl) (.inr rfl) ?_ q ?_⟩
      · unfold Finder.pillars
        rw [if_neg c1', if_pos (show (F.fin u).lt (.fin (3 / 8)) from c2)]
      · obtain ⟨g, g' | g'⟩ := hq
        · exact .inr ⟨by rw [g']; ring, by rw [g]; ring⟩
        · exact .inl ⟨by rw [g']; ring, by rw [g]; ring⟩
    · by_cases c3 : u < 5 / 8
      · refine ⟨.left, o3 (not_lt.1 c2) c3, fun q hq => fin' z b1 (.inl rfl) (.inr rfl) z z (.inl rfl) (.inl rfl) ?_ q ?_⟩
        · unfold Finder.pillars
          rw [if_neg c1', if_neg (show ¬ (F.fin u).lt (.fin (3 / 8)) from c2), if_pos (show (F.fin u).lt (.fin (5 / 8)) from c3)]
        · obtain ⟨g, g' | g'⟩ := hq
          · exact .inr ⟨by rw [g]; ring, by rw [g']; ring⟩
          · exact .inl ⟨by rw [g]; ring, by rw [g']; ring⟩
      · refine ⟨.bottom, o4 (not_lt.1 c3) c1.2, fun q hq => fin' z z (.inl rfl) (.inl rfl) b1 z (.inr rfl) (.inl rfl) ?_ q ?_⟩
        · unfold Finder.pillars
          rw [if_neg c1', if_neg (show ¬ (F.fin u).lt (.fin (3 / 8)) from c2), if_neg (show ¬ (F.fin u).lt (.fin (5 / 8)) from c3)]
        · obtain ⟨g, g' | g'⟩ := hq
          · exact .inl ⟨by rw [g']; ring, by rw [g]; ring⟩
          · exact .inr ⟨by rw [g']; ring, by rw [g]; ring⟩
  · refine ⟨.right, o1 c1, fun q hq => fin' b1 z (.inr rfl) (.inl rfl) b1 b1 (.inr rfl) (.inr rfl) ?_ q ?_⟩
    · unfold Finder.pillars
      rw [if_pos (show ¬ ((F.fin (1 / 8)).le (.fin u) ∧ (F.fin u).le (.fin (7 / 8))) from c1)]
    · obtain ⟨g, g' | g'⟩ := hq
      · exact .inl ⟨by rw [g]; ring, by rw [g']; ring⟩
      · exact .inr ⟨by rw [g]; ring, by rw [g']; ring⟩

/-- A cell moved to the origin. -/
theorem near_moved {τ x y : ℝ} {i j : Int} {side : Dir} (h : (room (9 / 100) (6 / 1000) i j).nearSide τ (x, y) side) :
    (room (9 / 100) (6 / 1000) 0 0).nearSide τ (x - 9 / 100 * i, y - 9 / 100 * j) side := by
  cases side <;> simp only [Box.nearSide, room, abs_le] at h ⊢ <;> push_cast <;>
    obtain ⟨⟨h1, h2⟩, h3, h4⟩ := h <;> refine ⟨⟨?_, ?_⟩, ?_, ?_⟩ <;> linarith

theorem extended_moved {τ x y : ℝ} {i j : Int} {side side' : Dir}
    (h : ((room (9 / 100) (6 / 1000) i j).extend (9 / 100) side).nearSide τ (x, y) side') :
    ((room (9 / 100) (6 / 1000) 0 0).extend (9 / 100) side).nearSide τ (x - 9 / 100 * i, y - 9 / 100 * j) side' := by
  cases side <;> cases side' <;> simp only [Box.nearSide, Box.extend, room, abs_le] at h ⊢ <;> push_cast <;>
    obtain ⟨⟨h1, h2⟩, h3, h4⟩ := h <;> refine ⟨⟨?_, ?_⟩, ?_, ?_⟩ <;> linarith

/-- **C130.** The distances that are expected with and without the wall differ by at least 17 mm. -/
theorem C130_gap {L : Lib} {ε θ px py : ℝ} (hx : |px| ≤ 11) (hy : |py| ≤ 11) (hθ : |θ| ≤ 100) (ht : TrigNear L ε θ)
    (hε : ε ≤ 1 / 1000) {W : Nat} (hW : Supported W) {sort : List (Dir × F) → List (Dir × F)} (hs : Sorts sort) (info : WallInfo)
    (h : (Finder.default (arith exp)).convert (arith exp) L W sort (.fin px) (.fin py) (.fin θ) = some info) :
    Valid W info.coord ∧ ∃ a b, info.existing = .fin a ∧ info.notExisting = .fin b ∧ 7999 / 1000000 < a ∧ a + 17 / 1000 ≤ b ∧
      b ≤ 26 / 100 := by
  obtain ⟨i, j, side, a, b, hi, hj, hin, hv, -, ea, eb, ha, -, hab, hb, hn, side', hn'⟩ := C129_wall hx hy hθ ht hε hW hs info h
  refine ⟨hv, a, b, ea, eb, ha, ?_, hb⟩
  obtain ⟨facing, hf, hp⟩ := checked hx hy hθ ht hε info h hi hj hin
  have hε0 : 0 ≤ ε := by
    obtain ⟨sn, c, -, -, bs, -⟩ := ht
    exact (abs_nonneg _).trans bs
  have := gap_any (x := px - 9 / 100 * i) (y := py - 9 / 100 * j) (C := Real.cos θ) (S := Real.sin θ) (a := a) (b := b)
    (τ := 3 / 10 * ε + 13 / 1000000) (Real.sin_sq_add_cos_sq θ) (by linarith) ha hab ?_ (side := side) (side' := side') hf ?_ ?_ ?_
  · linarith
  · simp only [Box.inside, Box.grow, room] at hin ⊢
    push_cast
    obtain ⟨⟨h1, h2⟩, h3, h4⟩ := hin
    refine ⟨⟨?_, ?_⟩, ?_, ?_⟩ <;> linarith
  · have := near_moved (show (room (9 / 100) (6 / 1000) i j).nearSide (3 / 10 * ε + 13 / 1000000)
      (px + a * Real.cos θ, py + a * Real.sin θ) side from hn)
    convert this using 2 <;> ring
  · have := extended_moved (show ((room (9 / 100) (6 / 1000) i j).extend (9 / 100) side).nearSide (3 / 10 * ε + 13 / 1000000)
      (px + b * Real.cos θ, py + b * Real.sin θ) side' from hn')
    convert this using 2 <;> ring
  · intro q hq
    have g := hp (q.1 + 9 / 100 * i, q.2 + 9 / 100 * j) (by
      obtain ⟨qx, qy⟩ := q
      cases facing <;> simp only [pillarsAt] at hq ⊢ <;> obtain ⟨g, g' | g'⟩ := hq <;> rw [g, g'] <;> push_cast
      all_goals first
        | exact ⟨by ring1, .inl (by ring1)⟩
        | exact ⟨by ring1, .inr (by ring1)⟩)
    unfold lineDist at g
    have e : Real.sin θ * (px - 9 / 100 * i - q.1) - Real.cos θ * (py - 9 / 100 * j - q.2) =
        Real.sin θ * (px - (q.1 + 9 / 100 * i)) - Real.cos θ * (py - (q.2 + 9 / 100 * j)) := by ring
    rw [e]
    refine le_trans ?_ g
    norm_num
    linarith

end Verif.Props
