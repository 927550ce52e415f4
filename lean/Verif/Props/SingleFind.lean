import Verif.Props.SingleConvert
/-!
# C129: every wall that should be seen is seen, in single precision
-/
namespace Verif.Props
open Verif Verif.Spec Verif.Convert Verif.Single Verif.Binary32 Verif.Search Verif.Detect Verif.Proof

variable {exp : F → F}

/-- The exact ray leaves the room near the point where the computed one does, through the same side only. -/
theorem exit_of {θ px py τ α : ℝ} {i j : Int} (hτ0 : 0 < τ) (hτ : τ ≤ 32 / 100000) (hα : 0 ≤ α)
    (hin : ((room (9 / 100) (6 / 1000) i j).grow (-(2 * τ))).inside (px, py))
    (hp : ∀ q, pillarOf (9 / 100) i j q → 1 / 100 ≤ lineDist ⟨px, py, θ⟩ q) {u : Dir}
    (hu : (room (9 / 100) (6 / 1000) i j).nearSide τ (ray ⟨px, py, θ⟩ α) u) :
    ∃ a, LeavesAt (room (9 / 100) (6 / 1000) i j) ⟨px, py, θ⟩ a ∧ |α - a| ≤ 15 * τ ∧
      ∀ side, (room (9 / 100) (6 / 1000) i j).onSide (ray ⟨px, py, θ⟩ a) side → side = u := by
  simp only [Box.inside, Box.grow, room] at hin
  obtain ⟨⟨x0, x1⟩, y0, y1⟩ := hin
  have sq := Real.sin_sq_add_cos_sq θ
  have sq' : Real.cos θ ^ 2 + Real.sin θ ^ 2 = 1 := by rw [add_comm]; exact sq
  -- the four pillars
  have P : ∀ {A B : ℝ}, (A = i * (9 / 100) ∨ A = (i + 1) * (9 / 100)) → (B = j * (9 / 100) ∨ B = (j + 1) * (9 / 100)) →
      1 / 100 ≤ |Real.sin θ * (px - A) - Real.cos θ * (py - B)| := fun hA hB => hp (_, _) ⟨hA, hB⟩
  -- a coordinate between its ends
  have between : ∀ {lo hi v w t a : ℝ}, 0 ≤ t → t < a → lo < v → v < hi → lo < v + a * w → v + a * w < hi →
      lo < v + t * w ∧ v + t * w < hi := by
    intro lo hi v w t a t0 ta h1 h2 h3 h4
    rcases le_or_gt 0 w with hw | hw
    · have k1 := mul_le_mul_of_nonneg_right ta.le hw
      have k2 := mul_nonneg t0 hw
      constructor <;> linarith
    · have k1 := mul_le_mul_of_nonpos_right ta.le hw.le
      have k2 := mul_nonpos_of_nonneg_of_nonpos t0 hw.le
      constructor <;> linarith
  cases u with
  | right =>
    simp only [Box.nearSide, room, ray] at hu
    obtain ⟨h1, h2, h3⟩ := hu
    obtain ⟨hC, a, a0, hit, hd, k1, k2⟩ := exit_num (x := px) (y := py) (x1 := (i + 1) * (9 / 100) - 6 / 1000 / 2) (y0 := j * (9 / 100) + 6 / 1000 / 2)
      (y1 := (j + 1) * (9 / 100) - 6 / 1000 / 2) (C := Real.cos θ) (S := Real.sin θ) hτ0 hτ (by linarith) hα (by ring) h1 h2 h3 sq
      (by
        have := P (.inr rfl) (.inr rfl)
        convert this using 3 <;> ring)
      (by
        have := P (.inr rfl) (.inl rfl)
        convert this using 3 <;> ring)
    refine ⟨a, ⟨a0.le, fun t t0 ta => ?_, fun h => ?_⟩, hd, fun side h => ?_⟩
    · have k := mul_lt_mul_of_pos_right ta hC
      have k' := mul_nonneg t0 hC.le
      refine ⟨⟨?_, ?_⟩, between t0 ta ?_ ?_ k1 k2⟩ <;> simp only [room, ray] <;> linarith
    · simp only [Box.inside, room, ray] at h; linarith [h.1.2]
    · cases side <;> simp only [Box.onSide, room, ray] at h <;> first | rfl | (exfalso; linarith [h.1])
  | left =>
    simp only [Box.nearSide, room, ray] at hu
    obtain ⟨h1, h2, h3⟩ := hu
    obtain ⟨hC, a, a0, hit, hd, k1, k2⟩ := exit_num (x := -px) (y := py) (x1 := -(i * (9 / 100) + 6 / 1000 / 2)) (y0 := j * (9 / 100) + 6 / 1000 / 2)
      (y1 := (j + 1) * (9 / 100) - 6 / 1000 / 2) (C := -Real.cos θ) (S := Real.sin θ) hτ0 hτ (by linarith) hα (by ring)
      (by rw [← abs_neg]; convert h1 using 2; ring) h2 h3 (by rw [neg_sq]; exact sq)
      (by
        have := P (.inl rfl) (.inr rfl)
        rw [← abs_neg] at this
        convert this using 2; ring)
      (by
        have := P (.inl rfl) (.inl rfl)
        rw [← abs_neg] at this
        convert this using 2; ring)
    refine ⟨a, ⟨a0.le, fun t t0 ta => ?_, fun h => ?_⟩, hd, fun side h => ?_⟩
    · have k := mul_lt_mul_of_pos_right ta hC
      have k' := mul_nonneg t0 hC.le
      refine ⟨⟨?_, ?_⟩, between t0 ta ?_ ?_ k1 k2⟩ <;> simp only [room, ray] <;> linarith
    · simp only [Box.inside, room, ray] at h; linarith [h.1.1]
    · cases side <;> simp only [Box.onSide, room, ray] at h <;> first | rfl | (exfalso; linarith [h.1])
  | top =>
    simp only [Box.nearSide, room, ray] at hu
    obtain ⟨h1, h2, h3⟩ := hu
    obtain ⟨hC, a, a0, hit, hd, k1, k2⟩ := exit_num (x := py) (y := px) (x1 := (j + 1) * (9 / 100) - 6 / 1000 / 2) (y0 := i * (9 / 100) + 6 / 1000 / 2)
      (y1 := (i + 1) * (9 / 100) - 6 / 1000 / 2) (C := Real.sin θ) (S := Real.cos θ) hτ0 hτ (by linarith) hα (by ring) h1 h2 h3 sq'
      (by
        have := P (.inr rfl) (.inr rfl)
        rw [← abs_neg] at this
        convert this using 2; ring)
      (by
        have := P (.inl rfl) (.inr rfl)
        rw [← abs_neg] at this
        convert this using 2; ring)
    refine ⟨a, ⟨a0.le, fun t t0 ta => ?_, fun h => ?_⟩, hd, fun side h => ?_⟩
    · have k := mul_lt_mul_of_pos_right ta hC
      have k' := mul_nonneg t0 hC.le
      refine ⟨between t0 ta ?_ ?_ k1 k2, ⟨?_, ?_⟩⟩ <;> simp only [room, ray] <;> linarith
    · simp only [Box.inside, room, ray] at h; linarith [h.2.2]
    · cases side <;> simp only [Box.onSide, room, ray] at h <;> first | rfl | (exfalso; linarith [h.1])
  | bottom =>
    simp only [Box.nearSide, room, ray] at hu
    obtain ⟨h1, h2, h3⟩ := hu
    obtain ⟨hC, a, a0, hit, hd, k1, k2⟩ := exit_num (x := -py) (y := px) (x1 := -(j * (9 / 100) + 6 / 1000 / 2)) (y0 := i * (9 / 100) + 6 / 1000 / 2)
      (y1 := (i + 1) * (9 / 100) - 6 / 1000 / 2) (C := -Real.sin θ) (S := Real.cos θ) hτ0 hτ (by linarith) hα (by ring)
      (by rw [← abs_neg]; convert h1 using 2; ring) h2 h3 (by rw [neg_sq]; exact sq')
      (by
        have := P (.inr rfl) (.inl rfl)
        convert this using 2; ring)
      (by
        have := P (.inl rfl) (.inl rfl)
        convert this using 2; ring)
    refine ⟨a, ⟨a0.le, fun t t0 ta => ?_, fun h => ?_⟩, hd, fun side h => ?_⟩
    · have k := mul_lt_mul_of_pos_right ta hC
      have k' := mul_nonneg t0 hC.le
      refine ⟨between t0 ta ?_ ?_ k1 k2, ⟨?_, ?_⟩⟩ <;> simp only [room, ray] <;> linarith
    · simp only [Box.inside, room, ray] at h; linarith [h.2.1]
    · cases side <;> simp only [Box.onSide, room, ray] at h <;> first | rfl | (exfalso; linarith [h.1])

/-- **C129**, the converse: from inside a room (by `ε` + 50 µm), a wall of the maze through which the true ray leaves the room,
further than the ignored length (by 5 `ε` + 0.25 mm) and with the line of sight ten millimetres (and 0.2 `ε` + 8 µm) away from the
pillars of the cell, is returned, at the true distance up to 5 `ε` + 0.2 mm. -/
theorem C129_complete {L : Lib} {ε θ px py : ℝ} (hx : |px| ≤ 11) (hy : |py| ≤ 11) (hθ : |θ| ≤ 100) (ht : TrigNear L ε θ)
    (hε : ε ≤ 1 / 1000) {W : Nat} (hW : Supported W) {sort : List (Dir × F) → List (Dir × F)} (hs : Sorts sort) {i j : Int}
    (hi : 0 ≤ i) (hj : 0 ≤ j) (hin : ((room (9 / 100) (6 / 1000) i j).grow (-(ε + 5 / 100000))).inside (px, py))
    (hp : ∀ q, pillarOf (9 / 100) i j q → 1 / 100 + ε / 5 + 8 / 10 ^ 6 ≤ lineDist ⟨px, py, θ⟩ q) {side : Dir} {a : ℝ}
    (ha : LeavesAt (room (9 / 100) (6 / 1000) i j) ⟨px, py, θ⟩ a)
    (hside : (room (9 / 100) (6 / 1000) i j).onSide (ray ⟨px, py, θ⟩ a) side) (hil : 8 / 1000 + 5 * ε + 25 / 100000 < a) (c : Coord)
    (hc : Valid W c) (hcs : ((c.x : Int), (c.y : Int)) = sideOf i j side) :
    ∃ e b, (Finder.default (arith exp)).convert (arith exp) L W sort (.fin px) (.fin py) (.fin θ) = some ⟨c, .fin e, .fin b⟩ ∧
      |e - a| ≤ 5 * ε + 2 / 10000 := by
  obtain ⟨s, ir, il, p1, p2, n1, n2, hf, b1, b2, b3, b4, b5, b6, b7⟩ := finder_default (exp := exp)
  have hf90 : (Finder.default (arith exp)).iSquareWidth = 90 := by rw [hf]
  have ht' := ht
  obtain ⟨sn, cs, es, ec, bs, bc⟩ := ht'
  have hε0 : 0 ≤ ε := (abs_nonneg _).trans bs
  have hin' : ((room (9 / 100) (6 / 1000) i j).grow (-(2 * (3 / 10 * ε + 13 / 1000000)))).inside (px, py) := by
    simp only [Box.inside, Box.grow, room] at hin ⊢
    obtain ⟨⟨x0, x1⟩, y0, y1⟩ := hin
    refine ⟨⟨?_, ?_⟩, ?_, ?_⟩ <;> linarith
  simp only [Box.inside, Box.grow, room] at hin
  obtain ⟨⟨x0, x1⟩, y0, y1⟩ := hin
  obtain ⟨rx, i', ex, bx, qx, -, zx⟩ := remquo_near (exp := exp) hf90 hx
  obtain ⟨ry, j', ey, by', qy, -, zy⟩ := remquo_near (exp := exp) hf90 hy
  obtain rfl := zx i hi (by linarith) (by linarith)
  obtain rfl := zy j hj (by linarith) (by linarith)
  have bx' := abs_le.1 bx
  have by'' := abs_le.1 by'
  have b4' := abs_le.1 b4
  have b6' := abs_le.1 b6
  have b3' := abs_le.1 b3
  have b2' := abs_le.1 b2
  have qx' := abs_le.1 qx
  have qy' := abs_le.1 qy
  norm_num at bx' by'' b4' b6' b3' b2'
  have r1 : n1 < rx := by linarith
  have r2 : rx < p1 := by linarith
  have r3 : n1 < ry := by linarith
  have r4 : ry < p1 := by linarith
  -- no pillar is near
  have hn : ¬ (Finder.default (arith exp)).isNearPillar (arith exp) L (.fin rx) (.fin ry) (.fin θ) := by
    rw [hf]
    obtain ⟨a1, c1, a2, c2, A1, B1, A2, B2, hpl, g1, g2, g3, g4, o1, o2, o3, o4⟩ :=
      pillars_form (isw := 90) b1 (ir := .fin ir) (il := .fin il) (p1 := .fin p1) (p2 := .fin p2) (n1 := .fin n1) (n2 := .fin n2)
        (rotation (arith exp) (.fin θ))
    have D : ∀ {a b A B : ℝ}, |a - A| ≤ 1 / 10 ^ 8 → |b - B| ≤ 1 / 10 ^ 8 → (A = 0 ∨ A = 9 / 100) → (B = 0 ∨ B = 9 / 100) →
        ∃ d, (Arith.sub (arith exp) ((arith exp).mul (L.sin (.fin θ)) ((arith exp).sub (.fin rx) (.fin a)))
          ((arith exp).mul (L.cos (.fin θ)) ((arith exp).sub (.fin ry) (.fin b)))).abs = .fin d ∧ ir ≤ d := by
      intro a b A B ha hb hA hB
      rw [es, ec]
      obtain ⟨d, e, hd⟩ := pillar_dist (exp := exp) hε0 hε bs bc (Real.abs_sin_le_one θ) (Real.abs_cos_le_one θ) bx by' ha hb
        (by rw [abs_le]; rcases hA with rfl | rfl <;> constructor <;> linarith)
        (by rw [abs_le]; rcases hB with rfl | rfl <;> constructor <;> linarith)
      refine ⟨d, e, ?_⟩
      have hq := hp (9 / 100 * i' + A, 9 / 100 * j' + B) ⟨by
        rcases hA with rfl | rfl
        · left; ring
        · right; ring, by
        rcases hB with rfl | rfl
        · left; ring
        · right; ring⟩
      have el : lineDist ⟨px, py, θ⟩ (9 / 100 * i' + A, 9 / 100 * j' + B) =
          |Real.sin θ * (px - 9 / 100 * i' - A) - Real.cos θ * (py - 9 / 100 * j' - B)| := by
        unfold lineDist; dsimp only; congr 1; ring
      rw [el] at hq
      have hd' := abs_le.1 hd
      norm_num at hd' hq
      linarith
    obtain ⟨d1, e1, k1⟩ := D g1 g2 o1 o2
    obtain ⟨d2, e2, k2⟩ := D g3 g4 o3 o4
    exact (near_two (exp := exp) (L := L) hpl e1 e2 rfl).2 ⟨k1, k2⟩
  obtain ⟨u, v, α, β, r, hl, α0, α1, αβ, β1, hnear, w, hw'⟩ :=
    sighted (exp := exp) (s := .fin s) (ir := .fin ir) (il := .fin il) hθ ht hε hs rfl rfl rfl rfl b4 b5 b6 b7 bx by' r1 r2 r3 r4
  obtain ⟨a', hleave, hd, honly⟩ := exit_of (τ := 3 / 10 * ε + 13 / 1000000) (by positivity) (by linarith) α0 hin'
    (fun q hq => le_trans (by norm_num; linarith) (hp q hq)) hnear
  obtain rfl := leaves_unique hleave ha
  obtain rfl := honly side hside
  have hd' := abs_le.1 hd
  have hwall := (wallAt_eq hW hi (by omega) hj (by omega)).mpr ⟨hc, hcs⟩
  refine ⟨α, β, ?_, by rw [abs_le]; constructor <;> linarith⟩
  unfold Finder.convert
  rw [ex, ey]
  dsimp only
  rw [if_neg hn, hf, if_neg, hl]
  · dsimp only
    rw [hwall]
    dsimp only
    rw [if_neg]
    intro (h : α ≤ il)
    linarith
  · rintro (h | h | h | h)
    · exact absurd (show rx ≤ n1 from h) (by linarith)
    · exact absurd (show p1 ≤ rx from h) (by linarith)
    · exact absurd (show ry ≤ n1 from h) (by linarith)
    · exact absurd (show p1 ≤ ry from h) (by linarith)

end Verif.Props
