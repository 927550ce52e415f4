import Verif.Proof.SingleExit
import Verif.Props.Convert
import Verif.Props.Pillars
import Verif.Props.Single
/-!
# C129: the wall seen from a pose, in single precision
-/
namespace Verif.Props
open Verif Verif.Spec Verif.Convert Verif.Single Verif.Binary32 Verif.Search Verif.Detect Verif.Proof

variable {exp : F → F}

/-- **C129.** For any pose, be its numbers finite or not, any arithmetic and any library: no distance that is sorted is `nan`
(so that the `expect` in the comparison holds), and a returned wall belongs to the maze. -/
theorem C129_total (A : Arith) (L : Lib) (f : Finder) {W : Nat} (hW : Supported W) {sort : List (Dir × F) → List (Dir × F)}
    (x y θ : F) :
    (∀ e ∈ f.axes A (rotation A θ) (f.remquo A x).1 (f.remquo A y).1 (L.cos θ) (L.sin θ), e.2 ≠ .nan) ∧
    ∀ info, f.convert A L W sort x y θ = some info → Valid W info.coord := by
  constructor
  · intro e he
    unfold Finder.axes at he
    dsimp only at he
    split_ifs at he <;>
    · simp only [List.mem_cons, List.not_mem_nil, or_false] at he
      rcases he with rfl | rfl | rfl | rfl <;> exact lineAt_ne_nan _ _ _ _
  · intro info h
    unfold Finder.convert at h
    dsimp only at h
    split_ifs at h
    split at h
    · split at h
      · cases h
      · rename_i hw
        split_ifs at h
        cases h
        exact wallAt_valid hW hw
    · cases h

/-- The pillars that are looked at. -/
theorem pillars_form {isw : Int} {s : ℝ} (hs : |s - 9 / 100| ≤ 1 / 10 ^ 8) {ir il p1 p2 n1 n2 : F} (rot : F) :
    ∃ a1 b1 a2 b2 A1 B1 A2 B2 : ℝ,
      Finder.pillars ⟨isw, .fin s, ir, il, p1, p2, n1, n2⟩ rot = ((.fin a1, .fin b1), (.fin a2, .fin b2)) ∧
      |a1 - A1| ≤ 1 / 10 ^ 8 ∧ |b1 - B1| ≤ 1 / 10 ^ 8 ∧ |a2 - A2| ≤ 1 / 10 ^ 8 ∧ |b2 - B2| ≤ 1 / 10 ^ 8 ∧
      (A1 = 0 ∨ A1 = 9 / 100) ∧ (B1 = 0 ∨ B1 = 9 / 100) ∧ (A2 = 0 ∨ A2 = 9 / 100) ∧ (B2 = 0 ∨ B2 = 9 / 100) := by
  have z : |(0:ℝ) - 0| ≤ 1 / 10 ^ 8 := by norm_num
  unfold Finder.pillars
  split_ifs
  · exact ⟨s, s, 0, s, 9 / 100, 9 / 100, 0, 9 / 100, rfl, hs, hs, z, hs, .inr rfl, .inr rfl, .inl rfl, .inr rfl⟩
  · exact ⟨0, s, 0, 0, 0, 9 / 100, 0, 0, rfl, z, hs, z, z, .inl rfl, .inr rfl, .inl rfl, .inl rfl⟩
  · exact ⟨0, 0, s, 0, 0, 0, 9 / 100, 0, rfl, z, z, hs, z, .inl rfl, .inl rfl, .inr rfl, .inl rfl⟩
  · exact ⟨s, 0, s, s, 9 / 100, 0, 9 / 100, 9 / 100, rfl, hs, z, hs, hs, .inr rfl, .inl rfl, .inr rfl, .inr rfl⟩

/-- What a returned wall tells. -/
theorem finder_some {L : Lib} {W : Nat} {sort : List (Dir × F) → List (Dir × F)} {isw : Int} {s ir il p1 p2 n1 n2 rx ry : ℝ} {i j : Int}
    {x y θ : F} {f : Finder} (hf : f = ⟨isw, .fin s, .fin ir, .fin il, .fin p1, .fin p2, .fin n1, .fin n2⟩)
    (hx : f.remquo (arith exp) x = (.fin rx, i)) (hy : f.remquo (arith exp) y = (.fin ry, j)) {info : WallInfo}
    (h : f.convert (arith exp) L W sort x y θ = some info) :
    ¬ f.isNearPillar (arith exp) L (.fin rx) (.fin ry) θ ∧ (n1 < rx ∧ rx < p1 ∧ n1 < ry ∧ ry < p1) ∧
    ∃ u v r, sort (f.axes (arith exp) (rotation (arith exp) θ) (.fin rx) (.fin ry) (L.cos θ) (L.sin θ)) =
        (u, info.existing) :: (v, info.notExisting) :: r ∧
      wallAt W i j u = some info.coord ∧ ¬ info.existing.le (.fin il) := by
  unfold Finder.convert at h
  rw [hx, hy] at h
  dsimp only at h
  by_cases hn : f.isNearPillar (arith exp) L (.fin rx) (.fin ry) θ
  · rw [if_pos hn] at h; cases h
  rw [if_neg hn] at h
  split_ifs at h with hr
  subst hf
  have hr' : ¬ (rx ≤ n1 ∨ p1 ≤ rx ∨ ry ≤ n1 ∨ p1 ≤ ry) := hr
  push Not at hr'
  refine ⟨hn, hr', ?_⟩
  split at h
  · rename_i u ex v nex r hl
    split at h
    · cases h
    · rename_i c hw
      split_ifs at h with hil
      cases h
      exact ⟨u, v, r, hl, hw, hil⟩
  · cases h

/-- **C129.** In single precision, with a library whose sine and cosine err by at most `ε` (at most a thousandth), a returned
wall is a side of the cell that contains the pose: the pose is inside the free space of that cell (up to 4 µm), the point at the
returned distance along the true ray lies on that side, and the point at the other returned distance lies on a side of the free
space extended by the next cell, all up to 0.3 `ε` + 13 µm. -/
theorem C129_wall {L : Lib} {ε θ px py : ℝ} (hx : |px| ≤ 11) (hy : |py| ≤ 11) (hθ : |θ| ≤ 100) (ht : TrigNear L ε θ)
    (hε : ε ≤ 1 / 1000) {W : Nat} (hW : Supported W) {sort : List (Dir × F) → List (Dir × F)} (hs : Sorts sort) (info : WallInfo)
    (h : (Finder.default (arith exp)).convert (arith exp) L W sort (.fin px) (.fin py) (.fin θ) = some info) :
    ∃ i j side a b, 0 ≤ i ∧ 0 ≤ j ∧ ((room (9 / 100) (6 / 1000) i j).grow (4 / 10 ^ 6)).inside (px, py) ∧
      Valid W info.coord ∧ ((info.coord.x : Int), (info.coord.y : Int)) = sideOf i j side ∧
      info.existing = .fin a ∧ info.notExisting = .fin b ∧
      7999 / 1000000 < a ∧ a ≤ 13 / 100 ∧ a ≤ b ∧ b ≤ 26 / 100 ∧
      (room (9 / 100) (6 / 1000) i j).nearSide (3 / 10 * ε + 13 / 1000000) (ray ⟨px, py, θ⟩ a) side ∧
      ∃ side', ((room (9 / 100) (6 / 1000) i j).extend (9 / 100) side).nearSide (3 / 10 * ε + 13 / 1000000) (ray ⟨px, py, θ⟩ b) side' := by
  obtain ⟨s, ir, il, p1, p2, n1, n2, hf, b1, b2, b3, b4, b5, b6, b7⟩ := finder_default (exp := exp)
  have hf90 : (Finder.default (arith exp)).iSquareWidth = 90 := by rw [hf]
  obtain ⟨rx, i, ex, bx, qx, zx, -⟩ := remquo_near (exp := exp) hf90 hx
  obtain ⟨ry, j, ey, by', qy, zy, -⟩ := remquo_near (exp := exp) hf90 hy
  obtain ⟨-, ⟨r1, r2, r3, r4⟩, u, v, r, hl, hw, hil⟩ := finder_some hf ex ey h
  obtain ⟨u', v', α, β, r', hl', α0, α1, αβ, β1, hside, w, hw'⟩ :=
    sighted (exp := exp) (s := .fin s) (ir := .fin ir) (il := .fin il) hθ ht hε hs rfl rfl rfl rfl b4 b5 b6 b7 bx by' r1 r2 r3 r4
  rw [hf] at hl
  rw [hl] at hl'
  simp only [List.cons.injEq, Prod.mk.injEq] at hl'
  obtain ⟨⟨rfl, e1⟩, ⟨rfl, e2⟩, -⟩ := hl'
  rw [abs_le] at b4 b6 b3 bx by' qx qy
  norm_num at b4 b6 b3 bx by'
  have i0 : 0 ≤ i := zx (by linarith)
  have j0 : 0 ≤ j := zy (by linarith)
  obtain ⟨hv, hc⟩ := (wallAt_eq hW i0 (by omega) j0 (by omega)).mp hw
  have hil' : il < α := by
    rw [e1] at hil
    exact not_le.1 hil
  refine ⟨i, j, u, α, β, i0, j0, ?_, hv, hc, e1, e2, by linarith, α1, αβ, β1, hside, w, hw'⟩
  simp only [Box.inside, Box.grow, room]
  norm_num
  refine ⟨⟨?_, ?_⟩, ?_, ?_⟩ <;> linarith

/-- The pillars of the side that is looked at. -/
theorem pillars_side {isw : Int} {s ir il p1 p2 n1 n2 : F} {p : Pose} {u : ℝ} {n : ℤ} (h0 : 0 ≤ u) (h1 : u ≤ 1)
    (h : |p.theta - 2 * Real.pi * (u + n)| ≤ 3 / 100000) {side : Dir} (hl : LooksWell p side) :
    Finder.pillars ⟨isw, s, ir, il, p1, p2, n1, n2⟩ (.fin u) = match side with
      | .right => ((s, .fin 0), (s, s))
      | .top => ((s, s), (.fin 0, s))
      | .left => ((.fin 0, s), (.fin 0, .fin 0))
      | .bottom => ((.fin 0, .fin 0), (s, .fin 0)) := by
  have hc := abs_le.1 ((Real.abs_cos_sub_cos_le p.theta (2 * Real.pi * (u + n))).trans h)
  have hs := abs_le.1 ((Real.abs_sin_sub_sin_le p.theta (2 * Real.pi * (u + n))).trans h)
  have hac := (abs_abs_sub_abs_le (Real.cos (2 * Real.pi * (u + n))) (Real.cos p.theta))
  have has := (abs_abs_sub_abs_le (Real.sin (2 * Real.pi * (u + n))) (Real.sin p.theta))
  rw [abs_sub_comm (Real.cos _) (Real.cos _)] at hac
  rw [abs_sub_comm (Real.sin _) (Real.sin _)] at has
  have hac' := abs_le.1 (hac.trans ((Real.abs_cos_sub_cos_le _ _).trans h))
  have has' := abs_le.1 (has.trans ((Real.abs_sin_sub_sin_le _ _).trans h))
  have hr := revolution_turns u n
  obtain ⟨p', hp'⟩ : ∃ p' : Pose, p' = ⟨0, 0, 2 * Real.pi * (u + n)⟩ := ⟨_, rfl⟩
  have hr' : revolution p'.theta = Int.fract u := by rw [hp']; exact hr
  have hl' : Looks p' side := by
    rw [hp']
    cases side <;> simp only [LooksWell, Looks] at hl ⊢ <;> linarith
  have hu : u < 1 → Int.fract u = u := fun h => Int.fract_eq_self.2 ⟨h0, h⟩
  have h1' : ¬ u < 1 → Int.fract u = 0 ∧ u = 1 := fun h => by
    have : u = 1 := by linarith
    exact ⟨by rw [this, Int.fract_one], this⟩
  unfold Finder.pillars
  cases side with
  | right =>
    have g := looks_right hl'
    rw [hr'] at g
    rw [if_pos]
    intro ⟨k1, k2⟩
    have k1 : 1 / 8 ≤ u := k1
    have k2 : u ≤ 7 / 8 := k2
    rw [hu (by linarith)] at g
    exact g ⟨k1, k2⟩
  | left =>
    have g := looks_left hl'
    rw [hr'] at g
    by_cases hu1 : u < 1
    · rw [hu hu1] at g
      rw [if_neg (by intro h; exact h ⟨show 1 / 8 ≤ u by linarith, show u ≤ 7 / 8 by linarith⟩),
        if_neg (show ¬ (F.fin u).lt (.fin (3 / 8)) from not_lt.2 (by linarith)), if_pos (show (F.fin u).lt (.fin (5 / 8)) from (by linarith : u < 5 / 8))]
    · rw [(h1' hu1).1] at g; exfalso; linarith [g.1]
  | top =>
    have g := looks_top hl'
    rw [hr'] at g
    by_cases hu1 : u < 1
    · rw [hu hu1] at g
      rw [if_neg (by intro h; exact h ⟨show 1 / 8 ≤ u by linarith, show u ≤ 7 / 8 by linarith⟩),
        if_pos (show (F.fin u).lt (.fin (3 / 8)) from (by linarith : u < 3 / 8))]
    · rw [(h1' hu1).1] at g; exfalso; linarith [g.1]
  | bottom =>
    have g := looks_bottom hl'
    rw [hr'] at g
    by_cases hu1 : u < 1
    · rw [hu hu1] at g
      rw [if_neg (by intro h; exact h ⟨show 1 / 8 ≤ u by linarith, show u ≤ 7 / 8 by linarith⟩),
        if_neg (show ¬ (F.fin u).lt (.fin (3 / 8)) from not_lt.2 (by linarith)), if_neg (show ¬ (F.fin u).lt (.fin (5 / 8)) from not_lt.2 (by linarith))]
    · rw [(h1' hu1).1] at g; exfalso; linarith [g.1]

/-- **C129.** A wall is only returned if the line of sight keeps ten millimetres (up to 0.2 `ε` + 8 µm) from both pillars at the
ends of the side that the robot clearly looks at. -/
theorem C129_pillars {L : Lib} {ε θ px py : ℝ} (hx : |px| ≤ 11) (hy : |py| ≤ 11) (hθ : |θ| ≤ 100) (ht : TrigNear L ε θ)
    (hε : ε ≤ 1 / 1000) {W : Nat} {sort : List (Dir × F) → List (Dir × F)} (info : WallInfo)
    (h : (Finder.default (arith exp)).convert (arith exp) L W sort (.fin px) (.fin py) (.fin θ) = some info) {i j : Int} (hi : 0 ≤ i)
    (hj : 0 ≤ j) (hin : ((room (9 / 100) (6 / 1000) i j).grow (4 / 10 ^ 6)).inside (px, py)) {side : Dir}
    (hl : LooksWell ⟨px, py, θ⟩ side) (q : ℝ × ℝ) (hq : pillarsAt (9 / 100) i j side q) :
    1 / 100 - ε / 5 - 8 / 10 ^ 6 ≤ lineDist ⟨px, py, θ⟩ q := by
  obtain ⟨s, ir, il, p1, p2, n1, n2, hf, b1, b2, b3, b4, b5, b6, b7⟩ := finder_default (exp := exp)
  have hf90 : (Finder.default (arith exp)).iSquareWidth = 90 := by rw [hf]
  simp only [Box.inside, Box.grow, room] at hin
  norm_num at hin
  obtain ⟨⟨x1, x2⟩, y1, y2⟩ := hin
  obtain ⟨rx, i', ex, bx, -, -, zx⟩ := remquo_near (exp := exp) hf90 hx
  obtain ⟨ry, j', ey, by', -, -, zy⟩ := remquo_near (exp := exp) hf90 hy
  obtain rfl := zx i hi (by linarith) (by linarith)
  obtain rfl := zy j hj (by linarith) (by linarith)
  obtain ⟨hn, -⟩ := finder_some hf ex ey h
  obtain ⟨sn, c, es, ec, bs, bc⟩ := ht
  obtain ⟨u, n, er, hu0, hu1, hun⟩ := rotation_near (exp := exp) hθ
  have hε0 : 0 ≤ ε := (abs_nonneg _).trans bs
  rw [hf] at hn
  have z : |(0:ℝ) - 0| ≤ 1 / 10 ^ 8 := by norm_num
  -- the distance of one pillar
  have D : ∀ {a b A B : ℝ}, |a - A| ≤ 1 / 10 ^ 8 → |b - B| ≤ 1 / 10 ^ 8 → (A = 0 ∨ A = 9 / 100) → (B = 0 ∨ B = 9 / 100) →
      ∃ d, (Arith.sub (arith exp) ((arith exp).mul (L.sin (.fin θ)) ((arith exp).sub (.fin rx) (.fin a)))
        ((arith exp).mul (L.cos (.fin θ)) ((arith exp).sub (.fin ry) (.fin b)))).abs = .fin d ∧
        (ir ≤ d → 1 / 100 - ε / 5 - 8 / 10 ^ 6 ≤
          |Real.sin θ * (px - 9 / 100 * i' - A) - Real.cos θ * (py - 9 / 100 * j' - B)|) := by
    intro a b A B ha hb hA hB
    rw [es, ec]
    obtain ⟨d, e, hd⟩ := pillar_dist (exp := exp) hε0 hε bs bc (Real.abs_sin_le_one θ) (Real.abs_cos_le_one θ) bx by' ha hb
      (by rw [abs_le]; rcases hA with rfl | rfl <;> constructor <;> linarith)
      (by rw [abs_le]; rcases hB with rfl | rfl <;> constructor <;> linarith)
    refine ⟨d, e, fun hle => ?_⟩
    have b2' := abs_le.1 b2
    have hd' := abs_le.1 hd
    norm_num at b2' hd' ⊢
    linarith
  have fin' : ∀ {a1 c1 a2 c2 A1 B1 A2 B2 : ℝ}, |a1 - A1| ≤ 1 / 10 ^ 8 → |c1 - B1| ≤ 1 / 10 ^ 8 → (A1 = 0 ∨ A1 = 9 / 100) →
      (B1 = 0 ∨ B1 = 9 / 100) → |a2 - A2| ≤ 1 / 10 ^ 8 → |c2 - B2| ≤ 1 / 10 ^ 8 → (A2 = 0 ∨ A2 = 9 / 100) → (B2 = 0 ∨ B2 = 9 / 100) →
      Finder.pillars ⟨90, .fin s, .fin ir, .fin il, .fin p1, .fin p2, .fin n1, .fin n2⟩ (.fin u) =
        ((.fin a1, .fin c1), (.fin a2, .fin c2)) →
      ((q.1 = 9 / 100 * i' + A1 ∧ q.2 = 9 / 100 * j' + B1) ∨ (q.1 = 9 / 100 * i' + A2 ∧ q.2 = 9 / 100 * j' + B2)) →
      1 / 100 - ε / 5 - 8 / 10 ^ 6 ≤ lineDist ⟨px, py, θ⟩ q := by
    intro a1 c1 a2 c2 A1 B1 A2 B2 h1 h2 h3 h4 h5 h6 h7 h8 hp hq
    obtain ⟨d1, e1, k1⟩ := D h1 h2 h3 h4
    obtain ⟨d2, e2, k2⟩ := D h5 h6 h7 h8
    have hpp : Finder.pillars ⟨90, .fin s, .fin ir, .fin il, .fin p1, .fin p2, .fin n1, .fin n2⟩ (rotation (arith exp) (.fin θ)) =
        ((.fin a1, .fin c1), (.fin a2, .fin c2)) := by rw [er]; exact hp
    obtain ⟨m1, m2⟩ := (near_two (exp := exp) (L := L) hpp e1 e2 rfl).1 hn
    unfold lineDist
    rcases hq with ⟨g1, g2⟩ | ⟨g1, g2⟩
    · refine (k1 m1).trans (le_of_eq ?_)
      rw [g1, g2]; congr 1; ring
    · refine (k2 m2).trans (le_of_eq ?_)
      rw [g1, g2]; congr 1; ring
  have hp := pillars_side (isw := 90) (s := .fin s) (ir := .fin ir) (il := .fin il) (p1 := .fin p1) (p2 := .fin p2) (n1 := .fin n1)
    (n2 := .fin n2) (p := ⟨px, py, θ⟩) hu0 hu1 hun hl
  obtain ⟨qx, qy⟩ := q
  cases side with
  | right =>
    refine fin' b1 z (.inr rfl) (.inl rfl) b1 b1 (.inr rfl) (.inr rfl) hp ?_
    obtain ⟨g, g' | g'⟩ := hq <;> dsimp only at g g' ⊢
    · exact .inl ⟨by rw [g]; ring, by rw [g']; ring⟩
    · exact .inr ⟨by rw [g]; ring, by rw [g']; ring⟩
  | left =>
    refine fin' z b1 (.inl rfl) (.inr rfl) z z (.inl rfl) (.inl rfl) hp ?_
    obtain ⟨g, g' | g'⟩ := hq <;> dsimp only at g g' ⊢
    · exact .inr ⟨by rw [g]; ring, by rw [g']; ring⟩
    · exact .inl ⟨by rw [g]; ring, by rw [g']; ring⟩
  | top =>
    refine fin' b1 b1 (.inr rfl) (.inr rfl) z b1 (.inl rfl) (.inr rfl) hp ?_
    obtain ⟨g, g' | g'⟩ := hq <;> dsimp only at g g' ⊢
    · exact .inr ⟨by rw [g']; ring, by rw [g]; ring⟩
    · exact .inl ⟨by rw [g']; ring, by rw [g]; ring⟩
  | bottom =>
    refine fin' z z (.inl rfl) (.inl rfl) b1 z (.inr rfl) (.inl rfl) hp ?_
    obtain ⟨g, g' | g'⟩ := hq <;> dsimp only at g g' ⊢
    · exact .inl ⟨by rw [g']; ring, by rw [g]; ring⟩
    · exact .inr ⟨by rw [g']; ring, by rw [g]; ring⟩

end Verif.Props
