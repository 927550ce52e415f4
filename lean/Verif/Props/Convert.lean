import Verif.Proof.Convert
import Verif.Props.DetectWalls
import Mathlib.Data.List.Sort
/-!
# C34, C35: the wall seen from a pose
-/
namespace Verif.Props
open Verif Verif.Spec Verif.Detect Verif.Convert Verif.Search Verif.Proof

/-- **C34.** A returned wall is the side through which the ray leaves the room of the cell containing the pose,
`existing` is the distance at which it does, and `notExisting` the distance at which it would leave the room if that
wall were absent and the next cell open. -/
theorem C34_wall {sw ww ir il : ℝ} {k : Int} (hk : Width sw k) (hww : 0 < ww) (hsw : ww < sw) {W : Nat} (hW : Supported W)
    {sort : List (Dir × F) → List (Dir × F)} (hs : Sorts sort) (pose : Pose) {i j : Int} (hi : 0 ≤ i ∧ i < 128)
    (hj : 0 ≤ j ∧ j < 128) (hx : InCell sw pose.x i) (hy : InCell sw pose.y j) (info : WallInfo)
    (h : (Converter.new sw ww ir il).convert W sort pose = some info) :
    (room sw ww i j).inside (ray pose 0) ∧
    ∃ side a b, Valid W info.coord ∧ ((info.coord.x : Int), (info.coord.y : Int)) = sideOf i j side ∧
      info.existing = .fin a ∧ info.notExisting = .fin b ∧
      LeavesAt (room sw ww i j) pose a ∧ (room sw ww i j).onSide (ray pose a) side ∧
      LeavesAt ((room sw ww i j).extend sw side) pose b ∧ il < a ∧ a ≤ b ∧ (ww / 2 < ir → a < b) := by
  obtain ⟨-, hr, u, α, β, hc, h1, h2, he, hil, hd⟩ := convert_some hww hsw hs (remquo_eq hk ww ir il hi.1 (by omega) hx)
    (remquo_eq hk ww ir il hj.1 (by omega) hy) h
  obtain ⟨hv, hcoord⟩ := (wallAt_eq hW hi.1 hi.2 hj.1 hj.2).mp hc
  refine ⟨?_, u, α, β, hv, hcoord, h1, h2, (leaves_shift _ _ _ _ _ _).mpr he.leaves,
    (onSide_shift _ _ _ _ _ _ _).mpr he.side, (leaves_extend_shift _ _ _ _ _ _ _).mpr he.beyond, hil, he.le, hd⟩
  exact ((leaves_shift _ _ _ _ _ _).mpr he.leaves).2.1 0 le_rfl he.pos

/-- The four pillars of the cell `(i, j)`. -/
def pillarOf (sw : ℝ) (i j : Int) (q : ℝ × ℝ) : Prop :=
  (q.1 = i * sw ∨ q.1 = (i + 1) * sw) ∧ (q.2 = j * sw ∨ q.2 = (j + 1) * sw)

theorem near_pillar_of {sw ww ir il : ℝ} {p : Pose} {i j : Int}
    (h : (Converter.new sw ww ir il).isNearPillar ⟨p.x - i * sw, p.y - j * sw, p.theta⟩) :
    ∃ q, pillarOf sw i j q ∧ lineDist p q < ir := by
  have key : ∀ q0 : ℝ × ℝ, (q0.1 = 0 ∨ q0.1 = sw) → (q0.2 = 0 ∨ q0.2 = sw) →
      |Real.sin p.theta * (p.x - i * sw - q0.1) - Real.cos p.theta * (p.y - j * sw - q0.2)| < ir →
      ∃ q, pillarOf sw i j q ∧ lineDist p q < ir := by
    intro q0 h1 h2 h3
    refine ⟨(i * sw + q0.1, j * sw + q0.2), ⟨?_, ?_⟩, ?_⟩
    · rcases h1 with h | h <;> rw [h]
      · left; ring
      · right; ring
    · rcases h2 with h | h <;> rw [h]
      · left; ring
      · right; ring
    · unfold lineDist
      convert h3 using 2
      ring
  unfold Converter.isNearPillar at h
  dsimp only at h
  have hp : ∀ rot, let P := (Converter.new sw ww ir il).pillars rot
      ((P.1.1 = 0 ∨ P.1.1 = sw) ∧ (P.1.2 = 0 ∨ P.1.2 = sw)) ∧ ((P.2.1 = 0 ∨ P.2.1 = sw) ∧ (P.2.2 = 0 ∨ P.2.2 = sw)) := by
    intro rot
    unfold Converter.pillars
    dsimp only
    split_ifs <;> exact ⟨⟨by simp [Converter.new], by simp [Converter.new]⟩, by simp [Converter.new], by simp [Converter.new]⟩
  obtain ⟨⟨a1, a2⟩, b1, b2⟩ := hp (revolution p.theta)
  rcases min_lt_iff.mp h with g | g
  · exact key _ a1 a2 g
  · exact key _ b1 b2 g

/-- **C34**, the converse: a wall of the maze at which the ray leaves the room, further than the ignored length and with
no pillar near the line of the ray, is returned. -/
theorem C34_complete {sw ww ir il : ℝ} {k : Int} (hk : Width sw k) (hww : 0 < ww) (hsw : ww < sw) (hir : ww < ir)
    {W : Nat} (hW : Supported W) {sort : List (Dir × F) → List (Dir × F)} (hs : Sorts sort) (pose : Pose) {i j : Int}
    (hi : 0 ≤ i ∧ i < 128) (hj : 0 ≤ j ∧ j < 128) (hin : (room sw ww i j).inside (pose.x, pose.y))
    (hp : ∀ q, pillarOf sw i j q → ir ≤ lineDist pose q) {side : Dir} {a : ℝ} (ha : LeavesAt (room sw ww i j) pose a)
    (hside : (room sw ww i j).onSide (ray pose a) side) (hil : il < a) (c : Coord) (hc : Valid W c)
    (hcs : ((c.x : Int), (c.y : Int)) = sideOf i j side) :
    ∃ b, (Converter.new sw ww ir il).convert W sort pose = some ⟨c, .fin a, .fin b⟩ := by
  have hpos := width_pos hk
  obtain ⟨⟨hx1, hx2⟩, hy1, hy2⟩ := hin
  simp only [room] at hx1 hx2 hy1 hy2
  have hx : InCell sw pose.x i := ⟨by linarith, by linarith⟩
  have hy : InCell sw pose.y j := ⟨by linarith, by linarith⟩
  have hn : ¬ (Converter.new sw ww ir il).isNearPillar ⟨pose.x - i * sw, pose.y - j * sw, pose.theta⟩ := by
    intro h
    obtain ⟨q, h1, h2⟩ := near_pillar_of h
    linarith [hp q h1]
  obtain ⟨u, α, β, he, hconv⟩ := convert_of (W := W) hww hsw hs (remquo_eq hk ww ir il hi.1 (by omega) hx)
    (remquo_eq hk ww ir il hj.1 (by omega) hy) hn ⟨by linarith, by linarith, by linarith, by linarith⟩
  have hα : α = a := leaves_unique ((leaves_shift _ _ _ _ _ _).mpr he.leaves) ha
  subst hα
  have hu := (onSide_shift sw ww i j pose α u).mpr he.side
  have hus : u = side := by
    by_contra hne
    -- two different sides: a corner
    have corner : ∀ q : ℝ × ℝ, pillarOf sw i j q → |(ray pose α).1 - q.1| = ww / 2 → |(ray pose α).2 - q.2| = ww / 2 → False := by
      intro q hq e1 e2
      have h1 := hp q hq
      rw [lineDist_ray pose α] at h1
      have h2 : |Real.sin pose.theta * ((ray pose α).1 - q.1) - Real.cos pose.theta * ((ray pose α).2 - q.2)| ≤ ww := by
        refine (abs_sub _ _).trans ?_
        rw [abs_mul, abs_mul, e1, e2]
        have s1 := Real.abs_sin_le_one pose.theta
        have s2 := Real.abs_cos_le_one pose.theta
        nlinarith
      linarith
    have hw2 : |ww / 2| = ww / 2 := abs_of_pos (by linarith)
    have hw2' : |-(ww / 2)| = ww / 2 := by rw [abs_neg, hw2]
    have up : ∀ v m : ℝ, v = (m + 1) * sw - ww / 2 → |v - (m + 1) * sw| = ww / 2 := by
      intro v m h; rw [show v - (m + 1) * sw = -(ww / 2) by rw [h]; ring, hw2']
    have dn : ∀ v m : ℝ, v = m * sw + ww / 2 → |v - m * sw| = ww / 2 := by
      intro v m h; rw [show v - m * sw = ww / 2 by rw [h]; ring, hw2]
    cases u <;> cases side <;> first
      | exact hne rfl
      | (have e1 := hu.1; have e2 := hside.1; simp only [room] at e1 e2; linarith)
      | exact corner (_, _) ⟨Or.inr rfl, Or.inr rfl⟩ (up _ _ hu.1) (up _ _ hside.1)
      | exact corner (_, _) ⟨Or.inr rfl, Or.inr rfl⟩ (up _ _ hside.1) (up _ _ hu.1)
      | exact corner (_, _) ⟨Or.inr rfl, Or.inl rfl⟩ (up _ _ hu.1) (dn _ _ hside.1)
      | exact corner (_, _) ⟨Or.inr rfl, Or.inl rfl⟩ (up _ _ hside.1) (dn _ _ hu.1)
      | exact corner (_, _) ⟨Or.inl rfl, Or.inr rfl⟩ (dn _ _ hu.1) (up _ _ hside.1)
      | exact corner (_, _) ⟨Or.inl rfl, Or.inr rfl⟩ (dn _ _ hside.1) (up _ _ hu.1)
      | exact corner (_, _) ⟨Or.inl rfl, Or.inl rfl⟩ (dn _ _ hu.1) (dn _ _ hside.1)
      | exact corner (_, _) ⟨Or.inl rfl, Or.inl rfl⟩ (dn _ _ hside.1) (dn _ _ hu.1)
  exact ⟨β, hconv c ((wallAt_eq hW hi.1 hi.2 hj.1 hj.2).mpr ⟨hc, hus ▸ hcs⟩) hil⟩

/-- **C34**: at every pose whatsoever a returned wall belongs to the maze and its distances are finite, as the wall
detector requires (C36 to C40). -/
theorem C34_good {sw ww ir il : ℝ} (hww : 0 < ww) (hsw : ww < sw) {W : Nat} (hW : Supported W)
    {sort : List (Dir × F) → List (Dir × F)} (hs : Sorts sort) :
    GoodConverter ((Converter.new sw ww ir il).convert W sort) W := by
  intro pose info h
  obtain ⟨-, -, u, α, β, hc, h1, h2, -⟩ := convert_some hww hsw hs (rfl : _ = (_, _)) (rfl : _ = (_, _)) h
  exact ⟨wallAt_valid hW hc, α, β, h1, h2⟩

/-- **C35.** Positions left of or below the maze yield nothing. -/
theorem C35_negative {sw ww ir il : ℝ} {k : Int} (hk : Width sw k) (hww : 0 < ww) (hsw : ww < sw) (W : Nat)
    {sort : List (Dir × F) → List (Dir × F)} (hs : Sorts sort) (pose : Pose) (h : pose.x < 0 ∨ pose.y < 0) :
    (Converter.new sw ww ir il).convert W sort pose = none := by
  match hc : (Converter.new sw ww ir il).convert W sort pose with
  | none => rfl
  | some info =>
    exfalso
    obtain ⟨-, hr, -⟩ := convert_some hww hsw hs (Prod.mk.eta (p := (Converter.new sw ww ir il).remquo pose.x)).symm
      (Prod.mk.eta (p := (Converter.new sw ww ir il).remquo pose.y)).symm hc
    rcases h with h | h
    · linarith [remquo_neg hk ww ir il h, hr.1]
    · linarith [remquo_neg hk ww ir il h, hr.2.2.1]

/-- **C35.** Right of or above the maze, less than 128 cells away from the origin, only the outer wall itself is seen, and
only from the cell next to it. -/
theorem C35_outside {sw ww ir il : ℝ} {k : Int} (hk : Width sw k) (hww : 0 < ww) (hsw : ww < sw) {W : Nat} (hW : Supported W)
    {sort : List (Dir × F) → List (Dir × F)} (hs : Sorts sort) (pose : Pose) {i j : Int} (hi : 0 ≤ i ∧ i < 128)
    (hj : 0 ≤ j ∧ j < 128) (hx : InCell sw pose.x i) (hy : InCell sw pose.y j) (hout : (W : Int) ≤ i ∨ (W : Int) ≤ j)
    (info : WallInfo) (h : (Converter.new sw ww ir il).convert W sort pose = some info) :
    (i = W ∧ j < W ∧ (info.coord.x : Int) = 2 * W - 1 ∧ (info.coord.y : Int) = 2 * j) ∨
    (j = W ∧ i < W ∧ (info.coord.x : Int) = 2 * i ∧ (info.coord.y : Int) = 2 * W - 1) := by
  obtain ⟨-, side, a, b, ⟨v1, v2, -⟩, hc, -⟩ := C34_wall hk hww hsw hW hs pose hi hj hx hy info h
  have v1' : (info.coord.x : Int) < 2 * W := by exact_mod_cast v1
  have v2' : (info.coord.y : Int) < 2 * W := by exact_mod_cast v2
  cases side <;> simp only [sideOf, Prod.mk.injEq] at hc <;> omega

/-! ## Sorting is possible -/

/-- Insertion sort by distance. -/
noncomputable def demoSort (l : List (Dir × F)) : List (Dir × F) :=
  open Classical in l.insertionSort (fun a b => a.2.le b.2 ∨ b.2 = .nan)

theorem demoSort_sorts : Sorts demoSort := by
  classical
  intro l hl
  have hp : (demoSort l).Perm l := List.perm_insertionSort _ l
  refine ⟨hp, ?_⟩
  have : Std.Total (fun a b : Dir × F => a.2.le b.2 ∨ b.2 = .nan) := ⟨by
    rintro ⟨-, a⟩ ⟨-, b⟩
    cases a <;> cases b <;> simp [F.le]
    exact le_total _ _⟩
  have : IsTrans (Dir × F) (fun a b : Dir × F => a.2.le b.2 ∨ b.2 = .nan) := ⟨by
    rintro ⟨-, a⟩ ⟨-, b⟩ ⟨-, c⟩
    cases a <;> cases b <;> cases c <;> simp [F.le]
    exact le_trans⟩
  have hs : (demoSort l).Pairwise (fun a b => a.2.le b.2 ∨ b.2 = .nan) :=
    List.pairwise_insertionSort (r := fun a b : Dir × F => a.2.le b.2 ∨ b.2 = .nan) l
  refine hs.imp_of_mem ?_
  intro a b _ hb h
  exact h.resolve_right (hl b (hp.mem_iff.mp hb))

theorem default_width : Width (9 / 100) 90 := ⟨by norm_num, by norm_num, by norm_num⟩

theorem default_good {W : Nat} (hW : Supported W) : GoodConverter (Converter.default.convert W demoSort) W :=
  C34_good (by norm_num) (by norm_num) hW demoSort_sorts

/-! ## A robot looking to the right from the centre of a cell -/

/-- In the centre of the cell `(i, 0)`, looking to the right. -/
noncomputable def centre (i : Int) : Pose := ⟨i * (9 / 100) + 45 / 1000, 45 / 1000, 0⟩

theorem centre_far (i : Int) (q : ℝ × ℝ) (hq : pillarOf (9 / 100) i 0 q) : (45 / 1000 : ℝ) ≤ lineDist (centre i) q := by
  obtain ⟨-, h | h⟩ := hq
  all_goals
    simp only [lineDist, centre, Real.sin_zero, Real.cos_zero, h]
    norm_num

theorem centre_leaves (i : Int) : LeavesAt (room (9 / 100) (6 / 1000) i 0) (centre i) (42 / 1000) := by
  refine ⟨by norm_num, fun t h0 h1 => ?_, fun h => ?_⟩
  · simp only [Box.inside, room, ray, centre, Real.sin_zero, Real.cos_zero, mul_one, mul_zero, Int.cast_zero]
    exact ⟨⟨by linarith, by linarith⟩, by norm_num, by norm_num⟩
  · simp only [Box.inside, room, ray, centre, Real.sin_zero, Real.cos_zero, mul_one] at h
    linarith [h.1.2]

theorem centre_side (i : Int) : (room (9 / 100) (6 / 1000) i 0).onSide (ray (centre i) (42 / 1000)) .right := by
  simp only [Box.onSide, room, ray, centre, Real.sin_zero, Real.cos_zero, mul_one, mul_zero, Int.cast_zero]
  exact ⟨by ring, by norm_num, by norm_num⟩

/-- The hypotheses of `C34_complete` and `C34_wall` are met: the cell `(3, 0)` of a maze of width 16, wall `(7, 0)`. -/
example : ∃ b, Converter.default.convert 16 demoSort (centre 3) = some ⟨⟨7, 0⟩, .fin (42 / 1000), .fin b⟩ :=
  C34_complete default_width (by norm_num) (by norm_num) (by norm_num) ⟨4, by decide⟩ demoSort_sorts (centre 3)
    (i := 3) (j := 0) (by norm_num) (by norm_num)
    (by simp only [Box.inside, room, centre]; norm_num)
    (fun q hq => by linarith [centre_far 3 q hq]) (centre_leaves 3) (centre_side 3) (by norm_num) ⟨7, 0⟩
    ⟨by decide, by decide, by decide⟩ rfl

/-- **C35**, the exception: 128 cells to the right of the cell `(0, 0)` the wall `(1, 0)` is reported, at the distance of
the line of the grid in front of the robot. -/
theorem C35_wrap : ∃ b, Converter.default.convert 16 demoSort (centre 128) = some ⟨⟨1, 0⟩, .fin (42 / 1000), .fin b⟩ := by
  have hn : ¬ Converter.default.isNearPillar ⟨(centre 128).x - (128 : Int) * (9 / 100), (centre 128).y - (0 : Int) * (9 / 100),
      (centre 128).theta⟩ := by
    intro h
    obtain ⟨q, h1, h2⟩ := near_pillar_of h
    linarith [centre_far 128 q h1]
  obtain ⟨u, α, β, he, hc⟩ := convert_of (sw := 9 / 100) (ww := 6 / 1000) (ir := 1 / 100) (il := 8 / 1000) (W := 16)
    (by norm_num) (by norm_num) demoSort_sorts (p := centre 128)
    (remquo_eq default_width _ _ _ (i := 128) (by norm_num) (by norm_num) (by simp only [InCell, centre]; norm_num))
    (remquo_eq default_width _ _ _ (i := 0) (by norm_num) (by norm_num) (by simp only [InCell, centre]; norm_num))
    hn (by simp only [centre]; norm_num)
  have hα : α = 42 / 1000 := leaves_unique ((leaves_shift _ _ _ _ _ _).mpr he.leaves) (centre_leaves 128)
  subst hα
  have hs := (onSide_shift (9 / 100) (6 / 1000) 128 0 (centre 128) _ u).mpr he.side
  have hu : u = .right := by
    cases u
    · rfl
    all_goals
      exfalso
      simp only [Box.onSide, room, ray, centre, Real.sin_zero, Real.cos_zero] at hs
      norm_num at hs
  subst hu
  exact ⟨β, hc ⟨1, 0⟩ (by decide) (by norm_num)⟩

/-- The ring around the maze, `C35_outside`: the position just right of a maze of width 16 is in the cell `(16, 0)`. -/
example : InCell (9 / 100) (centre 16).x 16 ∧ InCell (9 / 100) (centre 16).y 0 := by
  simp only [InCell, centre]; norm_num

example : Converter.default.convert 16 demoSort ⟨-1 / 2, 45 / 1000, 0⟩ = none :=
  C35_negative default_width (by norm_num) (by norm_num) 16 demoSort_sorts _ (Or.inl (by norm_num))

end Verif.Props
