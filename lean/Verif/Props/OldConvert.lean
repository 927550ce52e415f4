import Verif.Proof.OldDetect
/-!
# C90: the wall seen from a pose, former crate
-/
namespace Verif.Props
open Verif Verif.Spec Verif.Proof Verif.Old Verif.Old.Detect Verif.Proof.OldE
open Verif.Detect (Pose WallInfo)
open Verif.Convert (Converter Dir)

variable {sw ww ir il : ℝ} {k : Int} {W : Nat} {sort : List (Dir × F) → List (Dir × F)}

/-- **C90.** A returned wall is the side through which the ray leaves the room of the cell containing the pose, `existing` is the
distance at which it does, and `notExisting` the distance at which it would leave the room if that wall were absent and the next cell
open. -/
theorem C90_wall (hk : Width sw k) (hww : 0 < ww) (hsw : ww < sw) (hW : Supported W) (hs : Sorts sort) (pose : Pose) {i j : Int}
    (hi : 0 ≤ i ∧ i < 256) (hj : 0 ≤ j ∧ j < 256) (hx : InCell sw pose.x i) (hy : InCell sw pose.y j) (info : Info)
    (h : convert (Converter.new sw ww ir il) W sort pose = .ok info) :
    (room sw ww i j).inside (ray pose 0) ∧
    ∃ side a b, InMaze W info.wall ∧ ((info.wall.x : Int), (info.wall.y : Int), info.wall.top) = oldSide i j side ∧
      info.existing = .fin a ∧ info.notExisting = .fin b ∧
      LeavesAt (room sw ww i j) pose a ∧ (room sw ww i j).onSide (ray pose a) side ∧
      LeavesAt ((room sw ww i j).extend sw side) pose b ∧ il < a ∧ a ≤ b ∧ (ww / 2 < ir → a < b) := by
  obtain ⟨-, hr, u, α, β, hc, h1, h2, he, hil, hd⟩ := OldE.convert_some hww hsw hs (remquo_eq hk ww ir il hi.1 (by omega) hx)
    (remquo_eq hk ww ir il hj.1 (by omega) hy) h
  obtain ⟨hv, hcoord⟩ := (sideWall_ok hW hi.1 hi.2 hj.1 hj.2).mp hc
  refine ⟨?_, u, α, β, hv, hcoord, h1, h2, (leaves_shift _ _ _ _ _ _).mpr he.leaves,
    (onSide_shift _ _ _ _ _ _ _).mpr he.side, (leaves_extend_shift _ _ _ _ _ _ _).mpr he.beyond, hil, he.le, hd⟩
  exact ((leaves_shift _ _ _ _ _ _).mpr he.leaves).2.1 0 le_rfl he.pos

/-- **C90, both crates agree**: within 128 cells in both directions the former converter returns the same wall and the same distances
as the newer one. -/
theorem C90_same (hk : Width sw k) (hW : Supported W) (pose : Pose) {i j : Int} (hi : 0 ≤ i ∧ i < 128) (hj : 0 ≤ j ∧ j < 128)
    (hx : InCell sw pose.x i) (hy : InCell sw pose.y j) :
    (∀ (c : Search.Coord) a b, (Converter.new sw ww ir il).convert W sort pose = some ⟨c, a, b⟩ →
      convert (Converter.new sw ww ir il) W sort pose = .ok ⟨oldWallAt c, a, b⟩) ∧
    ∀ w a b, convert (Converter.new sw ww ir il) W sort pose = .ok ⟨w, a, b⟩ →
      ∃ c, oldWallAt c = w ∧ (Converter.new sw ww ir il).convert W sort pose = some ⟨c, a, b⟩ := by
  have ex := remquo_eq hk ww ir il hi.1 (by omega) hx
  have ey := remquo_eq hk ww ir il hj.1 (by omega) hy
  unfold convert Converter.convert
  rw [ex, ey]
  dsimp only
  split_ifs with h1 h2
  · constructor <;> (intro _ _ _ h; cases h)
  · constructor <;> (intro _ _ _ h; cases h)
  · generalize sort _ = l
    match l with
    | [] => exact ⟨fun _ _ _ h => (by cases h), fun _ _ _ h => (by cases h)⟩
    | [_] => exact ⟨fun _ _ _ h => (by cases h), fun _ _ _ h => (by cases h)⟩
    | (u, a) :: (v, b) :: r =>
      dsimp only
      constructor
      · intro c a' b' h
        match hw : Convert.wallAt W i j u with
        | none => rw [hw] at h; cases h
        | some c' =>
          rw [hw] at h
          have := (sideWall_newer hW hi.1 hi.2 hj.1 hj.2).mpr ⟨c', hw, rfl⟩
          rw [this]
          dsimp only at h ⊢
          split_ifs at h ⊢
          cases h
          rfl
      · intro w a' b' h
        match hw : sideWall W i j u with
        | .error _ => rw [hw] at h; cases h
        | .ok w' =>
          rw [hw] at h
          obtain ⟨c, hc, hcw⟩ := (sideWall_newer hW hi.1 hi.2 hj.1 hj.2).mp hw
          rw [hc]
          dsimp only at h ⊢
          split_ifs at h ⊢
          cases h
          exact ⟨c, hcw, rfl⟩

/-- **C90, the converse**: a wall of the maze at which the ray leaves the room, further than the ignored length and with no pillar
near the line of the ray, is returned. -/
theorem C90_complete (hk : Width sw k) (hww : 0 < ww) (hsw : ww < sw) (hir : ww < ir) (hW : Supported W) (hs : Sorts sort) (pose : Pose)
    {i j : Int} (hi : 0 ≤ i ∧ i < 128) (hj : 0 ≤ j ∧ j < 128) (hin : (room sw ww i j).inside (pose.x, pose.y))
    (hp : ∀ q, pillarOf sw i j q → ir ≤ lineDist pose q) {side : Dir} {a : ℝ} (ha : LeavesAt (room sw ww i j) pose a)
    (hside : (room sw ww i j).onSide (ray pose a) side) (hil : il < a) (w : Wall) (hw : InMaze W w)
    (hws : ((w.x : Int), (w.y : Int), w.top) = oldSide i j side) :
    ∃ b, convert (Converter.new sw ww ir il) W sort pose = .ok ⟨w, .fin a, .fin b⟩ := by
  obtain ⟨c, hc, rfl⟩ := (sideWall_newer hW hi.1 hi.2 hj.1 hj.2).mp ((sideWall_ok hW hi.1 (by omega) hj.1 (by omega)).mpr ⟨hw, hws⟩)
  obtain ⟨hv, hcs⟩ := (Verif.Proof.wallAt_eq hW hi.1 hi.2 hj.1 hj.2).mp hc
  obtain ⟨b, hb⟩ := C34_complete hk hww hsw hir hW hs pose hi hj hin hp ha hside hil c hv hcs
  have hpos := width_pos hk
  obtain ⟨⟨hx1, hx2⟩, hy1, hy2⟩ := hin
  simp only [room] at hx1 hx2 hy1 hy2
  exact ⟨b, (C90_same hk hW pose hi hj ⟨by linarith, by linarith⟩ ⟨by linarith, by linarith⟩).1 c _ _ hb⟩

/-- **C90, no other walls**: at every pose whatsoever a returned wall belongs to the maze and its distances are finite. -/
theorem C90_good (hww : 0 < ww) (hsw : ww < sw) (hW : Supported W) (hs : Sorts sort) (pose : Pose) (info : Info)
    (h : convert (Converter.new sw ww ir il) W sort pose = .ok info) :
    InMaze W info.wall ∧ ∃ a b, info.existing = .fin a ∧ info.notExisting = .fin b := by
  obtain ⟨-, -, u, α, β, hc, h1, h2, -⟩ := OldE.convert_some hww hsw hs (rfl : _ = (_, _)) (rfl : _ = (_, _)) h
  exact ⟨sideWall_inMaze hW hc, α, β, h1, h2⟩

/-- **C90, errors**: from a cell of the maze the converter never tries to make a wall that does not exist; left of or below the maze it
returns the error for poses out of bounds. -/
theorem C90_errors (hk : Width sw k) (hww : 0 < ww) (hsw : ww < sw) (hW : Supported W) (hs : Sorts sort) (pose : Pose) :
    (∀ i j : Nat, i < W → j < W → InCell sw pose.x i → InCell sw pose.y j →
      convert (Converter.new sw ww ir il) W sort pose ≠ .error .wallCreation) ∧
    (pose.x < 0 ∨ pose.y < 0 → convert (Converter.new sw ww ir il) W sort pose = .error .outOfBound) := by
  have hW32 := hW.le
  constructor
  · intro i j hi hj hx hy
    have ex := remquo_eq hk ww ir il (i := i) (by omega) (by omega) hx
    have ey := remquo_eq hk ww ir il (i := j) (by omega) (by omega) hy
    by_cases hb : (Converter.new sw ww ir il).isNearPillar ⟨pose.x - (i : Int) * sw, pose.y - (j : Int) * sw, pose.theta⟩ ∨
        pose.x - (i : Int) * sw ≤ (Converter.new sw ww ir il).n1 ∨ (Converter.new sw ww ir il).p1 ≤ pose.x - (i : Int) * sw ∨
        pose.y - (j : Int) * sw ≤ (Converter.new sw ww ir il).n1 ∨ (Converter.new sw ww ir il).p1 ≤ pose.y - (j : Int) * sw
    · rw [convert_bad ex ey hb]
      simp
    · push Not at hb
      obtain ⟨h1, h2⟩ := hb
      obtain ⟨u, α, β, -, he, ho⟩ := OldE.convert_of (W := W) hww hsw hs ex ey h1 h2
      match hw : sideWall W i j u with
      | .ok c =>
        rw [ho c hw]
        split <;> simp
      | .error e =>
        rw [he e hw]
        intro h
        cases h
        have key : ∀ (x y : Int) (top : Bool), 0 ≤ x → x < W → 0 ≤ y → y < W →
            sideWall.make (Wall.new W (Convert.asU8 x) (Convert.asU8 y) top) ≠ .error .wallCreation := by
          intro x y top hx0 hx hy0 hy
          have e1 := asU8_eq hx0 (by omega)
          have e2 := asU8_eq hy0 (by omega)
          rw [wallNew_eq hW, if_pos (by omega)]
          simp [sideWall.make]
        cases u <;> simp only [sideWall] at hw <;> split at hw
        all_goals first
          | (cases hw; done)
          | exact key _ _ _ (by omega) (by omega) (by omega) (by omega) hw
  · intro h
    refine convert_bad (rfl : _ = (_, _)) (rfl : _ = (_, _)) (Or.inr ?_)
    have hn : (0 : ℝ) ≤ (Converter.new sw ww ir il).n1 := by show 0 ≤ ww / 2; linarith
    rcases h with h | h
    · exact Or.inl (le_trans (remquo_neg hk ww ir il h) hn)
    · exact Or.inr (Or.inr (Or.inl (le_trans (remquo_neg hk ww ir il h) hn)))

/-- **C90, outside**: right of or above the maze, up to 256 cells, a wall is returned only from the cells next to the maze, and it is
the wall of the border between. -/
theorem C90_outside (hk : Width sw k) (hww : 0 < ww) (hsw : ww < sw) (hW : Supported W) (hs : Sorts sort) (pose : Pose) {i j : Int}
    (hi : 0 ≤ i ∧ i < 256) (hj : 0 ≤ j ∧ j < 256) (hx : InCell sw pose.x i) (hy : InCell sw pose.y j) (hout : (W : Int) ≤ i ∨ (W : Int) ≤ j)
    (info : Info) (h : convert (Converter.new sw ww ir il) W sort pose = .ok info) :
    (i = W ∧ j < W ∧ info.wall = ⟨W - 1, j.toNat, false⟩) ∨ (j = W ∧ i < W ∧ info.wall = ⟨i.toNat, W - 1, true⟩) := by
  obtain ⟨-, side, a, b, ⟨v1, v2⟩, hc, -⟩ := C90_wall hk hww hsw hW hs pose hi hj hx hy info h
  obtain ⟨⟨x, y, t⟩, _, _⟩ := info
  simp only at v1 v2 hc
  have := hW.pos
  cases side <;> simp only [oldSide, Prod.mk.injEq] at hc <;> simp only [Wall.mk.injEq]
  · omega
  · obtain ⟨c1, c2, c3⟩ := hc
    exact Or.inl ⟨by omega, by omega, by omega, by omega, c3⟩
  · omega
  · obtain ⟨c1, c2, c3⟩ := hc
    exact Or.inr ⟨by omega, by omega, by omega, by omega, c3⟩

/-- **C90, what the detector needs**: there is a function that says what is seen from each pose, and the converter returns just that. -/
theorem C90_sees (hww : 0 < ww) (hsw : ww < sw) (hW : Supported W) (hs : Sorts sort) :
    ∃ see, Sees W (convertF (Converter.new sw ww ir il) W sort) see ∧
      ∀ p e, see p = some e ↔ convert (Converter.new sw ww ir il) W sort p = .ok ⟨e.wall, .fin e.near, .fin e.far⟩ := by
  have hg := C90_good (ir := ir) (il := il) hww hsw hW hs
  let see : Pose → Option Seen := fun p =>
    match convert (Converter.new sw ww ir il) W sort p with
    | .ok ⟨w, .fin a, .fin b⟩ => some ⟨w, a, b⟩
    | _ => none
  have key : ∀ p e, see p = some e ↔ convert (Converter.new sw ww ir il) W sort p = .ok ⟨e.wall, .fin e.near, .fin e.far⟩ := by
    intro p e
    show (match convert (Converter.new sw ww ir il) W sort p with
      | .ok ⟨w, .fin a, .fin b⟩ => some (⟨w, a, b⟩ : Seen)
      | _ => none) = _ ↔ _
    constructor
    · intro h
      split at h
      · cases h; assumption
      · cases h
    · intro h
      rw [h]
  refine ⟨see, fun p => ?_, key⟩
  cases h : see p with
  | some e =>
    have h' := (key p e).mp h
    exact ⟨(hg p _ h').1, congrArg Except.ok h'⟩
  | none =>
    cases hc : convert (Converter.new sw ww ir il) W sort p with
    | error e => exact ⟨e, congrArg Except.ok hc⟩
    | ok info =>
      obtain ⟨-, a, b, h1, h2⟩ := hg p info hc
      obtain ⟨w, x, y⟩ := info
      simp only at h1 h2
      subst h1 h2
      rw [(key p ⟨w, a, b⟩).mpr hc] at h
      cases h

/-! ## Cases -/

/-- The hypotheses are met: the cell `(3, 0)` of a maze of width 16, looking to the right. -/
example : ∃ b, convert Converter.default 16 demoSort (centre 3) = .ok ⟨⟨3, 0, false⟩, .fin (42 / 1000), .fin b⟩ :=
  C90_complete default_width (by norm_num) (by norm_num) (by norm_num) ⟨4, by decide⟩ demoSort_sorts (centre 3)
    (i := 3) (j := 0) (by norm_num) (by norm_num)
    (by simp only [Box.inside, room, centre]; norm_num)
    (fun q hq => by linarith [centre_far 3 q hq]) (centre_leaves 3) (centre_side 3) (by norm_num) ⟨3, 0, false⟩
    ⟨by decide, by decide⟩ rfl

/-- **C90, finding**: 256 cells to the right of the cell `(0, 0)` the wall right of that cell is reported. The newer converter does so
128 cells to the right already, where the former one still returns an error. -/
theorem C90_wrap : (∃ b, convert Converter.default 16 demoSort (centre 256) = .ok ⟨⟨0, 0, false⟩, .fin (42 / 1000), .fin b⟩) ∧
    convert Converter.default 16 demoSort (centre 128) = .error .wallCreation := by
  have main : ∀ i : Int, 0 ≤ i → i ≤ 256 → ∃ α β, α = 42 / 1000 ∧
      (∀ e, sideWall 16 i 0 .right = .error e → convert Converter.default 16 demoSort (centre i) = .error e) ∧
      ∀ c, sideWall 16 i 0 .right = .ok c → convert Converter.default 16 demoSort (centre i) =
        if α ≤ 8 / 1000 then .error .outOfBound else .ok ⟨c, .fin α, .fin β⟩ := by
    intro i hi0 hi
    have hn : ¬ Converter.default.isNearPillar ⟨(centre i).x - i * (9 / 100), (centre i).y - (0 : Int) * (9 / 100), (centre i).theta⟩ := by
      intro h
      obtain ⟨q, h1, h2⟩ := near_pillar_of h
      linarith [centre_far i q h1]
    obtain ⟨u, α, β, he, hc⟩ := OldE.convert_of (sw := 9 / 100) (ww := 6 / 1000) (ir := 1 / 100) (il := 8 / 1000) (W := 16)
      (by norm_num) (by norm_num) demoSort_sorts (p := centre i)
      (remquo_eq default_width _ _ _ (i := i) hi0 (by omega) (by
        simp only [InCell, centre]
        constructor <;> linarith))
      (remquo_eq default_width _ _ _ (i := 0) (by norm_num) (by norm_num) (by simp only [InCell, centre]; norm_num))
      hn (by simp only [centre]; norm_num)
    have hα : α = 42 / 1000 := leaves_unique ((leaves_shift _ _ _ _ _ _).mpr he.leaves) (centre_leaves i)
    have hs := (onSide_shift (9 / 100) (6 / 1000) i 0 (centre i) _ u).mpr he.side
    have hu : u = .right := by
      cases u
      · rfl
      all_goals
        exfalso
        subst hα
        simp only [Box.onSide, room, ray, centre, Real.sin_zero, Real.cos_zero] at hs
        first
          | linarith [hs.1, hs.2]
          | (norm_num at hs; try linarith)
    subst hu
    exact ⟨α, β, hα, hc⟩
  obtain ⟨α, β, rfl, -, h1⟩ := main 256 (by norm_num) (by norm_num)
  obtain ⟨-, -, -, h2, -⟩ := main 128 (by norm_num) (by norm_num)
  refine ⟨⟨β, ?_⟩, h2 .wallCreation (by decide)⟩
  rw [h1 ⟨0, 0, false⟩ (by decide), if_neg (by norm_num)]

/-- **C90, finding**: a position that is not a number makes the converter panic; an infinite one makes it panic if the robot looks
along the axis of a finite coordinate, and is out of bounds otherwise. -/
theorem C90_infinite (c : Converter) (W : Nat) (sort : List (Dir × F) → List (Dir × F)) (y θ : ℝ) (v : F) :
    convertF c W sort ⟨.nan, v, θ⟩ = .error .assert ∧ convertF c W sort ⟨v, .nan, θ⟩ = .error .assert ∧
    (Real.sin θ = 0 → convertF c W sort ⟨.pinf, .fin y, θ⟩ = .error .unwrapNone) ∧
    (Real.sin θ ≠ 0 → convertF c W sort ⟨.pinf, .fin y, θ⟩ = .ok (.error .outOfBound)) := by
  refine ⟨?_, ?_, ?_, ?_⟩
  · unfold convertF; cases v <;> rfl
  · unfold convertF; cases v <;> rfl
  · intro h
    unfold convertF
    dsimp only
    rw [if_pos]
    left
    unfold pillarDist
    rw [h]
    simp [exact, Arith.sub, Arith.add, Arith.mul, F.neg, F.infOf, F.abs, F.isNan]
  · intro h
    unfold convertF
    dsimp only
    rw [if_neg]
    unfold pillarDist
    rcases lt_or_gt_of_ne h with h | h
    · simp [exact, Arith.sub, Arith.add, Arith.mul, F.neg, F.infOf, F.abs, F.isNan, h, not_lt.mpr h.le]
    · simp [exact, Arith.sub, Arith.add, Arith.mul, F.neg, F.infOf, F.abs, F.isNan, h]

example : convertF Converter.default 16 demoSort ⟨.pinf, .fin 0, 0⟩ = .error .unwrapNone :=
  (C90_infinite _ _ _ 0 0 .nan).2.2.1 Real.sin_zero

/-- Left of the maze. -/
example : convert Converter.default 16 demoSort ⟨-1 / 2, 45 / 1000, 0⟩ = .error .outOfBound :=
  (C90_errors default_width (by norm_num) (by norm_num) ⟨4, by decide⟩ demoSort_sorts _).2 (Or.inl (by norm_num))

end Verif.Props
