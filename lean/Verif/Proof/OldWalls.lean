import Verif.Proof.OldSearchNode
/-! The walls crossed by the moves of the former core crate. -/
namespace Verif.Proof.OldS
open Verif Verif.Run Verif.Spec Verif.Old Verif.Proof Verif.Proof.OldN

variable {W : Nat} {n m : Node}

/-- The wall position at a displacement. -/
def posAt (n : Node) (d : V) : Search.Coord := ⟨(n.x + d.1).toNat, (n.y + d.2).toNat⟩

/-- There is a wall position of the maze at a displacement. -/
def WallIn (W : Nat) (n : Node) (d : V) : Prop := ∃ c : Search.Coord, (c.x : Int) = n.x + d.1 ∧ (c.y : Int) = n.y + d.2 ∧ Valid W c

theorem relWall_in (hW : Supported W) (h1 : n.x < 2 * W) (h2 : n.y < 2 * W) {base : Posture} {dx dy : Int} {v : V}
    (ht : turnInto base n.posture dx dy = .ok v) (hin : WallIn W n v) :
    relativeWall W n dx dy base = .ok (some (oldWallAt (posAt n v))) := by
  obtain ⟨c, hx, hy, hc⟩ := hin
  have := hW.le
  unfold Valid at hc
  obtain ⟨c1, c2, c3⟩ := hc
  rw [relWall_gen hW h1 h2 ht (by unfold Near; omega) (by omega), if_pos (by omega)]
  rfl

theorem addWalls_eq (hW : Supported W) (h1 : n.x < 2 * W) (h2 : n.y < 2 * W) {base : Posture} (v : V → V) :
    ∀ (L : List V) (acc : List Wall), (∀ d ∈ L, turnInto base n.posture d.1 d.2 = .ok (v d) ∧ WallIn W n (v d)) →
      acc.length + L.length ≤ WALLS_MAX → addWalls W n base L acc = .ok (acc ++ L.map fun d => oldWallAt (posAt n (v d)))
  | [], acc, _, _ => by simp [addWalls]
  | (dx, dy) :: rest, acc, h, hl => by
    unfold addWalls
    obtain ⟨ht, hin⟩ := h (dx, dy) (by simp)
    rw [relWall_in hW h1 h2 ht hin]
    simp only [bind, Except.bind, pushCap]
    simp only [List.length_cons] at hl
    rw [if_pos (by omega)]
    simp only
    rw [addWalls_eq hW h1 h2 v rest _ (fun d hd => h d (by simp [hd])) (by simp; omega)]
    simp

theorem difference_of (hW : Supported W) (h1 : n.x < 2 * W) (h2 : n.y < 2 * W) (h3 : m.x < 2 * W) (h4 : m.y < 2 * W) {base : Posture}
    {dx dy : Int} {v : V} (ht : turnInto base n.posture dx dy = .ok v) (hx : (m.x : Int) = n.x + v.1) (hy : (m.y : Int) = n.y + v.2) :
    difference n m base = .ok (dx, dy, relativeDir n.posture m.posture) := by
  have := hW.le
  unfold turnInto at ht
  unfold difference
  rw [i8_ok (by omega), i8_ok (by omega)]
  cases hr : relativeDir base n.posture <;> rw [hr] at ht <;> simp only [reduceCtorEq, Except.ok.injEq] at ht <;> subst ht <;>
    simp only [bind, Except.bind, pure, Except.pure, hx, hy, Except.ok.injEq, Prod.mk.injEq, and_true] <;> omega

/-- The displacement of the code in the frame of the maze. -/
def codeVec (p : Posture) (d : V) : V := inFrame (e1 p) (e2 p) d

theorem range_length {k : Nat} {w : Nat → V} (hW : Supported W) (hs : ∀ i < k, WallIn W n (w i))
    (h : ∀ i j, i < j → (w j).1 - (w i).1 ≥ (j : Int) - i ∨ (w i).1 - (w j).1 ≥ (j : Int) - i ∨ (w j).2 - (w i).2 ≥ (j : Int) - i ∨ (w i).2 - (w j).2 ≥ (j : Int) - i) :
    k ≤ WALLS_MAX := by
  have hle := hW.le
  have e : WALLS_MAX = 64 := rfl
  by_contra hk
  obtain ⟨c, c1, c2, c3⟩ := hs 0 (by omega)
  obtain ⟨d, d1, d2, d3⟩ := hs (k - 1) (by omega)
  have := h 0 (k - 1) (by omega)
  unfold Valid at c3 d3
  omega

theorem walls_between (hW : Supported W) (hn : Legal W n) {k : EdgeKind} {crossed : List V} (hR : Related n k m crossed)
    (h3 : m.x < 2 * W) (h4 : m.y < 2 * W) (hin : ∀ d ∈ crossed, WallIn W n d) :
    wallsBetween W n m = .ok (crossed.map fun d => oldWallAt (posAt n d)) := by
  obtain ⟨f, s, fin, head, cr, hF, hS, hx, hy, hh, rfl⟩ := hR
  have h1 := hn.1
  have h2 := hn.2.1
  by_cases hc : n.x % 2 = 0 ∧ n.y % 2 = 0
  · have hA := (frame_centre hn hc f s).mp hF
    have hloc : location n = .cell := by unfold location; simp only [and_one]; rw [if_pos hc.1, if_pos hc.2]
    unfold Shape at hS
    rw [if_pos hc] at hS
    have hb : baseOf n = .north := if_pos hc
    have hT := fun dx dy => turnInto_eq hn dx dy
    rw [hb] at hT
    unfold wallsBetween
    rw [hloc]
    simp only
    obtain ⟨x, y, p⟩ := n
    obtain ⟨x', y', p'⟩ := m
    simp only at h1 h2 h3 h4 hx hy hh hT hA hc
    have key : ∀ (L : List V) (dx dy : Int), turnInto .north p dx dy = .ok (inFrame f s fin) →
        (∀ d ∈ L, turnInto .north p d.1 d.2 = .ok (codeVec p d)) → L.map (codeVec p) = cr.map (inFrame f s) → L.length ≤ WALLS_MAX →
        difference (⟨x, y, p⟩ : Node) ⟨x', y', p'⟩ .north = .ok (dx, dy, relativeDir p p') ∧
        addWalls W ⟨x, y, p⟩ .north L [] = .ok ((cr.map (inFrame f s)).map fun d => oldWallAt (posAt ⟨x, y, p⟩ d)) := by
      intro L dx dy ht hL he hl
      refine ⟨difference_of hW h1 h2 h3 h4 ht hx hy, ?_⟩
      rw [addWalls_eq (n := ⟨x, y, p⟩) hW h1 h2 (codeVec p) L [] (fun d hd => ⟨hL d hd, hin _ (he ▸ List.mem_map_of_mem hd)⟩) (by simpa using hl)]
      rw [← he, List.nil_append, List.map_map]
      rfl
    have hL : ∀ L : List V, ∀ d ∈ L, turnInto .north p d.1 d.2 = .ok (codeVec p d) := fun L d _ => hT d.1 d.2
    obtain ⟨hA, hp⟩ := hA
    cases hS with
    | straight j hj =>
      have hj : j ≤ WALLS_MAX := by
        have := hW.le
        have : WALLS_MAX = 64 := rfl
        unfold Axes at hA
        rcases hA with ⟨rfl, rfl⟩ | ⟨rfl, rfl⟩ | ⟨rfl, rfl⟩ | ⟨rfl, rfl⟩ | ⟨rfl, rfl⟩ | ⟨rfl, rfl⟩ | ⟨rfl, rfl⟩ | ⟨rfl, rfl⟩ <;>
          simp [inFrame] at hx hy <;> omega
      clear hin hF hT hn hc h1 h2 h3 h4 hx hy hloc hb
      obtain ⟨q1, q2⟩ := key ((List.range j).map fun i : Nat => (0, 2 * (i : Int) + 1)) 0 (2 * j) (by
        unfold Axes at hA
        rcases hA with ⟨rfl, rfl⟩ | ⟨rfl, rfl⟩ | ⟨rfl, rfl⟩ | ⟨rfl, rfl⟩ | ⟨rfl, rfl⟩ | ⟨rfl, rfl⟩ | ⟨rfl, rfl⟩ | ⟨rfl, rfl⟩ <;>
          cases p <;> simp [heading] at hp <;> simp [turnInto, relativeDir, inFrame]) (hL _) (by
        unfold Axes at hA
        rcases hA with ⟨rfl, rfl⟩ | ⟨rfl, rfl⟩ | ⟨rfl, rfl⟩ | ⟨rfl, rfl⟩ | ⟨rfl, rfl⟩ | ⟨rfl, rfl⟩ | ⟨rfl, rfl⟩ | ⟨rfl, rfl⟩ <;>
          cases p <;> simp [heading] at hp <;> simp [codeVec, e1, e2, inFrame]) (by simpa using hj)
      have hrel : relativeDir p p' = .front := by
        unfold Axes at hA
        rcases hA with ⟨rfl, rfl⟩ | ⟨rfl, rfl⟩ | ⟨rfl, rfl⟩ | ⟨rfl, rfl⟩ | ⟨rfl, rfl⟩ | ⟨rfl, rfl⟩ | ⟨rfl, rfl⟩ | ⟨rfl, rfl⟩ <;>
          cases p <;> simp [heading] at hp <;> cases p' <;> simp [heading, inFrame] at hh <;> rfl
      rw [q1, hrel]
      simp only [bind, Except.bind]
      have : (Int.tdiv (2 * (j : Int)) 2).toNat = j := by
        rw [Int.mul_tdiv_cancel_left _ (by decide)]; simp
      rw [this]
      exact q2
    | slalom45 =>
      clear hin hF hT hn hc h1 h2 h3 h4 hx hy hloc hb
      unfold Axes at hA
      rcases hA with ⟨rfl, rfl⟩ | ⟨rfl, rfl⟩ | ⟨rfl, rfl⟩ | ⟨rfl, rfl⟩ | ⟨rfl, rfl⟩ | ⟨rfl, rfl⟩ | ⟨rfl, rfl⟩ | ⟨rfl, rfl⟩ <;>
        cases p <;> simp [heading] at hp <;> cases p' <;> simp [heading, inFrame] at hh
      all_goals first
        | (obtain ⟨q1, q2⟩ := key [(0, 1), (1, 2)] 1 2 rfl (hL _) rfl (by decide)
           rw [q1]
           simp only [bind, Except.bind, relativeDir]
           exact q2)
        | (obtain ⟨q1, q2⟩ := key [(0, 1), (-1, 2)] (-1) 2 rfl (hL _) rfl (by decide)
           rw [q1]
           simp only [bind, Except.bind, relativeDir]
           exact q2)
    | slalom90 =>
      clear hin hF hT hn hc h1 h2 h3 h4 hx hy hloc hb
      unfold Axes at hA
      rcases hA with ⟨rfl, rfl⟩ | ⟨rfl, rfl⟩ | ⟨rfl, rfl⟩ | ⟨rfl, rfl⟩ | ⟨rfl, rfl⟩ | ⟨rfl, rfl⟩ | ⟨rfl, rfl⟩ | ⟨rfl, rfl⟩ <;>
        cases p <;> simp [heading] at hp <;> cases p' <;> simp [heading, inFrame] at hh
      all_goals first
        | (obtain ⟨q1, q2⟩ := key [(0, 1), (1, 2)] 2 2 rfl (hL _) rfl (by decide)
           rw [q1]
           simp only [bind, Except.bind, relativeDir]
           exact q2)
        | (obtain ⟨q1, q2⟩ := key [(0, 1), (-1, 2)] (-2) 2 rfl (hL _) rfl (by decide)
           rw [q1]
           simp only [bind, Except.bind, relativeDir]
           exact q2)
    | slalom135 =>
      clear hin hF hT hn hc h1 h2 h3 h4 hx hy hloc hb
      unfold Axes at hA
      rcases hA with ⟨rfl, rfl⟩ | ⟨rfl, rfl⟩ | ⟨rfl, rfl⟩ | ⟨rfl, rfl⟩ | ⟨rfl, rfl⟩ | ⟨rfl, rfl⟩ | ⟨rfl, rfl⟩ | ⟨rfl, rfl⟩ <;>
        cases p <;> simp [heading] at hp <;> cases p' <;> simp [heading, inFrame] at hh
      all_goals first
        | (obtain ⟨q1, q2⟩ := key [(0, 1), (1, 2), (2, 1)] 2 1 rfl (hL _) rfl (by decide)
           rw [q1]
           simp only [bind, Except.bind, relativeDir]
           exact q2)
        | (obtain ⟨q1, q2⟩ := key [(0, 1), (-1, 2), (-2, 1)] (-2) 1 rfl (hL _) rfl (by decide)
           rw [q1]
           simp only [bind, Except.bind, relativeDir]
           exact q2)
    | slalom180 =>
      clear hin hF hT hn hc h1 h2 h3 h4 hx hy hloc hb
      unfold Axes at hA
      rcases hA with ⟨rfl, rfl⟩ | ⟨rfl, rfl⟩ | ⟨rfl, rfl⟩ | ⟨rfl, rfl⟩ | ⟨rfl, rfl⟩ | ⟨rfl, rfl⟩ | ⟨rfl, rfl⟩ | ⟨rfl, rfl⟩ <;>
        cases p <;> simp [heading] at hp <;> cases p' <;> simp [heading, inFrame] at hh
      all_goals first
        | (obtain ⟨q1, q2⟩ := key [(0, 1), (1, 2), (2, 1)] 2 0 rfl (hL _) rfl (by decide)
           rw [q1]
           simp only [bind, Except.bind, relativeDir]
           exact q2)
        | (obtain ⟨q1, q2⟩ := key [(0, 1), (-1, 2), (-2, 1)] (-2) 0 rfl (hL _) rfl (by decide)
           rw [q1]
           simp only [bind, Except.bind, relativeDir]
           exact q2)
  · have hA := (frame_bound hn hc f s).mp hF
    unfold Shape at hS
    rw [if_neg hc] at hS
    have hb : baseOf n = .northEast := if_neg hc
    have hT := fun dx dy => turnInto_eq hn dx dy
    rw [hb] at hT
    obtain ⟨hA, hp, hv⟩ := hA
    have hloc : location n = if f.2 = 0 then .verticalBound else .horizontalBound := by
      have : ¬ (n.x % 2 = 1 ∧ n.y % 2 = 1) := by
        obtain ⟨-, -, ⟨q, -⟩ | ⟨q, -⟩⟩ := hn <;> omega
      unfold location
      simp only [and_one]
      split <;> split <;> split <;> first | rfl | (exfalso; omega)
    unfold wallsBetween
    obtain ⟨x, y, p⟩ := n
    obtain ⟨x', y', p'⟩ := m
    simp only at h1 h2 h3 h4 hx hy hh hT hp hc
    have key : ∀ (L : List V) (dx dy : Int), turnInto .northEast p dx dy = .ok (inFrame f s fin) →
        (∀ d ∈ L, turnInto .northEast p d.1 d.2 = .ok (codeVec p d)) → L.map (codeVec p) = cr.map (inFrame f s) → L.length ≤ WALLS_MAX →
        difference (⟨x, y, p⟩ : Node) ⟨x', y', p'⟩ .northEast = .ok (dx, dy, relativeDir p p') ∧
        addWalls W ⟨x, y, p⟩ .northEast L [] = .ok ((cr.map (inFrame f s)).map fun d => oldWallAt (posAt ⟨x, y, p⟩ d)) := by
      intro L dx dy ht hL he hl
      refine ⟨difference_of hW h1 h2 h3 h4 ht hx hy, ?_⟩
      rw [addWalls_eq (n := ⟨x, y, p⟩) hW h1 h2 (codeVec p) L [] (fun d hd => ⟨hL d hd, hin _ (he ▸ List.mem_map_of_mem hd)⟩) (by simpa using hl)]
      rw [← he, List.nil_append, List.map_map]
      rfl
    have hL : ∀ L : List V, ∀ d ∈ L, turnInto .northEast p d.1 d.2 = .ok (codeVec p d) := fun L d _ => hT d.1 d.2
    clear hv
    cases hS with
    | straightDiagonal j hj =>
      have hj : j ≤ WALLS_MAX := by
        have := hW.le
        have : WALLS_MAX = 64 := rfl
        unfold Axes at hA
        rcases hA with ⟨rfl, rfl⟩ | ⟨rfl, rfl⟩ | ⟨rfl, rfl⟩ | ⟨rfl, rfl⟩ | ⟨rfl, rfl⟩ | ⟨rfl, rfl⟩ | ⟨rfl, rfl⟩ | ⟨rfl, rfl⟩ <;>
          simp [inFrame] at hx hy <;> omega
      clear hin hF hT hn hc h1 h2 h3 h4 hx hy hb
      obtain ⟨q1, q2⟩ := key ((List.range j).map fun i : Nat => ((i : Int) + 1, (i : Int) + 1)) j j (by
        unfold Axes at hA
        rcases hA with ⟨rfl, rfl⟩ | ⟨rfl, rfl⟩ | ⟨rfl, rfl⟩ | ⟨rfl, rfl⟩ | ⟨rfl, rfl⟩ | ⟨rfl, rfl⟩ | ⟨rfl, rfl⟩ | ⟨rfl, rfl⟩ <;>
          cases p <;> simp [heading] at hp <;> simp [turnInto, relativeDir, inFrame]) (hL _) (by
        unfold Axes at hA
        rcases hA with ⟨rfl, rfl⟩ | ⟨rfl, rfl⟩ | ⟨rfl, rfl⟩ | ⟨rfl, rfl⟩ | ⟨rfl, rfl⟩ | ⟨rfl, rfl⟩ | ⟨rfl, rfl⟩ | ⟨rfl, rfl⟩ <;>
          cases p <;> simp [heading] at hp <;> simp [codeVec, e1, e2, inFrame]) (by simpa using hj)
      have hrel : relativeDir p p' = .front := by
        unfold Axes at hA
        rcases hA with ⟨rfl, rfl⟩ | ⟨rfl, rfl⟩ | ⟨rfl, rfl⟩ | ⟨rfl, rfl⟩ | ⟨rfl, rfl⟩ | ⟨rfl, rfl⟩ | ⟨rfl, rfl⟩ | ⟨rfl, rfl⟩ <;>
          cases p <;> simp [heading] at hp <;> cases p' <;> simp [heading, inFrame] at hh <;> rfl
      have hl2 : ∀ l : Location, (∀ q, l = q → q ≠ .cell ∧ q ≠ .pillar) → True := fun _ _ => trivial
      unfold Axes at hA
      rcases hA with ⟨rfl, rfl⟩ | ⟨rfl, rfl⟩ | ⟨rfl, rfl⟩ | ⟨rfl, rfl⟩ | ⟨rfl, rfl⟩ | ⟨rfl, rfl⟩ | ⟨rfl, rfl⟩ | ⟨rfl, rfl⟩ <;>
        cases p <;> simp [heading] at hp <;> simp at hloc <;> rw [hloc]
      all_goals
        simp only
        first
        | (rw [if_pos (by decide), q1, hrel]
           simp only [bind, Except.bind, if_true, Int.toNat_natCast]
           exact q2)
        | (rw [if_neg (by decide), if_pos (by decide), q1, hrel]
           simp only [bind, Except.bind, if_true, Int.toNat_natCast]
           exact q2)
    | slalom45 =>
      clear hin hF hT hn hc h1 h2 h3 h4 hx hy hb
      unfold Axes at hA
      rcases hA with ⟨rfl, rfl⟩ | ⟨rfl, rfl⟩ | ⟨rfl, rfl⟩ | ⟨rfl, rfl⟩ | ⟨rfl, rfl⟩ | ⟨rfl, rfl⟩ | ⟨rfl, rfl⟩ | ⟨rfl, rfl⟩ <;>
        cases p <;> simp [heading] at hp <;> cases p' <;> simp [heading, inFrame] at hh <;> simp at hloc <;> rw [hloc]
      all_goals first
        | (simp only
           rw [if_pos (by decide)]
           obtain ⟨q1, q2⟩ := key [(1, 1)] 2 1 rfl (hL _) rfl (by decide)
           rw [q1]
           simp only [bind, Except.bind, relativeDir]
           exact q2)
        | (simp only
           rw [if_neg (by decide), if_pos (by decide)]
           obtain ⟨q1, q2⟩ := key [(1, 1)] 1 2 rfl (hL _) rfl (by decide)
           rw [q1]
           simp only [bind, Except.bind, relativeDir]
           exact q2)
    | slalomDiagonal90 =>
      clear hin hF hT hn hc h1 h2 h3 h4 hx hy hb
      unfold Axes at hA
      rcases hA with ⟨rfl, rfl⟩ | ⟨rfl, rfl⟩ | ⟨rfl, rfl⟩ | ⟨rfl, rfl⟩ | ⟨rfl, rfl⟩ | ⟨rfl, rfl⟩ | ⟨rfl, rfl⟩ | ⟨rfl, rfl⟩ <;>
        cases p <;> simp [heading] at hp <;> cases p' <;> simp [heading, inFrame] at hh <;> simp at hloc <;> rw [hloc]
      all_goals first
        | (simp only
           rw [if_pos (by decide)]
           obtain ⟨q1, q2⟩ := key [(1, 1), (2, 0)] 2 0 rfl (hL _) rfl (by decide)
           rw [q1]
           simp only [bind, Except.bind, relativeDir]
           exact q2)
        | (simp only
           rw [if_neg (by decide), if_pos (by decide)]
           obtain ⟨q1, q2⟩ := key [(1, 1), (0, 2)] 0 2 rfl (hL _) rfl (by decide)
           rw [q1]
           simp only [bind, Except.bind, relativeDir]
           exact q2)
    | slalom135 =>
      clear hin hF hT hn hc h1 h2 h3 h4 hx hy hb
      unfold Axes at hA
      rcases hA with ⟨rfl, rfl⟩ | ⟨rfl, rfl⟩ | ⟨rfl, rfl⟩ | ⟨rfl, rfl⟩ | ⟨rfl, rfl⟩ | ⟨rfl, rfl⟩ | ⟨rfl, rfl⟩ | ⟨rfl, rfl⟩ <;>
        cases p <;> simp [heading] at hp <;> cases p' <;> simp [heading, inFrame] at hh <;> simp at hloc <;> rw [hloc]
      all_goals first
        | (simp only
           rw [if_pos (by decide)]
           obtain ⟨q1, q2⟩ := key [(1, 1), (2, 0)] 2 (-1) rfl (hL _) rfl (by decide)
           rw [q1]
           simp only [bind, Except.bind, relativeDir]
           exact q2)
        | (simp only
           rw [if_neg (by decide), if_pos (by decide)]
           obtain ⟨q1, q2⟩ := key [(1, 1), (0, 2)] (-1) 2 rfl (hL _) rfl (by decide)
           rw [q1]
           simp only [bind, Except.bind, relativeDir]
           exact q2)

/-! ## Paths -/

variable {isWall : Search.Coord → Bool} {b : Belief}

theorem oldWallAt_valid {c : Search.Coord} (hc : Valid W c) : wallNodes W (oldWallAt c) =
    match poses c with | [a, b] => .ok (a, b) | _ => .error .unreachable := by
  obtain ⟨x, y⟩ := c
  obtain ⟨h1, h2, h3⟩ := hc
  simp only at h1 h2 h3
  unfold poses oldWallAt wallNodes SearchNode.new nodeNew
  by_cases hx : x % 2 = 0
  · simp only [hx, if_true, decide_true]
    have e1 : x / 2 * 2 + 0 = x := by omega
    have e2 : y / 2 * 2 + 1 = y := by omega
    rw [e1, e2, if_neg (by omega), if_neg (by omega)]
    have l1 : SearchLegal W ⟨x, y, .north⟩ := ⟨h1, h2, Or.inr ⟨hx, by simp only; omega, by simp⟩⟩
    have l2 : SearchLegal W ⟨x, y, .south⟩ := ⟨h1, h2, Or.inr ⟨hx, by simp only; omega, by simp⟩⟩
    have o1 := search_ofNode l1
    have o2 := search_ofNode l2
    simp [o1, o2]
  · simp only [hx, if_false, decide_false, Bool.false_eq_true]
    have e1 : x / 2 * 2 + 1 = x := by omega
    have e2 : y / 2 * 2 + 0 = y := by omega
    rw [e1, e2, if_neg (by omega), if_neg (by omega)]
    have l1 : SearchLegal W ⟨x, y, .east⟩ := ⟨h1, h2, Or.inl ⟨by simp only; omega, by simp only; omega, by simp⟩⟩
    have l2 : SearchLegal W ⟨x, y, .west⟩ := ⟨h1, h2, Or.inl ⟨by simp only; omega, by simp only; omega, by simp⟩⟩
    have o1 := search_ofNode l1
    have o2 := search_ofNode l2
    simp [o1, o2]

theorem poses_legal {c : Search.Coord} (hc : Valid W c) : ∀ n, n ∈ poses c ↔ SearchLegal W n ∧ n.x = c.x ∧ n.y = c.y := by
  obtain ⟨x, y⟩ := c
  obtain ⟨h1, h2, h3⟩ := hc
  simp only at h1 h2 h3
  rintro ⟨x', y', p⟩
  unfold poses SearchLegal
  by_cases hx : x % 2 = 0
  · simp only [hx, if_true]
    constructor
    · intro h
      simp only [List.mem_cons, List.not_mem_nil, or_false, Node.mk.injEq] at h
      rcases h with ⟨rfl, rfl, rfl⟩ | ⟨rfl, rfl, rfl⟩ <;> simp <;> omega
    · rintro ⟨⟨-, -, ⟨h, -⟩ | ⟨-, -, h⟩⟩, rfl, rfl⟩
      · omega
      · simpa using h
  · simp only [hx, if_false]
    constructor
    · intro h
      simp only [List.mem_cons, List.not_mem_nil, or_false, Node.mk.injEq] at h
      rcases h with ⟨rfl, rfl, rfl⟩ | ⟨rfl, rfl, rfl⟩ <;> simp <;> omega
    · rintro ⟨⟨-, -, ⟨-, -, h⟩ | ⟨h, -⟩⟩, rfl, rfl⟩
      · simpa using h
      · omega

theorem poses_length (c : Search.Coord) : (poses c).length = 2 := by unfold poses; split <;> rfl

theorem targetsOf_cons (c : Search.Coord) (cs : List Search.Coord) :
    targetsOf b (c :: cs) = (if b.checked (oldWallAt c) then [] else poses c) ++ targetsOf b cs := by
  unfold targetsOf
  by_cases h : b.checked (oldWallAt c) <;> simp [h]

theorem uncheckedOf_eq : ∀ (cs : List Search.Coord) (acc : List Node), (∀ c ∈ cs, Valid W c) → acc.length ≤ NODE_MAX →
    uncheckedOf W b (cs.map oldWallAt) acc = if acc.length + (targetsOf b cs).length ≤ NODE_MAX then .ok (acc ++ targetsOf b cs)
      else .error .capacity
  | [], acc, _, hl => by simp [uncheckedOf, targetsOf, hl]
  | c :: cs, acc, hc, hl => by
    simp only [List.map_cons]
    unfold uncheckedOf
    rw [targetsOf_cons]
    by_cases hch : b.checked (oldWallAt c)
    · rw [if_pos hch, if_pos hch, List.nil_append]
      exact uncheckedOf_eq cs acc (fun c h => hc c (by simp [h])) hl
    · rw [if_neg hch, if_neg hch, oldWallAt_valid (hc c (by simp))]
      obtain ⟨p1, p2, hp⟩ := List.length_eq_two.mp (poses_length c)
      rw [hp]
      simp only [bind, Except.bind, pushCap]
      by_cases h1 : acc.length < NODE_MAX
      · rw [if_pos h1]
        simp only [List.length_append, List.length_cons, List.length_nil, List.cons_append, List.nil_append]
        by_cases h2 : acc.length + (0 + 1) < NODE_MAX
        · rw [if_pos h2]
          simp only
          rw [uncheckedOf_eq cs _ (fun c h => hc c (by simp [h])) (by simp; omega)]
          simp only [List.length_append, List.length_cons, List.length_nil, List.append_assoc, List.cons_append, List.nil_append]
          by_cases h3 : acc.length + (0 + 1 + (0 + 1)) + (targetsOf b cs).length ≤ NODE_MAX
          · rw [if_pos (by omega), if_pos (by omega)]
          · rw [if_neg (by omega), if_neg (by omega)]
        · rw [if_neg h2, if_neg (by omega)]
      · rw [if_neg h1, if_neg (by simp; omega)]

theorem targetsOf_append (cs ds : List Search.Coord) : targetsOf b (cs ++ ds) = targetsOf b cs ++ targetsOf b ds := by
  simp [targetsOf]

theorem related_legal (hn : Legal W n) {k : EdgeKind} {crossed : List V} (h : Related n k m crossed) (h3 : m.x < 2 * W) (h4 : m.y < 2 * W)
    (ho : ∀ d ∈ crossed, OpenAt W isWall n d) : Legal W m := drivable_legal hn k m ⟨crossed, h, h3, h4, ho⟩

theorem uncheckedNodes_eq (hW : Supported W) {path : List Node} {cs : List Search.Coord} (h : Crosses W isWall path cs) :
    ∀ acc : List Node, (∀ n ∈ path.head?, Legal W n) → acc.length ≤ NODE_MAX →
    uncheckedNodes W b path acc = if acc.length + (targetsOf b cs).length ≤ NODE_MAX then .ok (acc ++ targetsOf b cs)
      else .error .capacity := by
  induction h with
  | single n =>
    intro acc _ hl
    simp [uncheckedNodes, targetsOf, hl]
  | cons n m k crossed l now later hR h3 h4 ho hnow _ ih =>
    intro acc hn hl
    have hn := hn n rfl
    have hin : ∀ d ∈ crossed, WallIn W n d := fun d hd => by
      obtain ⟨c, h1, h2, h3, -⟩ := ho d hd
      exact ⟨c, h1, h2, h3⟩
    unfold uncheckedNodes
    rw [walls_between hW hn hR h3 h4 hin]
    have e : crossed.map (fun d => oldWallAt (posAt n d)) = now.map oldWallAt := by
      have : now = crossed.map (posAt n) := by
        have h5 := congrArg (List.map (fun q : Int × Int => (⟨q.1.toNat, q.2.toNat⟩ : Search.Coord))) hnow
        simp only [List.map_map, Function.comp_def, Int.toNat_natCast, List.map_id'] at h5
        exact h5
      rw [this, List.map_map]
      rfl
    have hv : ∀ c ∈ now, Valid W c := by
      intro c hc
      have : ((c.x : Int), (c.y : Int)) ∈ crossed.map (fun d => ((n.x : Int) + d.1, (n.y : Int) + d.2)) := by
        rw [← hnow]
        exact List.mem_map.mpr ⟨c, hc, rfl⟩
      obtain ⟨d, hd, he⟩ := List.mem_map.mp this
      simp only [Prod.mk.injEq] at he
      obtain ⟨c', h1, h2, h3⟩ := hin d hd
      have : c' = c := by
        obtain ⟨x', y'⟩ := c'
        obtain ⟨x, y⟩ := c
        simp only at h1 h2 he
        simp only [Search.Coord.mk.injEq]
        omega
      exact this ▸ h3
    simp only [bind, Except.bind]
    rw [e, uncheckedOf_eq now acc hv hl, targetsOf_append]
    simp only [List.length_append]
    by_cases hle : acc.length + (targetsOf b now).length ≤ NODE_MAX
    · rw [if_pos hle]
      simp only
      have hm := related_legal hn hR h3 h4 ho
      rw [ih _ (by simpa using hm) (by simpa using hle)]
      simp only [List.length_append, List.append_assoc, Nat.add_assoc]
    · rw [if_neg hle, if_neg (by omega)]

theorem findUnchecked_eq (hW : Supported W) {path : List Node} {cs : List Search.Coord} (h : Crosses W isWall path cs)
    (hn : ∀ n ∈ path.head?, Legal W n) :
    findUnchecked W b path = if (targetsOf b cs).length ≤ NODE_MAX then .ok (targetsOf b cs) else .error .capacity := by
  have := uncheckedNodes_eq (b := b) hW h [] hn (by simp)
  simp only [List.length_nil, Nat.zero_add, List.nil_append] at this
  rw [← this]
  cases h <;> rfl

theorem now_valid {crossed : List V} {now : List Search.Coord} (hin : ∀ d ∈ crossed, WallIn W n d)
    (hnow : now.map (fun c => ((c.x : Int), (c.y : Int))) = crossed.map (fun d => ((n.x : Int) + d.1, (n.y : Int) + d.2))) :
    ∀ c ∈ now, Valid W c := by
  intro c hc
  have : ((c.x : Int), (c.y : Int)) ∈ crossed.map (fun d => ((n.x : Int) + d.1, (n.y : Int) + d.2)) := by
    rw [← hnow]
    exact List.mem_map.mpr ⟨c, hc, rfl⟩
  obtain ⟨d, hd, he⟩ := List.mem_map.mp this
  simp only [Prod.mk.injEq] at he
  obtain ⟨c', h1, h2, h3⟩ := hin d hd
  have : c' = c := by
    obtain ⟨x', y'⟩ := c'
    obtain ⟨x, y⟩ := c
    simp only at h1 h2 he
    simp only [Search.Coord.mk.injEq]
    omega
  exact this ▸ h3

theorem crosses_valid {path : List Node} {cs : List Search.Coord} (h : Crosses W isWall path cs) : ∀ c ∈ cs, Valid W c := by
  induction h with
  | single n => simp
  | cons n m k crossed l now later hR h3 h4 ho hnow _ ih =>
    intro c hc
    rcases List.mem_append.mp hc with h | h
    · refine now_valid (n := n) (fun d hd => ?_) hnow c h
      obtain ⟨c, h1, h2, h3, -⟩ := ho d hd
      exact ⟨c, h1, h2, h3⟩
    · exact ih c h

/-- Every path of drivable moves crosses some walls. -/
theorem crosses_of {cost : Pattern → Nat} {goal : Node} {path : List Node} {c : Nat}
    (h : ChargedPath W isWall cost goal path c) : ∃ cs, Crosses W isWall path cs := by
  induction h with
  | single n => exact ⟨[], .single n⟩
  | cons n m k l c hd _ ih =>
    obtain ⟨cs, hcs⟩ := ih
    obtain ⟨crossed, hR, h3, h4, ho⟩ := hd
    refine ⟨_, .cons n m k crossed l (crossed.map (posAt n)) cs hR h3 h4 ho ?_ hcs⟩
    rw [List.map_map]
    apply List.map_congr_left
    intro d hd
    obtain ⟨c, h1, h2, -⟩ := ho d hd
    simp only [Function.comp, posAt, Prod.mk.injEq]
    omega

end Verif.Proof.OldS
