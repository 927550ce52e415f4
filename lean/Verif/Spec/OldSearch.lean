import Verif.Model.OldSearch
import Verif.Spec.OldNode
import Verif.Spec.OldSolver
/-!
# Specification of the former search

Search poses, the moves between them, and ways through the maze.
-/
namespace Verif.Spec
open Verif Verif.Run Verif.Old

/-- A search pose: on a wall position, looking across the wall. -/
def SearchLegal (W : Nat) (n : Node) : Prop :=
  n.x < 2 * W ∧ n.y < 2 * W ∧
  ((n.x % 2 = 1 ∧ n.y % 2 = 0 ∧ n.posture ∈ [.east, .west]) ∨ (n.x % 2 = 0 ∧ n.y % 2 = 1 ∧ n.posture ∈ [.north, .south]))

instance (W n) : Decidable (SearchLegal W n) := by unfold SearchLegal; infer_instance

/-- The direction to the right of a heading. -/
def rightOf (h : V) : V := (h.2, -h.1)

/-- `m` is the pose after a move of kind `k` from `n`: through the cell ahead to the opposite wall or to one at the side, or
turning around on the spot. -/
def MovesTo (n : Node) (k : SearchKind) (m : Node) : Prop :=
  let h := heading n.posture
  let r := rightOf h
  match k with
  | .front => (m.x : Int) = n.x + 2 * h.1 ∧ (m.y : Int) = n.y + 2 * h.2 ∧ heading m.posture = h
  | .right => (m.x : Int) = n.x + h.1 + r.1 ∧ (m.y : Int) = n.y + h.2 + r.2 ∧ heading m.posture = r
  | .left => (m.x : Int) = n.x + h.1 - r.1 ∧ (m.y : Int) = n.y + h.2 - r.2 ∧ heading m.posture = (-r.1, -r.2)
  | .back => (m.x : Int) = n.x ∧ (m.y : Int) = n.y ∧ heading m.posture = (-h.1, -h.2)
  | .init | .final => False

/-- The wall position of a search pose is in the maze and open. -/
def OpenPose (W : Nat) (isWall : Search.Coord → Bool) (n : Node) : Prop := OpenAt W isWall n (0, 0)

/-- The move `k` leads from `n` to `m` across an open wall. -/
def SearchMove (W : Nat) (isWall : Search.Coord → Bool) (n : Node) (k : SearchKind) (m : Node) : Prop :=
  MovesTo n k m ∧ OpenPose W isWall m

/-- The pattern of a move. -/
def kindPattern : SearchKind → Pattern
  | .front | .init | .final => .straight 1
  | .right | .left => .search90
  | .back => .spinBack

/-- The two search poses at a wall position. -/
def poses (c : Search.Coord) : List Node :=
  if c.x % 2 = 0 then [⟨c.x, c.y, .north⟩, ⟨c.x, c.y, .south⟩] else [⟨c.x, c.y, .east⟩, ⟨c.x, c.y, .west⟩]

/-- `path` consists of drivable moves, and `cs` are the wall positions crossed, in order. -/
inductive Crosses (W : Nat) (isWall : Search.Coord → Bool) : List Node → List Search.Coord → Prop
  | single (n : Node) : Crosses W isWall [n] []
  | cons (n m : Node) (k : EdgeKind) (crossed : List V) (l : List Node) (now later : List Search.Coord) :
      Related n k m crossed → m.x < 2 * W → m.y < 2 * W → (∀ d ∈ crossed, OpenAt W isWall n d) →
      now.map (fun c => ((c.x : Int), (c.y : Int))) = crossed.map (fun d => ((n.x : Int) + d.1, (n.y : Int) + d.2)) →
      Crosses W isWall (m :: l) later → Crosses W isWall (n :: m :: l) (now ++ later)

/-- The steps of a way to a place to be checked: moves from open poses, not into a pose that can be the next one after `cur`. -/
def wayEdges (W : Nat) (isWall : Search.Coord → Bool) (cost : Pattern → Nat) (cur : Node) : Edges Node :=
  fun u w v => OpenPose W isWall u ∧ (∃ k, MovesTo u k v ∧ w = cost (kindPattern k)) ∧ ¬ ∃ k, SearchMove W isWall cur k v

/-- There is a way of cost `t` from `cur` by way of `n` to one of the targets. -/
def Total (W : Nat) (isWall : Search.Coord → Bool) (cost : Pattern → Nat) (cur : Node) (targets : List Node) (n : Node) (t : Nat) : Prop :=
  ∃ k p c v, SearchMove W isWall cur k n ∧ Trip (wayEdges W isWall cost cur) n p c v ∧ v ∈ targets ∧ t = cost (kindPattern k) + c

/-- `t` is the least cost of such a way. -/
def LeastTotal (W : Nat) (isWall : Search.Coord → Bool) (cost : Pattern → Nat) (cur : Node) (targets : List Node) (n : Node) (t : Nat) : Prop :=
  Total W isWall cost cur targets n t ∧ ∀ t', Total W isWall cost cur targets n t' → t ≤ t'

/-- `l` are the next poses from which a target can be reached at a cost below `MAX`, those with the smaller cost first. -/
def Ranks (W : Nat) (isWall : Search.Coord → Bool) (cost : Pattern → Nat) (MAX : Nat) (cur : Node) (targets l : List Node) : Prop :=
  ∃ T : List (Node × Nat), l = T.map (·.1) ∧ l.Nodup ∧ T.Pairwise (fun a b => a.2 ≤ b.2) ∧
    ∀ n t, (n, t) ∈ T ↔ LeastTotal W isWall cost cur targets n t ∧ t < MAX

/-- What is assumed of the unstable sort. -/
def SortsByCost (sort : List (Node × Nat) → List (Node × Nat)) : Prop :=
  ∀ l, (sort l).Perm l ∧ (sort l).Pairwise fun a b => a.2 ≤ b.2

/-- The search poses at the unchecked ones of the wall positions. -/
def targetsOf (b : Belief) (cs : List Search.Coord) : List Node :=
  (cs.filter fun c => !b.checked (oldWallAt c)).flatMap poses

end Verif.Spec
