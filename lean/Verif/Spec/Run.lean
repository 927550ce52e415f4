import Verif.Model.Run
import Verif.Spec.Grid
/-!
# Specification vocabulary: fast runs

Moves are described by vectors in a frame attached to the pose; only the data types of the model are
shared.
-/
namespace Verif.Spec
open Verif Verif.Run

abbrev V := Int × Int

/-- The direction in which a posture looks. -/
def heading : Posture → V
  | .north => (0, 1) | .northEast => (1, 1) | .east => (1, 0) | .southEast => (1, -1)
  | .south => (0, -1) | .southWest => (-1, -1) | .west => (-1, 0) | .northWest => (-1, 1)

/-- The vector with coordinates `c` in the frame `f, s`. -/
def inFrame (f s c : V) : V := (c.1 * f.1 + c.2 * s.1, c.1 * f.2 + c.2 * s.2)

/-- A pose the mouse can be in at the beginning and end of a move: axis-parallel at the centre of a cell, or
diagonal on a wall. -/
def Legal (W : Nat) (n : Node) : Prop :=
  n.x < 2 * W ∧ n.y < 2 * W ∧
  ((n.x % 2 = 0 ∧ n.y % 2 = 0 ∧ n.posture ∈ [.north, .east, .south, .west]) ∨
   ((n.x + n.y) % 2 = 1 ∧ n.posture ∈ [.northEast, .southEast, .southWest, .northWest]))

instance (W n) : Decidable (Legal W n) := by unfold Legal; infer_instance

/-- Moves from the centre of a cell, in the frame (forward, towards the inside of the turn): kind, displacement,
new heading, walls crossed. -/
inductive FromCentre : EdgeKind → V → V → List V → Prop
  | straight (n : Nat) : 1 ≤ n →
      FromCentre (.straight n) (2 * n, 0) (1, 0) ((List.range n).map fun i : Nat => (2 * (i : Int) + 1, 0))
  | slalom45 : FromCentre .slalom45 (2, 1) (1, 1) [(1, 0), (2, 1)]
  | slalom90 : FromCentre .slalom90 (2, 2) (0, 1) [(1, 0), (2, 1)]
  | slalom135 : FromCentre .slalom135 (1, 2) (-1, 1) [(1, 0), (2, 1), (1, 2)]
  | slalom180 : FromCentre .slalom180 (0, 2) (-1, 0) [(1, 0), (2, 1), (1, 2)]

/-- Moves from a wall that is crossed diagonally, in the frame (across the wall, along the wall). -/
inductive FromWall : EdgeKind → V → V → List V → Prop
  | straightDiagonal (n : Nat) : 1 ≤ n →
      FromWall (.straightDiagonal n) (n, n) (1, 1) ((List.range n).map fun i : Nat => ((i : Int) + 1, (i : Int) + 1))
  | slalom45 : FromWall .slalom45 (1, 2) (0, 1) [(1, 1)]
  | slalomDiagonal90 : FromWall .slalomDiagonal90 (0, 2) (-1, 1) [(1, 1), (0, 2)]
  | slalom135 : FromWall .slalom135 (-1, 2) (-1, 0) [(1, 1), (0, 2)]

/-- The frames in which the moves of a pose are described: at a cell centre forward and either side, on a wall
the component of the heading across the wall and the one along it. -/
def Frame (n : Node) (f s : V) : Prop :=
  let h := heading n.posture
  if n.x % 2 = 0 ∧ n.y % 2 = 0 then f = h ∧ (s = (h.2, -h.1) ∨ s = (-h.2, h.1))
  else if n.x % 2 = 1 then f = (h.1, 0) ∧ s = (0, h.2)
  else f = (0, h.2) ∧ s = (h.1, 0)

/-- The shapes of moves available at a pose. -/
def Shape (n : Node) : EdgeKind → V → V → List V → Prop :=
  if n.x % 2 = 0 ∧ n.y % 2 = 0 then FromCentre else FromWall

/-- There is a wall position of the maze at displacement `d` from `n`, and no wall there. -/
def OpenAt (W : Nat) (isWall : Search.Coord → Bool) (n : Node) (d : V) : Prop :=
  ∃ c : Search.Coord, (c.x : Int) = n.x + d.1 ∧ (c.y : Int) = n.y + d.2 ∧ Valid W c ∧ isWall c = false

/-- `m` is the pose reached from `n` by a move of kind `k`; `crossed` are the walls crossed, as displacements
from `n`. -/
def Related (n : Node) (k : EdgeKind) (m : Node) (crossed : List V) : Prop :=
  ∃ f s fin head cr, Frame n f s ∧ Shape n k fin head cr ∧
    (m.x : Int) = n.x + (inFrame f s fin).1 ∧ (m.y : Int) = n.y + (inFrame f s fin).2 ∧
    heading m.posture = inFrame f s head ∧ crossed = cr.map (inFrame f s)

/-- The mouse can drive from `n` to `m` by a move of kind `k`: the end lies in the maze and all walls crossed
are open. -/
def Drivable (W : Nat) (isWall : Search.Coord → Bool) (n : Node) (k : EdgeKind) (m : Node) : Prop :=
  ∃ crossed, Related n k m crossed ∧ m.x < 2 * W ∧ m.y < 2 * W ∧ ∀ d ∈ crossed, OpenAt W isWall n d

/-- A path of drivable moves from its first to its last pose with the sum of the costs of its moves. -/
inductive FastPath (W : Nat) (isWall : Search.Coord → Bool) (cost : EdgeKind → Nat) : List Node → Nat → Prop
  | single (n : Node) : FastPath W isWall cost [n] 0
  | cons (n m : Node) (k : EdgeKind) (l : List Node) (c : Nat) : Drivable W isWall n k m →
      FastPath W isWall cost (m :: l) c → FastPath W isWall cost (n :: m :: l) (cost k + c)

/-- Positive when `v` is to the left of `u`, negative when it is to the right. -/
def cross (u v : V) : Int := u.1 * v.2 - u.2 * v.1

/-- The trajectory for a move of kind `k` towards the given side: the slaloms entered from a cell centre are the
forward versions, those entered from a wall the reversed ones. -/
def trajOf (centre : Prop) [Decidable centre] (side : SlalomDirection) : EdgeKind → Option TrajectoryKind
  | .straight n => some (.straight n)
  | .straightDiagonal n => some (.straightDiagonal n)
  | .slalom45 => some (.slalom (if centre then .fastRun45 else .fastRun45Rev) side)
  | .slalom90 => if centre then some (.slalom .fastRun90 side) else none
  | .slalom135 => some (.slalom (if centre then .fastRun135 else .fastRun135Rev) side)
  | .slalom180 => if centre then some (.slalom .fastRun180 side) else none
  | .slalomDiagonal90 => if centre then none else some (.slalom .fastRunDiagonal90 side)

/-- `t` is the trajectory that leads from `n` to `m` by a move of kind `k`. -/
def Leads (n : Node) (k : EdgeKind) (m : Node) (t : TrajectoryKind) : Prop :=
  ∃ f s fin head cr, Frame n f s ∧ Shape n k fin head cr ∧
    (m.x : Int) = n.x + (inFrame f s fin).1 ∧ (m.y : Int) = n.y + (inFrame f s fin).2 ∧
    heading m.posture = inFrame f s head ∧
    trajOf (n.x % 2 = 0 ∧ n.y % 2 = 0) (if cross f s < 0 then .right else .left) k = some t

end Verif.Spec
