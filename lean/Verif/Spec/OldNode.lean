import Verif.Model.OldNode
import Verif.Spec.Run
/-!
# Specification of the former node graphs

The moves are those of `Spec/Run` (`Drivable`), with the wall positions of `Spec/Grid`.
-/
namespace Verif.Spec
open Verif Verif.Run Verif.Old

/-- The wall at a wall position: to the right of a cell in odd columns, on top of it in even ones. -/
def oldWallAt (c : Search.Coord) : Wall := ⟨c.x / 2, c.y / 2, decide (c.x % 2 = 0)⟩

/-- Which wall positions are blocked. -/
def posBlocked (blocked : Wall → Bool) : Search.Coord → Bool := fun c => blocked (oldWallAt c)

/-- The pattern of a kind of move. -/
def patternOf : EdgeKind → Pattern
  | .straight n => .straight n
  | .straightDiagonal n => .straightDiagonal n
  | .slalom45 => .fastRun45
  | .slalom90 => .fastRun90
  | .slalom135 => .fastRun135
  | .slalom180 => .fastRun180
  | .slalomDiagonal90 => .fastRunDiagonal90

/-- The pose of the mouse driving backwards. -/
def reversed (n : Node) : Node :=
  ⟨n.x, n.y, match n.posture with
    | .north => .south | .northEast => .southWest | .east => .west | .southEast => .northWest
    | .south => .north | .southWest => .northEast | .west => .east | .northWest => .southEast⟩

/-- The pose is in a cell, or on an open wall position. -/
def OpenHere (W : Nat) (isWall : Search.Coord → Bool) (n : Node) : Prop :=
  (n.x % 2 = 0 ∧ n.y % 2 = 0) ∨ OpenAt W isWall n (0, 0)

/-- The patterns that occur in a maze of width `W`. -/
def Occurs (W : Nat) : Pattern → Prop
  | .straight n => n < W
  | .straightDiagonal n => n < 2 * W
  | _ => True

/-- How many cells apart two poses are, rounded down: the larger of the two coordinate differences. -/
def cellsApart (n m : Node) : Nat := max ((n.x : Int) - m.x).natAbs ((n.y : Int) - m.y).natAbs / 2

/-- A path of drivable moves where each move is charged its cost and the cost of the straight from its end to `goal`. -/
inductive ChargedPath (W : Nat) (isWall : Search.Coord → Bool) (cost : Pattern → Nat) (goal : Node) : List Node → Nat → Prop
  | single (n : Node) : ChargedPath W isWall cost goal [n] 0
  | cons (n m : Node) (k : EdgeKind) (l : List Node) (c : Nat) : Drivable W isWall n k m →
      ChargedPath W isWall cost goal (m :: l) c →
      ChargedPath W isWall cost goal (n :: m :: l) (cost (patternOf k) + cost (.straight (cellsApart m goal)) + c)

end Verif.Spec
