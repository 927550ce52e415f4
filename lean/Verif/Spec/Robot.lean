import Verif.Spec.Grid
/-! # Specification vocabulary: the robot on the maze grid -/
namespace Verif.Spec
open Verif.Search

/-- Unit vector of a posture, `x` to the east and `y` to the north. -/
def vec : Posture → Int × Int
  | .north => (0, 1)
  | .east => (1, 0)
  | .south => (0, -1)
  | .west => (-1, 0)

/-- A quarter turn clockwise. -/
def cw : Posture → Posture
  | .north => .east
  | .east => .south
  | .south => .west
  | .west => .north

def opposite (p : Posture) : Posture := cw (cw p)

/-- How a robot looking at `p` has to move in order to look at `q` afterwards. -/
def turn (p q : Posture) : TrajectoryKind :=
  if q = p then .front else if q = cw p then .right else if q = opposite p then .back else .left

/-- The robot on wall position `c` looks perpendicularly through the wall: the next lattice point in its
direction is a cell centre. -/
def Faces (c : Coord) (p : Posture) : Prop :=
  ((c.x : Int) + (vec p).1) % 2 = 0 ∧ ((c.y : Int) + (vec p).2) % 2 = 0

/-- `d` is the wall on the side `q` of the cell in front of a robot on `c` looking at `p`. -/
def SideAhead (c : Coord) (p q : Posture) (d : Coord) : Prop :=
  (d.x : Int) = c.x + (vec p).1 + (vec q).1 ∧ (d.y : Int) = c.y + (vec p).2 + (vec q).2

end Verif.Spec
