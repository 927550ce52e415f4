import Verif.Model.Search
/-!
# Specification vocabulary: the maze grid

Independent of the helper functions of the model; only the data type `Coord` is shared.
-/
namespace Verif.Spec
open Verif.Search

/-- The maze widths the library is made for: powers of two up to 32. -/
def Supported (W : Nat) : Prop := ∃ k, k ≤ 5 ∧ W = 2 ^ k

/-- `c` denotes a wall position of a `W × W` maze: inside the doubled grid, one of the coordinates even
and the other odd. -/
def Valid (W : Nat) (c : Coord) : Prop := c.x < 2 * W ∧ c.y < 2 * W ∧ (c.x + c.y) % 2 = 1

instance (W c) : Decidable (Valid W c) := by unfold Valid; infer_instance

/-- `d` is `c` moved `n` times by `(dx, dy)`. -/
def Shift (c : Coord) (dx dy : Int) (n : Nat) (d : Coord) : Prop :=
  (d.x : Int) = c.x + n * dx ∧ (d.y : Int) = c.y + n * dy

/-- The directions in which the mouse can leave the wall position `c` in a straight run: the four
diagonals, and along the corridor crossed by the wall (vertical for a top wall, horizontal for a right
wall). -/
def StepDir (c : Coord) (dx dy : Int) : Prop :=
  ((dx = 1 ∨ dx = -1) ∧ (dy = 1 ∨ dy = -1)) ∨
  (c.y % 2 = 1 ∧ dx = 0 ∧ (dy = 2 ∨ dy = -2)) ∨
  (c.y % 2 = 0 ∧ (dx = 2 ∨ dx = -2) ∧ dy = 0)

/-- All wall positions met when going from `a` exactly `n ≥ 1` steps in direction `(dx, dy)` to `b` are
wall positions of the maze and free. -/
def OnLine (W : Nat) (free : Coord → Prop) (a : Coord) (dx dy : Int) (b : Coord) : Prop :=
  ∃ n : Nat, 1 ≤ n ∧ Shift a dx dy n b ∧
    ∀ i : Nat, 1 ≤ i → i ≤ n → ∃ c, Shift a dx dy i c ∧ Valid W c ∧ free c

/-- One straight run of the mouse from `a` to `b`. -/
def Run (W : Nat) (free : Coord → Prop) (a b : Coord) : Prop :=
  ∃ dx dy, StepDir a dx dy ∧ OnLine W free a dx dy b

/-- A sequence of runs visiting exactly the listed positions. -/
def RunPath (W : Nat) (free : Coord → Prop) : List Coord → Prop
  | [] => False
  | [_] => True
  | a :: b :: l => Run W free a b ∧ RunPath W free (b :: l)

/-- The cells `(column, row)` on the two sides of a wall position. -/
def Touches (c : Coord) (cell : Int × Int) : Prop :=
  if c.y % 2 = 1 then
    2 * cell.1 = c.x ∧ (2 * cell.2 = c.y - 1 ∨ 2 * cell.2 = c.y + 1)
  else
    (2 * cell.1 = c.x - 1 ∨ 2 * cell.1 = c.x + 1) ∧ 2 * cell.2 = c.y

/-- Two different wall positions of the maze that border a common cell. -/
def Adjacent (W : Nat) (a b : Coord) : Prop :=
  Valid W a ∧ Valid W b ∧ a ≠ b ∧ ∃ cell, Touches a cell ∧ Touches b cell

/-- `x` is a lattice point of the straight segment from `a` (excluded) to `b` (included), in steps of one
grid unit.  On an axis-parallel segment this includes the cell centres between the walls. -/
def SegPoint (a b x : Coord) : Prop :=
  ∃ (ux uy : Int) (N j : Nat), (ux = -1 ∨ ux = 0 ∨ ux = 1) ∧ (uy = -1 ∨ uy = 0 ∨ uy = 1) ∧
    Shift a ux uy N b ∧ 1 ≤ j ∧ j ≤ N ∧ Shift a ux uy j x

/-- `x` is a lattice point passed by the polyline `path` (its first point excluded). -/
def PassedBy : List Coord → Coord → Prop
  | a :: b :: l, x => SegPoint a b x ∨ PassedBy (b :: l) x
  | _, _ => False

/-- The wall position in whose slot a lattice point is stored: itself, or for a cell centre the wall to
the right of the cell. -/
def SlotOf (x c : Coord) : Prop :=
  c = x ∨ (x.x % 2 = 0 ∧ x.y % 2 = 0 ∧ c = ⟨x.x + 1, x.y⟩)

/-- The walls whose slot contains a still unknown point passed by the path: what the exploration has to
look at. -/
def Interesting (unknown : Coord → Prop) (path : List Coord) (c : Coord) : Prop :=
  ∃ x, PassedBy path x ∧ unknown x ∧ SlotOf x c

/-- Walks over adjacent walls (walls of a common cell). -/
def AdjPath (W : Nat) (ok : Coord → Prop) : List Coord → Prop
  | [] => False
  | [_] => True
  | a :: b :: l => (Adjacent W a b ∧ ok b) ∧ AdjPath W ok (b :: l)

end Verif.Spec
