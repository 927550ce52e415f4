import Verif.Spec.Grid
/-!
# Drawings of mazes as text

Line `2k` of a drawing holds the top walls of a row of cells, line `2k+1` its right walls, the last line
`2W` is the bottom of the maze.  A line is a lead character followed by one field of four characters per
cell.
-/
namespace Verif.Spec
open Verif Verif.Search

/-- The first character of line `y`. -/
def lead (y : Nat) : Char := if y % 2 = 0 then '+' else '|'

/-- The field of a wall that exists. -/
def closedField (y : Nat) : List Char := if y % 2 = 0 then ['-', '-', '-', '+'] else [' ', ' ', ' ', '|']

/-- The field of a wall that does not exist. -/
def openField (y : Nat) : List Char := if y % 2 = 0 then [' ', ' ', ' ', '+'] else [' ', ' ', ' ', ' ']

/-- The wall drawn by field `x` of line `y`. -/
def wallAt (W y x : Nat) : Coord :=
  if y % 2 = 0 then ⟨2 * x, 2 * (W - 1 - y / 2) + 1⟩ else ⟨2 * x + 1, 2 * (W - 1 - y / 2)⟩

/-- The line that draws wall `c`. -/
def lineOf (W : Nat) (c : Coord) : Nat :=
  if c.y % 2 = 1 then 2 * (W - 1 - c.y / 2) else 2 * (W - 1 - c.y / 2) + 1

/-- Line `y` of the drawing in which the walls of `f` exist. -/
def drawLine (W : Nat) (f : Coord → Bool) (y : Nat) : List Char :=
  lead y :: (List.range W).flatMap fun x =>
    if y = 2 * W ∨ f (wallAt W y x) = true then closedField y else openField y

/-- The drawing of a maze of `W × W` cells in which the walls of `f` exist. -/
def drawing (W : Nat) (f : Coord → Bool) : List Char :=
  (List.range (2 * W + 1)).flatMap fun y => drawLine W f y ++ ['\n']

/-- Splitting of a text into lines: they end in `\n` or `\r\n`, the last one may lack the line end. -/
inductive SplitLines : List Char → List (List Char) → Prop
  | nil : SplitLines [] []
  | last {l} : l ≠ [] → '\n' ∉ l → SplitLines l [l]
  | lf {l rest L} : '\n' ∉ l → l.getLast? ≠ some '\r' → SplitLines rest L →
      SplitLines (l ++ '\n' :: rest) (l :: L)
  | crlf {l rest L} : '\n' ∉ l → SplitLines rest L → SplitLines (l ++ '\r' :: '\n' :: rest) (l :: L)

/-- Field `x` of a line. -/
def field (line : List Char) (x : Nat) : List Char := (line.drop (4 * x + 1)).take 4

/-- Field `x` of line `y` is well formed. -/
def GoodField (W y : Nat) (line : List Char) (x : Nat) : Prop :=
  field line x = closedField y ∨ (y ≠ 2 * W ∧ field line x = openField y)

/-- Line `y` is well formed: lead and `W` fields; what follows does not matter. -/
def GoodLine (W y : Nat) (line : List Char) : Prop :=
  line.head? = some (lead y) ∧ ∀ x < W, GoodField W y line x

end Verif.Spec
