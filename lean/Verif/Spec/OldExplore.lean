import Verif.Spec.OldSearch
import Mathlib.Logic.Relation
/-!
# Specification of a run of the former search commander

The maze as cells joined by openings, what the wall manager knows of it, and the commands as a tour through it.
-/
namespace Verif.Spec
open Verif Verif.Run Verif.Old Verif.Old.Search

/-- Two cells next to each other, given by the positions of their centres, and the position of the wall between them. -/
def Between (C : V) (c : Verif.Search.Coord) (D : V) : Prop :=
  C.1 % 2 = 0 ∧ C.2 % 2 = 0 ∧ ∃ e ∈ [((0, 1) : V), (1, 0), (0, -1), (-1, 0)],
    (c.x : Int) = C.1 + e.1 ∧ (c.y : Int) = C.2 + e.2 ∧ D = (C.1 + 2 * e.1, C.2 + 2 * e.2)

instance (C c D) : Decidable (Between C c D) := by unfold Between; infer_instance

/-- A walk from cell to cell across the walls of a list, and the cells it visits. -/
inductive CellWalk : V → List Verif.Search.Coord → List V → Prop
  | stay (C : V) : CellWalk C [] [C]
  | step (C D : V) (c : Verif.Search.Coord) (cs : List Verif.Search.Coord) (cells : List V) :
      Between C c D → CellWalk D cs cells → CellWalk C (c :: cs) (C :: cells)

/-- Two cells joined by an opening. -/
def Joined (W : Nat) (isWall : Verif.Search.Coord → Bool) (C D : V) : Prop :=
  ∃ c, Between C c D ∧ Valid W c ∧ isWall c = false

/-- The cell is connected with the other by openings. -/
def Connected (W : Nat) (isWall : Verif.Search.Coord → Bool) : V → V → Prop := Relation.ReflTransGen (Joined W isWall)

/-- The centre of a cell pose. -/
def cellOf (n : Node) : V := (n.x, n.y)

/-- The cell that a search pose looks into. -/
def aheadCell (n : Node) : V := (n.x + (heading n.posture).1, n.y + (heading n.posture).2)

/-- A pose at the centre of a cell. -/
def CellPose (W : Nat) (n : Node) : Prop := Legal W n ∧ n.x % 2 = 0 ∧ n.y % 2 = 0

instance (W n) : Decidable (CellPose W n) := by unfold CellPose; infer_instance

/-- The maze is closed at the top and on the right (there are no positions beyond the left and the bottom). -/
def Closed (W : Nat) (real : Wall → Bool) : Prop := ∀ i < W, real ⟨i, W - 1, true⟩ = true ∧ real ⟨W - 1, i, false⟩ = true

/-- What is known of the walls is true; a wall not checked counts as open. -/
structure TrueBelief (W : Nat) (real : Wall → Bool) (b : Belief) : Prop where
  known : ∀ w, b.checked w = true → b.present w = real w
  unknown : ∀ w, b.checked w = false → b.present w = false
  outside : ∀ w, ¬ (w.x < W ∧ w.y < W) → b.checked w = false

/-- No wall is forgotten. -/
def Learns (b b' : Belief) : Prop := ∀ w, b.checked w = true → b'.checked w = true

/-- The wall ahead of the start is known to be open. -/
def OpenAhead (W : Nat) (b : Belief) (n : Node) : Prop :=
  ∃ c : Verif.Search.Coord, Between (cellOf n) c (n.x + 2 * (heading n.posture).1, n.y + 2 * (heading n.posture).2) ∧ Valid W c ∧
    b.checked (oldWallAt c) = true ∧ b.present (oldWallAt c) = false

/-- A run of the commander from the start: before each call the sensors may have found out more about the walls. -/
inductive Explores (P : Config) (real : Wall → Bool) : Belief → Commander → List Reply → Prop
  | start (b : Belief) : TrueBelief P.W real b → OpenAhead P.W b P.start → Explores P real b (Commander.new P.start) []
  | call (b b' : Belief) (s s' : Commander) (r : Reply) (rs : List Reply) : Explores P real b s rs → Learns b b' →
      TrueBelief P.W real b' → nextCommand P b' s = .ok (r, s') → Explores P real b' s' (rs ++ [r])

/-- The commands among the replies. -/
def commandsOf (rs : List Reply) : List (Node × SearchKind) :=
  rs.filterMap fun r => match r with | .command n k => some (n, k) | _ => none

/-- A command leads from a pose to another, across an opening if it crosses a wall. -/
def CommandLeads (W : Nat) (isWall : Verif.Search.Coord → Bool) (n : Node) (k : SearchKind) (m : Node) : Prop :=
  let one := (m.x : Int) = n.x + (heading n.posture).1 ∧ (m.y : Int) = n.y + (heading n.posture).2 ∧ m.posture = n.posture
  match k with
  | .init => one ∧ OpenPose W isWall m
  | .final => one ∧ CellPose W m
  | k => SearchMove W isWall n k m

/-- The commands lead from one pose to the next. -/
inductive CommandTour (W : Nat) (isWall : Verif.Search.Coord → Bool) (start : Node) : List (Node × SearchKind) → Node → Prop
  | nil : CommandTour W isWall start [] start
  | snoc (l : List (Node × SearchKind)) (n m : Node) (k : SearchKind) : CommandTour W isWall start l n → CommandLeads W isWall n k m →
      CommandTour W isWall start (l ++ [(n, k)]) m

/-- First the command to leave the start, then moves, and at most one final command at the end. -/
def InOrder (start : Node) (l : List (Node × SearchKind)) : Prop :=
  l = [] ∨ ∃ ks : List (Node × SearchKind), (∀ e ∈ ks, e.2 ∈ [SearchKind.right, .front, .left, .back]) ∧
    (l = (start, .init) :: ks ∨ ∃ n, l = (start, .init) :: (ks ++ [(n, .final)]))

/-- The shortest path of this belief passes the cell twice. -/
def Revisits (P : Config) (b : Belief) (C : V) : Prop :=
  ∃ (path : List Node) (cs : List Verif.Search.Coord) (cells : List V) (i j : Nat), shortestPath P b = .ok (some path) ∧
    Crosses P.W (posBlocked b.present) path cs ∧ CellWalk (cellOf P.start) cs cells ∧ i < j ∧ cells[i]? = some C ∧ cells[j]? = some C

/-- What is assumed of the configuration: see C81 to C87; start and goals are poses in cells. -/
structure Setting (P : Config) (cost : Pattern → Nat) (real : Wall → Bool) (goal0 : Node) (rest : List Node) : Prop where
  width : Supported P.W
  costs : ∀ p, Occurs P.W p → P.convert p = .ok (cost p)
  fit : ∀ p q, Occurs P.W p → Occurs P.W q → cost p + cost q ≤ P.MAX
  pos : 0 < P.MAX
  heap : Nonempty (QueueLaws P.Q HEAP_MAX)
  sort : SortsByCost P.sort
  start : CellPose P.W P.start
  goals : P.goals = goal0 :: rest
  goalCells : ∀ g ∈ goal0 :: rest, CellPose P.W g
  closed : Closed P.W real

/-- Every search path through the maze costs less than the largest cost. -/
def Affordable (P : Config) (cost : Pattern → Nat) : Prop :=
  ∃ M, (∀ k ∈ [SearchKind.right, .front, .left, .back], cost (kindPattern k) ≤ M) ∧ 4 * (P.W * P.W) * M < P.MAX

/-- Two moves cost at least as much as any single one, and no move is free. -/
def Balanced (cost : Pattern → Nat) : Prop :=
  ∃ m, 0 < m ∧ ∀ k ∈ [SearchKind.right, .front, .left, .back], m ≤ cost (kindPattern k) ∧ cost (kindPattern k) ≤ 2 * m

end Verif.Spec
