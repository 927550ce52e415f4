import Verif.Model.OldRun
import Verif.Spec.OldExplore
/-!
# Specification of the former fast runs
-/
namespace Verif.Spec
open Verif Verif.Run Verif.Old Verif.Old.FastRun

/-- The move that touches the wall ahead without crossing it: from a wall crossed diagonally to the wall on the other side of the
same cell, with the trajectory of the diagonal slalom that turns away from the wall ahead. -/
def Grazes (n m : Node) (t : TrajectoryKind) : Prop :=
  ¬ (n.x % 2 = 0 ∧ n.y % 2 = 0) ∧ ∃ f s, Frame n f s ∧
    (m.x : Int) = n.x + (inFrame f s (2, 0)).1 ∧ (m.y : Int) = n.y + (inFrame f s (2, 0)).2 ∧ heading m.posture = inFrame f s (1, -1) ∧
    t = .slalom .fastRunDiagonal90 (if cross f s < 0 then .left else .right)

/-- The replies to a number of calls, and the state afterwards. -/
def replies {S C : Type} (next : S → R (Reply C × S)) : Nat → S → R (List (Reply C) × S)
  | 0, s => .ok ([], s)
  | k + 1, s => do
    let (r, s) ← next s
    let (rs, s) ← replies next k s
    return (r :: rs, s)

/-- The speeds of the commands: the first two accelerate; of the others the last one and the last but one decelerate. `before` and `after`
are the numbers of commands before and after this one. -/
def Speed (before after : Nat) : RunState → Prop
  | .acceleration => before < 2
  | .deceleration2 => 2 ≤ before ∧ after = 0
  | .deceleration1 => 2 ≤ before ∧ after = 1
  | .constant => 2 ≤ before ∧ 2 ≤ after

/-- The commands for a path: one for each move, that leads from its beginning to its end across openings. -/
def Commands (W : Nat) (isWall : Search.Coord → Bool) (path : List Node) (cs : List RunCommand) : Prop :=
  cs.length + 1 = path.length ∧ ∀ (i : Nat) (c : RunCommand), cs[i]? = some c →
    path[i]? = some c.node ∧ (∃ m k, path[i + 1]? = some m ∧ Drivable W isWall c.node k m ∧ Leads c.node k m c.route) ∧
    Speed i (cs.length - 1 - i) c.state

/-- As many moves as there are cells can be paid: single straights and slaloms, each with the straight that is charged for the distance. -/
def Bearable (W : Nat) (cost : Pattern → Nat) (MAX : Nat) : Prop :=
  ∃ M, (∀ k ∈ [EdgeKind.straight 1, .straightDiagonal 1, .slalom45, .slalom90, .slalom135, .slalom180, .slalomDiagonal90],
    ∀ d < W, cost (patternOf k) + cost (.straight d) ≤ M) ∧ W * W * M < MAX

/-- A position of the maze that is not a pillar. -/
def Place (W x y : Nat) : Prop := x < 2 * W ∧ y < 2 * W ∧ ¬ (x % 2 = 1 ∧ y % 2 = 1)

instance (W x y) : Decidable (Place W x y) := by unfold Place; infer_instance

/-- The rotation kinds in the order in which they are tried, with the turn to the right that each is in eighths of a full turn. -/
def turns : List (RotationKind × Nat) := [(.front, 0), (.right, 2), (.left, 6), (.back, 4)]

/-- `m` is `n` turned on the spot. -/
def Turned (n : Node) (eighths : Nat) (m : Node) : Prop :=
  m.x = n.x ∧ m.y = n.y ∧ angleOf m.posture = (angleOf n.posture + eighths) % 8
where
  /-- The eighths of a full turn to the right from north. -/
  angleOf : Posture → Nat
    | .north => 0 | .northEast => 1 | .east => 2 | .southEast => 3 | .south => 4 | .southWest => 5 | .west => 6 | .northWest => 7

end Verif.Spec
