import Verif.Spec.Sim
import Verif.Spec.Grid
import Verif.Model.Trial
/-!
# Specification of the whole integration test of the search
-/
namespace Verif.Spec
open Verif Verif.Control Verif.Detect Verif.Trial
open Verif.Search (Coord WallState)

/-- The map of a maze: all its walls are known, and those which are known in advance are as they are known: the outer walls and the wall to the right
of the first square are there, the way out of the first square is open. -/
structure MazeMap (W : Nat) (maze : Walls.Walls) : Prop where
  full : ∀ c, Valid W c → ∃ b, Walls.wallState W maze c = .ok (.checked b)
  outer : ∀ c, Valid W c → c.x = 2 * W - 1 ∨ c.y = 2 * W - 1 → Walls.wallState W maze c = .ok (.checked true)
  right : Walls.wallState W maze ⟨1, 0⟩ = .ok (.checked true)
  ahead : Walls.wallState W maze ⟨0, 1⟩ = .ok (.checked false)

/-- What the recorded map says about walls is true. -/
def Recorded (W : Nat) (maze map : Walls.Walls) : Prop :=
  ∀ c b, Valid W c → Walls.wallState W map c = .ok (.checked b) → Walls.wallState W maze c = .ok (.checked b)

/-- What the recorded map says is kept. -/
def Keeps (W : Nat) (map map' : Walls.Walls) : Prop :=
  ∀ c b, Valid W c → Walls.wallState W map c = .ok (.checked b) → Walls.wallState W map' c = .ok (.checked b)

/-- There is a way from the first square to a goal. -/
def Solvable (W : Nat) (maze : Walls.Walls) (goals : List Coord) : Prop :=
  ∃ path : List Coord, path.head? = some ⟨0, 1⟩ ∧ (∃ x ∈ goals, x ≠ ⟨0, 1⟩ ∧ path.getLast? = some x) ∧
    RunPath W (fun c => Walls.wallState W maze c = .ok (.checked false)) path

/-- The test after `n` rounds, as far as it gets. -/
noncomputable def after (g : Gear) (m : Trial) : Nat → Trial
  | 0 => m
  | n + 1 => match g.turn m with
    | .ok (true, m') => after g m' n
    | .ok (false, m') => m'
    | .error _ => m

/-- What the recorded map answers in round `n`. -/
noncomputable def recorded (g : Gear) (m : Trial) (n : Nat) (c : Coord) : WallState :=
  match Walls.wallState g.W (after g m n).walls c with
  | .ok st => st
  | .error _ => .unchecked

/-- The trajectory of a loop has exactly one target left. -/
def LastLeft (T : Trig) (lp : SearchDriver.Loop) : Prop :=
  ∃ t m, Straight.shiftNext T lp.trajectory.1 (SearchDriver.Move.next T) lp.trajectory.2 = (some t, m) ∧
    (Straight.shiftNext T lp.trajectory.1 (SearchDriver.Move.next T) m).1 = none

/-- The robot keeps up with its targets at the ends of the trajectories: in every round that commands the last target but one of a trajectory, the state it
takes itself to be in is at most `ε` away from that target, along either axis, and, up to whole turns, at most `δ` in heading. -/
def KeepsUp (g : Gear) (m : Trial) (ε δ : ℝ) : Prop :=
  ∀ n m' t lp, g.go n m = .ok (true, m') → SearchDriver.track g.T m'.loop = .ok (t, lp) → LastLeft g.T lp →
    let state := (m'.estimator.estimate g.T m'.state (sensed g.T m'.simulator)).2
    |state.x.x - t.x.x| ≤ ε ∧ |state.y.x - t.y.x| ≤ ε ∧ ∃ k : ℤ, |state.theta.x - t.theta.x - 2 * Real.pi * k| ≤ δ

end Verif.Spec
