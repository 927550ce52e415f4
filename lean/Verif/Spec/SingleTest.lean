import Verif.Spec.Trial
import Verif.Spec.SingleConvert
import Verif.Spec.SingleHunt
import Verif.Model.SingleTest
/-!
# Specification of the whole integration test in floating point arithmetic
-/
namespace Verif.Spec
open Verif Verif.Single
open Verif.Search (Coord WallState)

/-- The test after `n` rounds, as far as it gets. -/
noncomputable def afterRounds (A : Arith) (L : Lib) (g : Kit) (m : Attempt) : Nat → Attempt
  | 0 => m
  | n + 1 => match g.turn A L m with
    | .ok (true, m') => afterRounds A L g m' n
    | .ok (false, m') => m'
    | .error _ => m

/-- What the recorded map answers in round `n`. -/
noncomputable def mapAfter (A : Arith) (L : Lib) (g : Kit) (m : Attempt) (n : Nat) (c : Coord) : WallState :=
  match Walls.wallState g.W (afterRounds A L g m n).walls c with
  | .ok st => st
  | .error _ => .unchecked

/-- The state that the robot takes itself to be in, in the next round. -/
noncomputable def guessed (A : Arith) (L : Lib) (m : Attempt) : State :=
  (m.robot.estimator.estimate A L m.robot.state (senses A L m.simulator)).2

end Verif.Spec
