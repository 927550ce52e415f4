import Verif.Model.RunTrial
import Verif.Model.SingleTest
import Verif.Model.SingleRun
import Verif.Model.Guard
/-!
# The whole integration test `mousecore2/tests/run.rs` in floating point arithmetic

The loop of `Verif.Model.RunTrial` (which has real numbers) once more, for any arithmetic: every number of simulator, estimator, trajectories, navigation,
supervisor, tracker and controller is a floating point number.
-/
namespace Verif.Single
open Verif
open Verif.Run (Node HeapOps)

/-- What changes in the loop: `tests/run.rs:80`, `82-87`, `97-114`, `124-135`, `158`. (Gains of the navigation, `tests/run.rs:88-91`, are part of the robot.) -/
structure Sprint where
  robot : Robot
  simulator : Simulator
  stints : List (Place × Stint)

open Classical in
/-- `tests/run.rs:214-256` one round of the loop; `false` when it leaves the loop. A comparison with what is not a number fails. -/
noncomputable def Supervisor.turn (A : Arith) (L : Platform) (g : Supervisor) (m : Sprint) : R (Bool × Sprint) := do
  let (estimator, state) := m.robot.estimator.estimate A L.toLib m.robot.state (senses A L.toLib m.simulator)
  match ← upcoming A L.toLib m.stints with
  | (none, stints) => return (false, { m with robot := { m.robot with estimator, state }, stints })
  | (some target, stints) => do
    let input := m.robot.navigation.navigate A state target
    let input ← g.supervise A L input state
    let (tracker, r, y) := m.robot.tracker.track A L.toLib state target input
    let (controller, vol) := m.robot.controller.control A r y
    if vol.left.abs.le (.fin 4) ∧ vol.right.abs.le (.fin 4) then
      return (true, { robot := { m.robot with estimator, state, tracker, controller }, simulator := (m.simulator.apply vol.left vol.right).step A L.toLib, stints })
    else .error .assert

/-- `tests/run.rs:214-256` at most `n` rounds. -/
noncomputable def Supervisor.go (A : Arith) (L : Platform) (g : Supervisor) : Nat → Sprint → R (Bool × Sprint)
  | 0, m => .ok (true, m)
  | n + 1, m => do
    let (on, m) ← g.turn A L m
    if on then g.go A L n m else return (false, m)

/-- `tests/run.rs:137-256` with at most `n` rounds of the loop, on a maze that has been read; `none` when these are over and the loop has not been left.
Planning has no floating point numbers. -/
noncomputable def Dash.test (A : Arith) (L : Platform) (c : Dash) (g : Supervisor) (W : Nat) (ops : HeapOps) (n : Nat) (goals : List Node) (robot : Robot)
    (simulator : Simulator) : R (Option Unit) := do
  let path ← RunTrial.runPath W ops simulator.walls goals
  let stints ← c.plan A L.toLib path.length 0 (.fin 0) path
  let (on, _) ← g.go A L n ⟨robot, simulator, stints⟩
  return if on then none else some ()

end Verif.Single
