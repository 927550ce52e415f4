import Verif.Model.Driver
import Verif.Model.Trial
/-!
# Model of the whole integration test `mousecore2/tests/run.rs`

Planning, stringing the trajectories together (`Verif.Driver`), and the main loop with simulator, estimator, navigation, supervisor, tracker
and controller, in its order. Real numbers, SI units, trigonometric functions as a parameter.
-/
namespace Verif.RunTrial
open Verif Verif.Control Verif.Estimate Verif.Sim Verif.Driver Verif.Trial
open Verif.Run (Node Posture EdgeKind HeapOps)

/-- What does not change in the loop: `tests/run.rs:88-96`; the constant `PI` and the functions `sin` and `cos`. -/
structure RunGear where
  T : Trig
  pi : ℝ
  navigation : Navigation
  supervisor : Supervisor

/-- What changes: `tests/run.rs:80`, `82-87`, `97-114`, `124-135`, `158`. -/
structure Runner where
  state : State
  tracker : Tracker
  controller : Controller
  estimator : Estimator
  simulator : Simulator
  trajectories : List (Detect.Pose × Traj)

open Classical in
/-- `control.rs:102` whether the tracker uses the demanded jerk. -/
def usesJerk (T : Trig) (tracker : Tracker) (state : State) (target : Target) (ux uy : ℝ) : Prop :=
  let xi := tracker.xi + tracker.period * (ux * T.cos state.theta.x + uy * T.sin state.theta.x)
  let vr := target.x.v * T.cos target.theta.x + target.y.v * T.sin target.theta.x
  tracker.xiThreshold < |vr| ∧ tracker.xiThreshold < |xi|

open Classical in
/-- `track` on what the supervisor returns. A jerk that is infinite or no number makes the reference, and then the voltages, so
(`none`), when it is used. -/
noncomputable def trackSupervised (T : Trig) (pi : ℝ) (tracker : Tracker) (state : State) (target : Target) (i : Supervised) :
    Option (Tracker × ControlTarget × ControlTarget) :=
  match i.dux, i.duy with
  | .fin dux, .fin duy => some (tracker.track T pi state target ⟨i.ux, i.uy, dux, duy⟩)
  | _, _ => if usesJerk T tracker state target i.ux i.uy then none else some (tracker.track T pi state target ⟨i.ux, i.uy, 0, 0⟩)

open Classical in
/-- `tests/run.rs:214-256` one round of the loop; `false` when it leaves the loop. The assertion fails for voltages that are infinite or no
number. -/
noncomputable def RunGear.turn (g : RunGear) (m : Runner) : R (Bool × Runner) := do
  let (estimator, state) := m.estimator.estimate g.T m.state (sensed g.T m.simulator)
  match ← nextTarget g.T m.trajectories with
  | (none, trajectories) => return (false, { m with state, estimator, trajectories })
  | (some target, trajectories) => do
    let input := g.navigation.navigate state target
    let input ← g.supervisor.supervise g.T input state
    match trackSupervised g.T g.pi m.tracker state target input with
    | none => .error .assert
    | some (tracker, controlTarget, controlState) =>
      let (controller, vol) := m.controller.control controlTarget controlState
      if |vol.left| ≤ 4 ∧ |vol.right| ≤ 4 then
        return (true, { state, tracker, controller, estimator, simulator := (m.simulator.apply vol.left vol.right).step g.T, trajectories })
      else .error .assert

/-- `tests/run.rs:214-256` at most `n` rounds. -/
noncomputable def RunGear.go (g : RunGear) : Nat → Runner → R (Bool × Runner)
  | 0, m => .ok (true, m)
  | n + 1, m => do
    let (on, m) ← g.turn m
    if on then g.go n m else return (false, m)

/-- `tests/run.rs:146-154` the costs of the moves. -/
def runCost : EdgeKind → Nat
  | .straight x => x * 10
  | .straightDiagonal x => x * 7
  | .slalom45 => 12
  | .slalom90 => 15
  | .slalom135 => 20
  | .slalom180 => 25
  | .slalomDiagonal90 => 15

/-- `tests/run.rs:58`, `78`, `116-122`, `160`. -/
noncomputable def runConfig : RunConfig := ⟨⟨1, 10, 100⟩, 0.001, 0.09, 0.5⟩

/-- `tests/run.rs:88-96`. -/
noncomputable def runGear (T : Trig) (pi : ℝ) : RunGear := ⟨T, pi, ⟨40, 4⟩, ⟨100, 0.02, 0.09⟩⟩

/-- `tests/run.rs:63-76`, `80-87`, `97-114`, `124-135`. -/
noncomputable def initialRun (maze : Walls.Walls) (trajectories : List (Detect.Pose × Traj)) : Runner where
  state := standing
  tracker := { xi := 0, period := 0.001, xiThreshold := 0.2, zeta := 1, b := 1 }
  controller := .new ⟨4.8497, 29.5783, 0, 1.865, 0.4443⟩ ⟨0.21134, 2.9317, 0, 82.39, 0.2855⟩ 0.001
  estimator := .new 0.001
  simulator := .new maze standing standing 3.7 0.001 1.865 0.4443 82.39 0.2855 0.0335
  trajectories

/-- `tests/run.rs:137-156` the path, for the heap `ops`; the largest cost is `u16::MAX`. -/
noncomputable def runPath (W : Nat) (ops : HeapOps) (maze : Walls.Walls) (goals : List Node) : R (List Node) := do
  let start ← unwrap (Node.new W 0 0 .north)
  let walls ← asking W maze
  let (found, _) ← Run.shortestPath W 65535 ops start (fun node => goals.any fun goal => decide (node = goal))
    (fun coord => decide (walls coord ≠ .checked false)) runCost
  let (path, _) ← unwrap found
  return path

/-- `tests/run.rs:52-257` `test_run` with at most `n` rounds of the loop: the text of a maze and the goals; `none` when these are over and
the loop has not been left. -/
noncomputable def wholeRun (T : Trig) (pi : ℝ) (W : Nat) (ops : HeapOps) (n : Nat) (text : List Char) (goals : List (Nat × Nat × Posture)) :
    R (Option Unit) := do
  let goals ← goals.mapM fun p => unwrap (Node.new W p.1 p.2.1 p.2.2)
  match ← Walls.fromStr W text with
  | .error _ => .error .unwrapNone
  | .ok maze => do
    let path ← runPath W ops maze goals
    let trajectories ← runPlan runConfig path.length 0 0 path
    let (on, _) ← (runGear T pi).go n (initialRun maze trajectories)
    return if on then none else some ()

end Verif.RunTrial
