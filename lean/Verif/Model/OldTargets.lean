import Verif.Model.Driver
import Verif.Model.OldRun
import Verif.Model.OldTraject
/-!
# Targets of the fast runs of the former core crate

`obsolete/mousecore/src/command_converter.rs` and `trajectory_generators/run.rs`. The generators of straights and slaloms in
`trajectory_generators/straight.rs`, `slalom.rs` and `trajectory.rs` compute what those of `mousecore2` compute (they differ in names only), so that
`Model/Straight.lean` and `Model/Slalom.lean` stand for them too; real numbers as there. The lock of the current velocity is taken by the main
loop only and is left out. Not modelled: builders, serialization, `ThroughCommandConverter` (which returns its argument).
-/
namespace Verif.Old.Targets
open Verif Verif.Control Verif.Straight Verif.Slalom
open Verif.Old.FastRun (RunState RunCommand)
open Verif.Run (Node TrajectoryKind)

/-- `run.rs:76-86` `RunTrajectoryGeneratorConfig`; the fields of `CommandConverterConfig` (`command_converter.rs:35-39`) are among them. -/
structure Config extends Driver.RunConfig where
  frontOffset : ℝ

/-- `command_converter.rs:67-108` `_convert`. -/
noncomputable def poseOf (squareWidthHalf frontOffset : ℝ) (n : Node) : Detect.Pose :=
  let (dx, dy, theta) : ℝ × ℝ × ℝ :=
    if (n.x + n.y) % 2 = 1 then
      match n.posture with
      | .north => (0, frontOffset, 90)
      | .east => (frontOffset, 0, 0)
      | .south => (0, -frontOffset, -90)
      | .west => (-frontOffset, 0, 180)
      | .northEast => (0, 0, 45)
      | .northWest => (0, 0, 135)
      | .southEast => (0, 0, -45)
      | .southWest => (0, 0, -135)
    else
      (0, 0, match n.posture with
        | .east => 0 | .northEast => 45 | .north => 90 | .northWest => 135
        | .west => 180 | .southEast => -45 | .south => -90 | .southWest => -135)
  ⟨((n.x : ℝ) + 1) * squareWidthHalf + dx, ((n.y : ℝ) + 1) * squareWidthHalf + dy, degree theta⟩

/-- `run.rs:115-120` `RunTrajectoryParameters`. -/
structure RunParameters where
  pose : Detect.Pose
  kind : TrajectoryKind
  state : RunState

/-- `command_converter.rs:142-157` `convert` of a `RunCommand`; `CommandConverter::new` (`command_converter.rs:25-30`) halves the width. -/
noncomputable def convert (c : Config) (command : RunCommand) : RunParameters :=
  ⟨poseOf (c.squareWidth / 2) c.frontOffset command.node, command.route, command.state⟩

/-- `run.rs:49` `HALF_DIAGONAL`. -/
noncomputable def HALF_DIAGONAL : ℝ := 0.70710677

/-- `run.rs:137-161` start, middle and end velocity. -/
noncomputable def velocities (state : RunState) (current run : ℝ) : ℝ × ℝ × ℝ :=
  match state with
  | .acceleration => (current, run, run)
  | .constant => (run, run, run)
  | .deceleration1 => (current, current * 0.5, current * 0.5)
  | .deceleration2 => (current, current * 0.6666667, 0)

/-- `run.rs:162-184` the trajectory before the shift, and its terminal velocity. -/
noncomputable def leg (c : Config) (kind : TrajectoryKind) (v : ℝ × ℝ × ℝ) : Driver.Traj × ℝ :=
  match kind with
  | .straight len =>
    let (s, terminal) := straightGenerate c.gen c.period (len * c.squareWidth) v.1 v.2.2
    (.straight s, terminal)
  | .straightDiagonal len =>
    let (s, terminal) := straightGenerate c.gen c.period (len * (c.squareWidth * HALF_DIAGONAL)) v.1 v.2.2
    (.straight s, terminal)
  | .slalom kind dir =>
    let p := parameters c.squareWidth c.frontOffset kind dir
    let (s, terminal) := slalomWithTerminal c.gen c.period p v.1 v.2.1 v.2.2
    (.slalom p.curveEnd s, terminal)

/-- `run.rs:136-187` `generate`: the shifted trajectory, and the new current velocity. -/
noncomputable def generate (c : Config) (current : ℝ) (p : RunParameters) : (Detect.Pose × Driver.Traj) × ℝ :=
  let (trajectory, terminal) := leg c p.kind (velocities p.state current c.slalomVelocity)
  ((p.pose, trajectory), terminal)

/-- The trajectories for commands converted and generated one after the other, as `set_command` does
(`trajectory_managers/tracking.rs:73-87`); the first current velocity is zero (`run.rs:105`). -/
noncomputable def trajectories (c : Config) : ℝ → List RunCommand → List (Detect.Pose × Driver.Traj)
  | _, [] => []
  | current, command :: commands =>
    let (trajectory, current) := generate c current (convert c command)
    trajectory :: trajectories c current commands

/-- `trajectory_generators/trajectory.rs:100-108` `next` of a shifted trajectory. -/
noncomputable def step (T : Trig) (s : Detect.Pose × Driver.Traj) : Option (Target × (Detect.Pose × Driver.Traj)) :=
  match shiftNext T s.1 (Driver.Traj.next T) s.2 with
  | (some target, traj) => some (target, s.1, traj)
  | (none, _) => none

end Verif.Old.Targets
