import Verif.Model.OldHunt
import Verif.Model.OldLife
/-!
# Targets of the rotations of the former core crate, and the configuration of all its generators

`obsolete/mousecore/src/trajectory_generators/setup.rs`, the conversion of rotations in `command_converter.rs`, and the part of
`defaults/config.rs` that configures the generators. Spins as in `Model/Straight.lean`; real numbers as there. Not modelled: builders,
serialization.
-/
namespace Verif.Old.Turn
open Verif Verif.Control Verif.Straight Verif.Slalom
open Verif.Old.FastRun (RotationKind RunCommand)
open Verif.Old.Targets (poseOf)
open Verif.Run (Node)

/-- `defaults/config.rs:33-75` `Config`: the fields that the generators and the converter use. -/
structure Config where
  maxVelocity : ℝ
  maxAcceleration : ℝ
  maxJerk : ℝ
  searchVelocity : ℝ
  runSlalomVelocity : ℝ
  /-- `spin_angular_velocity`, `spin_angular_acceleration`, `spin_angular_jerk` -/
  spin : Gen
  period : ℝ
  squareWidth : ℝ
  frontOffset : ℝ

/-- `defaults/config.rs:193-203`. -/
def Config.hunt (c : Config) : Hunt.Config :=
  ⟨⟨c.searchVelocity, c.maxAcceleration, c.maxJerk⟩, c.spin, c.period, c.squareWidth, c.frontOffset⟩

/-- `defaults/config.rs:204-212`. -/
def Config.run (c : Config) : Targets.Config :=
  ⟨⟨⟨c.maxVelocity, c.maxAcceleration, c.maxJerk⟩, c.period, c.squareWidth, c.runSlalomVelocity⟩, c.frontOffset⟩

/-- `setup.rs:61-64` `SetupTrajectory`. -/
inductive Traj where
  | empty (s : Option Target)
  | rotation (s : Spin)

/-- `setup.rs:66-75` `next`; `SingleTrajectory::next` (`trajectory.rs:46-52`) takes the target. -/
noncomputable def Traj.next : Traj → Option Target × Traj
  | .empty s => (s, .empty none)
  | .rotation s => ((Spin.next s).1, .rotation (Spin.next s).2)

/-- `setup.rs:82-101` `generate`: the trajectory before the shift; the configuration is `defaults/config.rs:213-218`. -/
noncomputable def Config.trajectory (c : Config) : RotationKind → Traj
  | .front => .empty (some ⟨.zero, .zero, .zero⟩)
  | .right => .rotation (spinGenerate c.spin c.period (degree (-90)))
  | .left => .rotation (spinGenerate c.spin c.period (degree 90))
  | .back => .rotation (spinGenerate c.spin c.period (degree 180))

/-- `command_converter.rs:130-139` `convert`, `setup.rs:82-101` `generate`: the trajectory with the pose it is shifted to. -/
noncomputable def Config.turn (c : Config) (command : Node × RotationKind) : Detect.Pose × Traj :=
  (poseOf (c.squareWidth / 2) c.frontOffset command.1, c.trajectory command.2)

/-- `trajectory_generators/trajectory.rs:100-108` `next` of a shifted trajectory. -/
noncomputable def step (T : Trig) (s : Detect.Pose × Traj) : Option (Target × (Detect.Pose × Traj)) :=
  match shiftNext T s.1 Traj.next s.2 with
  | (some target, traj) => some (target, s.1, traj)
  | (none, _) => none

end Verif.Old.Turn
