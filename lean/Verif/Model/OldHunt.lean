import Verif.Model.SearchDriver
import Verif.Model.OldSearch
import Verif.Model.OldTargets
/-!
# Targets of the search runs of the former core crate

`obsolete/mousecore/src/trajectory_generators/search.rs` and the conversion of search commands in `command_converter.rs`. Straights, slaloms, spins
and stops as in `Model/Straight.lean` and `Model/Slalom.lean` (see `Model/OldTargets.lean`); real numbers as there. The trajectories that the
generator keeps and clones are generated anew for every command, which is the same. Not modelled: builders, serialization, `advance_by` (nightly
compilers only).
-/
namespace Verif.Old.Hunt
open Verif Verif.Control Verif.Straight Verif.Slalom
open Verif.SearchDriver (BackState backNext)
open Verif.Old (SearchKind)
open Verif.Old.Search (Reply)
open Verif.Old.Targets (poseOf)
open Verif.Run (Node)

/-- `search.rs:211-221` `SearchTrajectoryGeneratorConfig`; the generator of straights has `search_velocity` for its largest velocity
(`search.rs:106-107`). The fields of `CommandConverterConfig` are among them. -/
structure Config where
  gen : Gen
  spin : Gen
  period : ℝ
  squareWidth : ℝ
  frontOffset : ℝ

/-- `search.rs:35-40` `SearchTrajectory`. The slalom comes with the pose of its second straight, the way back with the poses of its spin and of its
second straight. -/
inductive Traj where
  | straight (s : Straight)
  | slalom (pose : Detect.Pose) (s : SlalomState)
  | back (centre turned : Detect.Pose) (s : BackState)
  | slowDown (s : Option Straight × Stop)

/-- `search.rs:45-54` `next`. -/
noncomputable def Traj.next (T : Trig) : Traj → Option Target × Traj
  | .straight s => ((Straight.next s).1, .straight (Straight.next s).2)
  | .slalom pose s => ((slalomNext T pose s).1, .slalom pose (slalomNext T pose s).2)
  | .back centre turned s => ((backNext T centre turned s).1, .back centre turned (backNext T centre turned s).2)
  | .slowDown s => ((chainNext Straight.next Stop.next s).1, .slowDown (chainNext Straight.next Stop.next s).2)

/-- `search.rs:122-196` the trajectories, and `278-285` the choice among them. -/
noncomputable def Config.trajectory (c : Config) : SearchKind → Traj
  | .init => .straight (straightGenerate c.gen c.period (c.squareWidth / 2 + c.frontOffset) 0 c.gen.vMax).1
  | .final =>
    .slowDown (some (straightGenerate c.gen c.period (c.squareWidth / 2 - c.frontOffset) c.gen.vMax 0).1,
      ⟨0, ⟨c.squareWidth / 2 - c.frontOffset, 0, 0⟩, c.period, 0.5⟩)
  | .front => .straight (straightConstant c.squareWidth c.gen.vMax c.period)
  | .right =>
    let p := parameters c.squareWidth c.frontOffset .search90 .right
    .slalom p.curveEnd (constantSlalom c.period p c.gen.vMax)
  | .left =>
    let p := parameters c.squareWidth c.frontOffset .search90 .left
    .slalom p.curveEnd (constantSlalom c.period p c.gen.vMax)
  | .back =>
    let distance := c.squareWidth / 2 - c.frontOffset
    let there := (straightGenerate c.gen c.period distance c.gen.vMax 0).1
    let spin := spinGenerate c.spin c.period (degree 180)
    let back := (straightGenerate c.gen c.period (distance + 2 * c.frontOffset) 0 c.gen.vMax).1
    .back ⟨distance, 0, 0⟩ ⟨distance, 0, degree 180⟩
      (some (some (some (some there, ⟨0, ⟨distance, 0, 0⟩, c.period, 0.1⟩), spin), ⟨0, ⟨distance, 0, 0⟩, c.period, 0.1⟩), back)

/-- `search.rs:269-287` `generate_search_trajectory`: the trajectory with the pose it is shifted to. -/
noncomputable def Config.at (c : Config) (pose : Detect.Pose) (kind : SearchKind) : Detect.Pose × Traj := (pose, c.trajectory kind)

/-- `command_converter.rs:119-128` `convert`, `search.rs:253-255` `generate_search`. -/
noncomputable def Config.generate (c : Config) (command : Node × SearchKind) : Detect.Pose × Traj :=
  c.at (poseOf (c.squareWidth / 2) c.frontOffset command.1) command.2

/-- `search.rs:257-265` `generate_emergency`. -/
noncomputable def Config.emergency (c : Config) (target : Target) : Detect.Pose × Traj :=
  c.at ⟨target.x.x, target.y.x, target.theta.x⟩ .final

/-- `trajectory_generators/trajectory.rs:100-108` `next` of a shifted trajectory. -/
noncomputable def step (T : Trig) (s : Detect.Pose × Traj) : Option (Target × (Detect.Pose × Traj)) :=
  match shiftNext T s.1 (Traj.next T) s.2 with
  | (some target, traj) => some (target, s.1, traj)
  | (none, _) => none

/-- `trajectory_generators/trajectory.rs:11-34` `Default` of a target. -/
noncomputable instance : Inhabited Target := ⟨⟨.zero, .zero, .zero⟩⟩

/-- What the operator makes of a reply of the search commander: `trajectory_managers/search.rs:84-97`. -/
noncomputable def Config.answer (c : Config) : Reply → Traject.Answer (Detect.Pose × Traj)
  | .command n k => .command (c.generate (n, k))
  | .waiting => .waiting
  | .finish => .finish

end Verif.Old.Hunt
