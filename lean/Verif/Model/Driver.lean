import Verif.Model.Slalom
/-!
# Model of the callers in `mousecore2/tests/run.rs`

The library leaves it to its user to string trajectories together; this is how the project's own integration test of the fast run does
it: one shifted trajectory for every move of the planned path, driven one after the other. Real numbers, as in the models of the
trajectories.
-/
namespace Verif.Driver
open Verif Verif.Control Verif.Straight Verif.Slalom
open Verif.Run (Node TrajectoryKind)

/-- The settings of the run: `run.rs:116-122`, `160`. -/
structure RunConfig where
  gen : Gen
  period : ℝ
  squareWidth : ℝ
  slalomVelocity : ℝ

/-- The boxed iterators of `run.rs:190-207`, before the shift. The slalom comes with the pose of its second straight. -/
inductive Traj where
  | straight (s : Straight)
  | slalom (pose : Detect.Pose) (s : SlalomState)

/-- `next` of the same. -/
noncomputable def Traj.next (T : Trig) : Traj → Option Target × Traj
  | .straight s => ((Straight.next s).1, .straight (Straight.next s).2)
  | .slalom pose s => ((slalomNext T pose s).1, .slalom pose (slalomNext T pose s).2)

/-- `run.rs:168-180` start, middle and end velocity of the move number `i` of a path of `len` poses. -/
noncomputable def runVelocities (i len : Nat) (velocity run : ℝ) : ℝ × ℝ × ℝ :=
  if i ≤ 1 then (velocity, run, run)
  else if i + 2 = len then (velocity, velocity * 0.6666667, 0)
  else if i + 3 = len then (velocity, velocity * 0.5, velocity * 0.5)
  else (run, run, run)

/-- `run.rs:190-207` the trajectory of a move, before the shift, and its terminal velocity; the slaloms are those for front offset zero
(`run.rs:120`). -/
noncomputable def runLeg (c : RunConfig) (kind : TrajectoryKind) (v : ℝ × ℝ × ℝ) : Traj × ℝ :=
  match kind with
  | .straight x =>
    let (s, terminal) := straightGenerate c.gen c.period (x * c.squareWidth) v.1 v.2.2
    (.straight s, terminal)
  | .straightDiagonal x =>
    let (s, terminal) := straightGenerate c.gen c.period (x * c.squareWidth / Real.sqrt 2) v.1 v.2.2
    (.straight s, terminal)
  | .slalom kind dir =>
    let p := parameters c.squareWidth 0 kind dir
    let (s, terminal) := slalomWithTerminal c.gen c.period p v.1 v.2.1 v.2.2
    (.slalom p.curveEnd s, terminal)

/-- `run.rs:158-210` the trajectories for the moves from number `i` on, with the poses they are shifted to. -/
noncomputable def runPlan (c : RunConfig) (len : Nat) : Nat → ℝ → List Node → R (List (Detect.Pose × Traj))
  | i, velocity, n :: m :: path => do
    let pose := poseOfNode n c.squareWidth
    match ← n.trajectoryKind m with
    | none => .error .unreachable
    | some kind =>
      let (traj, terminal) := runLeg c kind (runVelocities i len velocity c.slalomVelocity)
      let trajectories ← runPlan c len (i + 1) terminal (m :: path)
      return (pose, traj) :: trajectories
  | _, _, _ => .ok []

/-- `run.rs:228-241` the next target of the main loop; `none` is the `break`. -/
noncomputable def nextTarget (T : Trig) : List (Detect.Pose × Traj) → R (Option Target × List (Detect.Pose × Traj))
  | [] => .error .unreachable
  | (pose, traj) :: trajectories =>
    match shiftNext T pose (Traj.next T) traj with
    | (some target, traj) => .ok (some target, (pose, traj) :: trajectories)
    | (none, _) =>
      match trajectories with
      | [] => .ok (none, [])
      | (pose, traj) :: trajectories =>
        match shiftNext T pose (Traj.next T) traj with
        | (some target, traj) => .ok (some target, (pose, traj) :: trajectories)
        | (none, _) => .error .unwrapNone

/-- `run.rs:214-256` the targets of the first `n` rounds of the main loop, and whether it has ended. -/
noncomputable def runTargets (T : Trig) : Nat → List (Detect.Pose × Traj) → R (List Target × Bool)
  | 0, _ => .ok ([], false)
  | n + 1, trajectories => do
    match ← nextTarget T trajectories with
    | (none, _) => return ([], true)
    | (some target, trajectories) =>
      let (targets, ended) ← runTargets T n trajectories
      return (target :: targets, ended)

end Verif.Driver
