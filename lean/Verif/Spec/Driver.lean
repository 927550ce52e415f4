import Verif.Spec.Drive
import Verif.Model.Driver
/-!
# Specification of the driver of the fast run
-/
namespace Verif.Spec
open Verif Verif.Control Verif.Straight Verif.Driver

/-- Usable settings: limits, period and speed are positive, the speed is within the limit, one step is small compared with a square, and the
smallest speed of the search is reached within the shortest straight of the slalom table. -/
structure RunOk (c : RunConfig) : Prop where
  v : 0 < c.gen.vMax
  a : 0 < c.gen.aMax
  j : 0 < c.gen.jMax
  period : 0 < c.period
  width : 0 < c.squareWidth
  run0 : 0 < c.slalomVelocity
  run1 : c.slalomVelocity ≤ c.gen.vMax
  step : c.gen.vMax * c.period ≤ 0.0322 * c.squareWidth
  start : rampDist c.gen 0 (resolution c.gen.vMax) < 0.1564 * c.squareWidth

/-- The largest distance between successive targets: one step, the inaccuracy of the search for a velocity, and the inaccuracy of the slalom table. -/
noncomputable def runStep (c : RunConfig) : ℝ :=
  1.01 * (c.gen.vMax * c.period) + c.gen.vMax * rampTime c.gen.aMax c.gen.jMax (resolution c.gen.vMax) + 0.0048 * c.squareWidth

/-- The main loop issues exactly these targets, one every round, and ends after them. -/
def Issues (trajectories : List (Detect.Pose × Traj)) (l : List Target) : Prop :=
  ∀ n, runTargets .real n trajectories = .ok (l.take n, decide (l.length < n))

/-- Some of the targets are at the poses, in this order. -/
def Visits (sw : ℝ) (l : List Target) (path : List Run.Node) : Prop :=
  ∃ ts, ts.Sublist l ∧ List.Forall₂ (fun t n => At t (Slalom.poseOfNode n sw)) ts path

end Verif.Spec
