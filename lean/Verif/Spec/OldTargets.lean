import Verif.Spec.Driver
import Verif.Spec.OldRun
import Verif.Spec.OldTraject
import Verif.Model.OldTargets
/-!
# Specification of the targets of the former fast runs
-/
namespace Verif.Spec
open Verif Verif.Control Verif.Old.Targets

/-- The iterator of a trajectory, with exact trigonometric functions. -/
noncomputable abbrev runStepper : Detect.Pose × Driver.Traj → Option (Target × (Detect.Pose × Driver.Traj)) := step .real

end Verif.Spec
