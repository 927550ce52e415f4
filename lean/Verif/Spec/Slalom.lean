import Verif.Model.Slalom
import Verif.Spec.Straight
import Verif.Spec.Run
import Mathlib.Analysis.Calculus.Deriv.Basic
/-!
# Specification of slaloms
-/
namespace Verif.Spec
open Verif Verif.Control Verif.Straight Verif.Slalom

/-- The pose at which a slalom ends, in the frame of its start: the end of the curve and then the second straight. -/
noncomputable def slalomEnd (p : Slalom.Params) : Detect.Pose := compose p.curveEnd ⟨p.lEnd, 0, 0⟩

/-- The two poses differ by at most `e` in either coordinate, and by whole turns in heading. -/
def Near (e : ℝ) (q r : Detect.Pose) : Prop :=
  |q.x - r.x| ≤ e ∧ |q.y - r.y| ≤ e ∧ ∃ z : ℤ, q.theta = r.theta + 2 * Real.pi * z

/-- The pose at which a move of the planner ends, in the frame of its start (straights as in `mousecore2/tests/run.rs:191-199`). -/
noncomputable def runMove (sw fo : ℝ) : Run.TrajectoryKind → Detect.Pose
  | .straight n => ⟨n * sw, 0, 0⟩
  | .straightDiagonal n => ⟨n * sw / Real.sqrt 2, 0, 0⟩
  | .slalom kind d => slalomEnd (parameters sw fo kind d)

/-- How far the end of a move may be off: slaloms by 3e-7 of the square width. -/
noncomputable def moveSlack (sw : ℝ) : Run.TrajectoryKind → ℝ
  | .straight _ => 0
  | .straightDiagonal _ => 0
  | .slalom _ _ => 3e-7 * sw

/-- The pose at which a move of the search ends, in the frame of its start (as in `mousecore2/tests/search.rs:183-223`): one square
forward; the 90 degree slalom; forward to the centre of the square, half a turn, and forward again. -/
noncomputable def searchMove (sw fo : ℝ) : Search.TrajectoryKind → Detect.Pose
  | .front => ⟨sw, 0, 0⟩
  | .left => slalomEnd (parameters sw fo .search90 .left)
  | .right => slalomEnd (parameters sw fo .search90 .right)
  | .back => compose ⟨sw / 2 - fo, 0, 0⟩ (compose ⟨0, 0, Real.pi⟩ ⟨sw / 2 + fo, 0, 0⟩)

/-- The call number `k` of an iterator returns `t`. -/
def Yields {σ α : Type} (next : σ → Option α × σ) (s : σ) (k : Nat) (t : α) : Prop := (outputs next (k + 1) s)[k]? = some (some t)

/-- An iterator returns the elements of a list and then nothing, for ever. -/
def Produces {σ α : Type} (next : σ → Option α × σ) (s : σ) (l : List α) : Prop :=
  ∀ n, outputs next n s = (List.range n).map fun k : Nat => l[k]?

/-- The path of a point that moves with speed `v` in the direction `θ`. -/
def Follows (v : ℝ) (θ X Y : ℝ → ℝ) : Prop :=
  ∀ s, HasDerivAt X (v * Real.cos (θ s)) s ∧ HasDerivAt Y (v * Real.sin (θ s)) s

/-- The heading on a curve as a function of time. -/
noncomputable def curveHeading (c : Curve) (s : ℝ) : ℝ := (c.calculator.calculate s).x

/-- Parameters for which a curve can be generated. -/
structure CurveRequest (v vRef dtheta ddtheta dddtheta period : ℝ) : Prop where
  v : 0 < v
  vRef : 0 < vRef
  dtheta : 0 < dtheta
  ddtheta : 0 < ddtheta
  dddtheta : 0 < dddtheta
  period : 0 < period

end Verif.Spec
