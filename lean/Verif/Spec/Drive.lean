import Verif.Spec.Slalom
import Mathlib.Data.List.Chain
/-!
# Specification of sequences of targets
-/
namespace Verif.Spec
open Verif Verif.Control Verif.Straight
open Verif.Run (SlalomKind)

/-- The velocity of a target in the frame of the robot: forward and to the left. -/
noncomputable def body (t : Target) : ℝ × ℝ := rotate (-t.theta.x) (t.x.v, t.y.v)

/-- The pose at the origin. -/
def origin : Detect.Pose := ⟨0, 0, 0⟩

/-- The target is at a pose. -/
def At (t : Target) (q : Detect.Pose) : Prop := t.x.x = q.x ∧ t.y.x = q.y ∧ t.theta.x = q.theta

/-- Distance between the positions of two targets. -/
noncomputable def gap (t t' : Target) : ℝ := Real.sqrt ((t'.x.x - t.x.x) ^ 2 + (t'.y.x - t.y.x) ^ 2)

/-- Successive targets are at most `δ` apart, and their speeds differ by at most `α`. -/
def Steps (δ α : ℝ) (l : List Target) : Prop := l.IsChain fun t t' => gap t t' ≤ δ ∧ |(body t').1 - (body t).1| ≤ α

/-- The samples of a drive from the pose `q` with speed `v` to the pose `q'` with speed `v'`, not faster than `vMax` and accelerating not
more than `aMax` at the end, sampled every `period`: the first is at `q` and has speed `v`; the last is less than one step before `q'`, in
its heading, and its speed differs from `v'` by no more than the acceleration allows; all go forward, none sideways. -/
structure Drive (vMax aMax period : ℝ) (q : Detect.Pose) (v : ℝ) (q' : Detect.Pose) (v' : ℝ) (l : List Target) : Prop where
  first : ∃ t, l.head? = some t ∧ At t q ∧ body t = (v, 0)
  last : ∃ t s u, l.getLast? = some t ∧ t.theta.x = q'.theta ∧ (t.x.x, t.y.x) = place q' (-s, 0) ∧ 0 ≤ s ∧ s < vMax * period ∧
    body t = (u, 0) ∧ |u - v'| ≤ aMax * period
  forward : ∀ t ∈ l, ∃ u, body t = (u, 0) ∧ 0 ≤ u ∧ u ≤ vMax

/-- How far the numerical integration of a curve may be off after `k` samples. -/
noncomputable def quadratureError (p : Slalom.Params) (v period : ℝ) (k : ℕ) : ℝ :=
  let W := v / p.vRef * p.dtheta
  let A := (v / p.vRef) ^ 2 * p.ddtheta
  let J := (v / p.vRef) ^ 3 * p.dddtheta
  k * (v * period * ((W ^ 3 + 3 * W * A + J) * period ^ 3 / 100 + 2e-8 * (W ^ 2 + A) * period ^ 2 + 1.5e-8 * W * period))

/-- How far the curve of a slalom of the table ends from where the table says, in square widths. -/
noncomputable def tableError : SlalomKind → ℝ
  | .fastRun45 => 0.0031707
  | _ => 3e-6

/-- There is room for changing the speed from `u` to `v` within the distance `d`. -/
def Roomy (g : Gen) (u v d : ℝ) : Prop := u ≤ v ∨ u * rampTime g.aMax g.jMax (u - v) < d

/-- Starting is possible: the mouse is moving already, or the distance is enough for the smallest speed of the search. -/
def Starts (g : Gen) (v d : ℝ) : Prop := 0 < v ∨ rampDist g 0 (resolution g.vMax) < d

end Verif.Spec
