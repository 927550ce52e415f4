import Verif.Model.Detect
import Verif.Spec.Float
import Verif.Spec.Grid
/-!
# Specification of the wall detector

An observation is a measured distance with its standard deviation, taken at a pose.
-/
namespace Verif.Spec
open Verif Verif.Detect Verif.Search

structure Obs where
  mean : ℝ
  stddev : ℝ
  pose : Pose

/-- A history of observations: the final detector and the returned values, in order. -/
noncomputable def observe (A : Arith) (convert : Pose → Option WallInfo) (W : Nat) :
    List Obs → Detector → R (Detector × List (Option (Coord × WallState)))
  | [], d => .ok (d, [])
  | o :: l, d => do
    let (d, r) ← detectAndUpdate A convert W d (.fin o.mean) (.fin o.stddev) o.pose
    let (d, rs) ← observe A convert W l d
    return (d, r :: rs)

/-- What the rest of the code guarantees about the converter: walls of the maze, at finite distances. -/
def GoodConverter (convert : Pose → Option WallInfo) (W : Nat) : Prop :=
  ∀ pose i, convert pose = some i → Valid W i.coord ∧ ∃ a b, i.existing = .fin a ∧ i.notExisting = .fin b

/-- Likelihood (up to a factor) of measuring `mean` when the true distance is `d`: normal distribution. -/
noncomputable def likelihood (d mean stddev : ℝ) : ℝ := Real.exp (-((mean - d) / stddev) ^ 2 / 2)

noncomputable def odds (p : ℝ) : ℝ := p / (1 - p)

end Verif.Spec
