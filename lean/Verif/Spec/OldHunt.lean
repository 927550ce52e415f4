import Verif.Spec.SearchDriver
import Verif.Spec.OldExplore
import Verif.Spec.OldTraject
import Verif.Model.OldHunt
/-!
# Specification of the targets of the former search runs
-/
namespace Verif.Spec
open Verif Verif.Control Verif.Straight Verif.Slalom Verif.Old Verif.Old.Hunt
open Verif.Run (Node Posture)

/-- The iterator of a trajectory, with exact trigonometric functions. -/
noncomputable abbrev huntStepper : Detect.Pose × Traj → Option (Target × (Detect.Pose × Traj)) := step .real

/-- The settings, for the conditions and tolerances of the search run of `Spec/SearchDriver.lean`. -/
def huntSettings (c : Config) : SearchDriver.SearchConfig := ⟨c.gen, c.spin, c.period, c.squareWidth, c.frontOffset, 0⟩

/-- The angle of a heading. -/
noncomputable def toward : Posture → ℝ
  | .east => 0
  | .northEast => Real.pi / 4
  | .north => Real.pi / 2
  | .northWest => 3 * Real.pi / 4
  | .west => Real.pi
  | .southWest => -(3 * Real.pi / 4)
  | .south => -(Real.pi / 2)
  | .southEast => -(Real.pi / 4)

/-- Where the mouse is at a pose: in the centre of a cell, or on the line between two cells and the front offset further. -/
noncomputable def standing (sw fo : ℝ) (n : Node) : Detect.Pose :=
  let a := if n.x % 2 = 0 ∧ n.y % 2 = 0 then 0 else fo
  ⟨((n.x : ℝ) + 1) * (sw / 2) + a * Real.cos (toward n.posture), ((n.y : ℝ) + 1) * (sw / 2) + a * Real.sin (toward n.posture), toward n.posture⟩

/-- The targets are for a time. -/
def Lasts (period t : ℝ) (l : List Target) : Prop := ((l.length : ℝ) - 1) * period < t ∧ t ≤ l.length * period

/-- The mouse goes from a pose to the centre of the next cell, stops, turns half round, is told for a tenth of a second to look into the direction it came
from (!), and goes back to a pose. -/
def HuntBack (c : Config) (q q' : Detect.Pose) (l : List Target) : Prop :=
  ∃ l1 l2 l3 l4 l5 v', l = l1 ++ l2 ++ l3 ++ l4 ++ l5 ∧ Cruise (huntSettings c) v' ∧
    let m := compose q ⟨c.squareWidth / 2 - c.frontOffset, 0, 0⟩
    let m' : Detect.Pose := ⟨m.x, m.y, m.theta + Real.pi⟩
    Drive c.gen.vMax c.gen.aMax c.period q c.gen.vMax m 0 l1 ∧ Rests m l2 ∧ Lasts c.period 0.1 l2 ∧ Turns c.spin.vMax c.period m m'.theta l3 ∧
    Rests m l4 ∧ Lasts c.period 0.1 l4 ∧ Drive c.gen.vMax c.gen.aMax c.period m' 0 q' v' l5

/-- The mouse goes from a pose ahead to the centre of the next cell, and stays there for half a second. -/
def SlowDown (c : Config) (q q' : Detect.Pose) (l : List Target) : Prop :=
  ∃ l1 l2, l = l1 ++ l2 ∧ Drive c.gen.vMax c.gen.aMax c.period q c.gen.vMax q' 0 l1 ∧ Rests q' l2 ∧ Lasts c.period 0.5 l2

/-- The targets of one command, from a pose to a pose: the first is from rest to full speed, the last from full speed to rest, the others start and end with
full speed. -/
def HuntLeg (c : Config) (q : Detect.Pose) (k : SearchKind) (q' : Detect.Pose) (l : List Target) : Prop :=
  match k with
  | .init => ∃ v', Cruise (huntSettings c) v' ∧ Drive c.gen.vMax c.gen.aMax c.period q 0 q' v' l
  | .final => SlowDown c q q' l
  | .back => HuntBack c q q' l
  | _ => Drive c.gen.vMax c.gen.aMax c.period q c.gen.vMax q' c.gen.vMax l

/-- The targets of commands: for every command those from its pose to the pose of the next, across an opening if it crosses a wall. -/
inductive Hunt (c : Config) (W : Nat) (isWall : Search.Coord → Bool) (start : Node) : List (Node × SearchKind) → Node → List Target → Prop
  | nil : Hunt c W isWall start [] start []
  | snoc (cs : List (Node × SearchKind)) (n m : Node) (k : SearchKind) (q' : Detect.Pose) (l l' : List Target) :
      Hunt c W isWall start cs n l → CommandLeads W isWall n k m → HuntLeg c (standing c.squareWidth c.frontOffset n) k q' l' →
      Near (6e-9 * c.squareWidth) q' (standing c.squareWidth c.frontOffset m) → Hunt c W isWall start (cs ++ [(n, k)]) m (l ++ l')

end Verif.Spec
