import Verif.Spec.Detect
import Verif.Spec.SingleConvert
/-!
# Specification of the wall detector together with its converter, in single precision
-/
namespace Verif.Spec
open Verif Verif.Detect Verif.Convert Verif.Search Verif.Single

/-- The converter of the detector, as a function of the pose. -/
noncomputable def lookAt (A : Arith) (L : Lib) (W : Nat) (sort : List (Convert.Dir × F) → List (Convert.Dir × F)) (pose : Pose) : Option WallInfo :=
  (Finder.default A).convert A L W sort (.fin pose.x) (.fin pose.y) (.fin pose.theta)

/-- The exponential function of the library: 300 or more from 6 on (the true value at 6 is 403). -/
def Steep (exp : F → F) : Prop := ∀ x, 6 ≤ x → exp (.fin x) = .pinf ∨ ∃ y, 300 ≤ y ∧ exp (.fin x) = .fin y

/-- A belief that is not settled against the truth. -/
def NotWrong (truth : Bool) (p : ℝ) : Prop := if truth then 1 / 10 ≤ p ∧ p ≤ 1 else 0 ≤ p ∧ p ≤ 9 / 10

/-- A belief that is settled for the truth. -/
def SettledRight (truth : Bool) (p : ℝ) : Prop := if truth then 96 / 100 ≤ p ∧ p ≤ 1 else 0 ≤ p ∧ p ≤ 4 / 100

/-- An observation of moderate size: coordinates up to 11 m, an angle up to 100 rad of which the library knows sine and cosine, and a
deviation between a micrometre and 2.01 mm. -/
def FairLook (L : Lib) (ε : ℝ) (o : Obs) : Prop :=
  |o.pose.x| ≤ 11 ∧ |o.pose.y| ≤ 11 ∧ |o.pose.theta| ≤ 100 ∧ TrigNear L ε o.pose.theta ∧ 1 / 10 ^ 6 ≤ o.stddev ∧ o.stddev ≤ 201 / 100000

/-- The measured distance is the one expected for the true state of the wall, up to 7 mm. -/
def TrueReading (truth : Coord → Bool) (info : WallInfo) (mean : ℝ) : Prop :=
  ∃ v, (if truth info.coord then info.existing else info.notExisting) = .fin v ∧ |mean - v| ≤ 7 / 1000

/-- No belief is settled against the truth. -/
def NoError (W : Nat) (truth : Coord → Bool) (d : Detector) : Prop :=
  ∀ c, Valid W c → ∃ p, d (c.asIndex W) = .fin p ∧ NotWrong (truth c) p

end Verif.Spec
