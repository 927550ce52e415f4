import Verif.Model.Imu
/-!
# Specification of the inertial sensor
-/
namespace Verif.Spec
open Verif Verif.Imu

inductive ImuCall where
  | gyro | accel | calibrate
  | init (fuel : Nat)

/-- One public call; only the state and the log matter here. -/
noncomputable def imuStep (w : World) (s : Imu × Log) : ImuCall → Imu × Log
  | .gyro => (angularVelocity w s).2
  | .accel => (translationalAcceleration w s).2
  | .calibrate => (calibrate w s).2
  | .init fuel => (init fuel w s).2

/-- Any sequence of public calls, whether they succeed or not. -/
noncomputable def imuRun (w : World) (calls : List ImuCall) (s : Imu × Log) : Imu × Log := calls.foldl (imuStep w) s

/-- Driving chip select. -/
def isPin : Op → Prop
  | .cs _ => True
  | _ => False

/-- Every transfer is done directly after chip select was successfully driven low, and the very next thing is to drive it
high. -/
def TransfersFramed (m : Log) : Prop :=
  ∀ a b r c, m = a ++ (.transfer b, r) :: c →
    (∃ a' x, a = a' ++ [(.cs false, some x)]) ∧ ∃ h c', c = (.cs true, h) :: c'

/-- The last time chip select was driven, it was driven high, unless this failed. -/
def Released (m : Log) : Prop :=
  ∀ a e c, m = a ++ e :: c → isPin e.1 → (∀ e' ∈ c, ¬ isPin e'.1) → e.2.isSome → e.1 = .cs true

/-- The bytes answered to the successful transfers that start with the given byte. -/
def answers (first : Nat) (m : Log) : List (List Nat) :=
  m.filterMap fun e => match e with
    | (.transfer (b :: _), some r) => if b = first then some r else none
    | _ => none

/-- A signed sixteen bit number in two bytes, the higher first. -/
def signed16 (higher lower : Nat) : Int := ((higher * 256 + lower : Nat) : Int) - if 128 ≤ higher then 65536 else 0

/-- The turn rate meant by an answer (radians per second), with the correction factor of the code. -/
noncomputable def gyroValue (r : List Nat) : ℝ := 0.0010642251 * 0.99 * signed16 (r.getD 1 0) (r.getD 2 0)

/-- The acceleration meant by an answer; the axis of the sensor points backwards. -/
noncomputable def accelValue (r : List Nat) : ℝ := -0.0005985504 * signed16 (r.getD 1 0) (r.getD 2 0)

/-- The answer consists of bytes. -/
def IsBytes (r : List Nat) : Prop := ∀ b ∈ r, b < 256

end Verif.Spec
