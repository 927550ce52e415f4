import Verif.Model.Single
import Verif.Model.Encoder
import Verif.Model.Motor
import Mathlib.Analysis.SpecialFunctions.Trigonometric.Basic
/-!
# `sensors2` in floating point arithmetic

The numbers of `Verif.Model.Encoder`, `Tof`, `Imu`, `Voltmeter` and `Motor` (which are real) once more, for any arithmetic: every operation is rounded, in the
order of the code. The traffic on the buses is in those models; here a calibration is a function of the raw values that were read.
-/
namespace Verif.Single
open Verif

/-! ## Encoder -/

/-- `sensors2/src/encoder.rs:44-46` the angle, in radians; the factor of a revolution is the one of `uom`, rounded. -/
noncomputable def revolutions (A : Arith) (rel : Int) : F := A.mul (A.div (.fin rel) (.fin 1024)) (A.rnd (2 * Real.pi))

/-- `sensors2/src/encoder.rs:36-47` `angle`. -/
noncomputable def encoderAngle (A : Arith) (before count : Nat) : R (Nat × F) := do
  let (after, rel) ← Encoder.relative before count
  return (after, revolutions A rel)

/-! ## Distance sensor -/

/-- `sensors2/src/tof.rs:219` the distance of a reading. -/
noncomputable def metres (A : Arith) (distance : Nat) : F := A.div (.fin distance) (.fin 1000)

/-! ## Inertial sensor -/

/-- `sensors2/src/imu.rs:21-25` `ICM20648` without the pin. -/
structure Inertial where
  accelOffset : F
  gyroOffset : F

/-- `sensors2/src/imu.rs:203-205` `convert_raw_data_to_angular_velocity`. -/
noncomputable def toGyro (A : Arith) (raw : Int) : F := A.mul (A.mul (A.rnd 0.0010642251) (.fin raw)) (A.rnd 0.99)

/-- `sensors2/src/imu.rs:207-209` `convert_raw_data_to_acceleration`. -/
noncomputable def toAccel (A : Arith) (raw : Int) : F := A.mul (A.rnd 0.0005985504) (.fin raw)

/-- `sensors2/src/imu.rs:211-221` the result of `angular_velocity`. -/
noncomputable def Inertial.angularVelocity (A : Arith) (self : Inertial) (raw : Int) : F := A.sub (toGyro A raw) self.gyroOffset

/-- `sensors2/src/imu.rs:223-233` the result of `translational_acceleration`. -/
noncomputable def Inertial.translationalAcceleration (A : Arith) (self : Inertial) (raw : Int) : F := A.sub (toAccel A raw).neg self.accelOffset

/-- `sensors2/src/imu.rs:121-129` the sum of readings, starting with `sum`. -/
noncomputable def total (A : Arith) (read : Int → F) : List Int → F → F
  | [], sum => sum
  | raw :: raws, sum => total A read raws (A.add sum (read raw))

/-- `sensors2/src/imu.rs:116-133` `calibrate`, from the raw values of its readings (1000 of each). -/
noncomputable def Inertial.calibrate (A : Arith) (self : Inertial) (accels gyros : List Int) : Inertial where
  accelOffset := A.add self.accelOffset (A.div (total A (self.translationalAcceleration A) accels (.fin 0)) (.fin 1000))
  gyroOffset := A.add self.gyroOffset (A.div (total A (self.angularVelocity A) gyros (.fin 0)) (.fin 1000))

/-- `sensors2/src/imu.rs:110-113` the end of `init`: no offset, and two calibrations. -/
noncomputable def Inertial.init (A : Arith) (accels gyros accels' gyros' : List Int) : Inertial :=
  ((⟨.fin 0, .fin 0⟩ : Inertial).calibrate A accels gyros).calibrate A accels' gyros'

/-! ## Voltmeter -/

/-- `sensors2/src/voltmeter.rs:11-22` `Voltmeter` without the peripherals. -/
structure Voltmeter where
  voltage : F
  alpha : F
  ratio : F

/-- `sensors2/src/voltmeter.rs:69-72` `current_voltage`: one reading. -/
noncomputable def currentVoltage (A : Arith) (ratio : F) : Option Nat → R F
  | none => .error .unwrapNone
  | some value => .ok (A.div (A.mul (A.mul (.fin value) (A.rnd 3.3)) ratio) (.fin 4096))

/-- `sensors2/src/voltmeter.rs:57-59` the loop summing `n` readings, the `k`-th first. -/
noncomputable def voltageSum (A : Arith) (ratio : F) (adc : Nat → Option Nat) : Nat → Nat → F → R F
  | 0, _, sum => .ok sum
  | n + 1, k, sum => do
    let v ← currentVoltage A ratio (adc k)
    voltageSum A ratio adc n (k + 1) (A.add sum v)

/-- `sensors2/src/voltmeter.rs:38-62` `new`; it consumes the first 100 readings. -/
noncomputable def Voltmeter.new (A : Arith) (adc : Nat → Option Nat) (period cutOff batteryRatio : F) : R Voltmeter := do
  let alpha := A.div (.fin 1) (A.add (A.mul (A.mul (.fin 2) (A.rnd Real.pi)) (A.mul period cutOff)) (.fin 1))
  let sum ← voltageSum A batteryRatio adc 100 0 (.fin 0)
  return { voltage := A.div sum (.fin 100), alpha, ratio := batteryRatio }

/-- `sensors2/src/voltmeter.rs:64-67` `update_voltage`. -/
noncomputable def Voltmeter.update (A : Arith) (self : Voltmeter) (reading : Option Nat) : R Voltmeter := do
  let v ← currentVoltage A self.ratio reading
  return { self with voltage := A.add (A.mul self.alpha self.voltage) (A.mul (A.sub (.fin 1) self.alpha) v) }

/-! ## Motor -/

/-- `f32 as u16`: towards zero, saturating, zero for NaN. -/
noncomputable def asU16 : F → Nat
  | .nan => 0
  | .ninf => 0
  | .pinf => 65535
  | .fin r => Motor.toU16 r

open Classical in
/-- `sensors2/src/motor.rs:28-46` `apply`: the duties given to the two pins with maximum duties `max1`, `max2`. -/
noncomputable def motorDuties (A : Arith) (max1 max2 : Nat) (voltage battery : F) : Nat × Nat :=
  if (F.fin 0).lt voltage then
    let ratio := A.div voltage battery
    let ratio := if (F.fin 1).lt ratio then .fin 1 else ratio
    (asU16 (A.mul (A.sub (.fin 1) ratio) (.fin max1)), max2)
  else
    let ratio := (A.div voltage battery).neg
    let ratio := if (F.fin 1).lt ratio then .fin 1 else ratio
    (max1, asU16 (A.mul (A.sub (.fin 1) ratio) (.fin max2)))

end Verif.Single
