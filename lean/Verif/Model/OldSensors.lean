import Verif.Model.Encoder
import Verif.Model.Motor
import Verif.Model.Imu
import Verif.Model.Tof
import Verif.Model.Detect
import Mathlib.Analysis.SpecialFunctions.Trigonometric.Basic
/-!
# Model of the former sensor drivers, `obsolete/sensors/src`

Real arithmetic. As in the models of the newer drivers the world (buses, devices, pins) is an arbitrary function of everything done so far. Functions whose text is the same as in
`sensors2` are those of the newer models; their lines in the former files are cited where they are used.
-/
namespace Verif.Old.Sensors
open Verif
open Verif.Detect (Pose)

/-! ## Encoder -/

/-- `encoder.rs:11-18` `MA702GQ` without the counter. -/
structure Encoder where
  wheelRadius : ℝ
  beforeCount : Nat

/-- `encoder.rs:26-32` `new`. -/
def Encoder.new (wheelRadius : ℝ) : Encoder := ⟨wheelRadius, 0⟩

/-- `encoder.rs:47-59` `get_relative_distance`; `count` is the value of the counter peripheral. `u16 as i16`, unary minus on `i16` and `get_lower_bits` (`encoder.rs:34-37`) are
those of the newer model. A revolution is `2 π`. -/
noncomputable def Encoder.getRelativeDistance (self : Encoder) (count : Nat) : R (ℝ × Encoder) := do
  let after := Verif.Encoder.lowerBits count
  let relative ←
    if self.beforeCount < after then pure (Verif.Encoder.asI16 (after - self.beforeCount))
    else Verif.Encoder.negI16 (Verif.Encoder.asI16 (self.beforeCount - after))
  return (-(relative / 1024 * (2 * Real.pi)) * self.wheelRadius, { self with beforeCount := after })

/-! ## Voltmeter and motors -/

/-- `voltmeter.rs:13-22` `Voltmeter` without the converter. -/
structure Voltmeter where
  voltage : ℝ
  alpha : ℝ

/-- `voltmeter.rs:64-67` `get_current_voltage`, with the constants of lines 31-37: one reading of the converter, or an error, which is unwrapped. -/
noncomputable def currentVoltage : Option Nat → R ℝ
  | none => .error .unwrapNone
  | some value => .ok (value * 3.3 * 1.9 / 4096)

/-- `voltmeter.rs:52-54` the loop summing `n` readings, the `k`-th first. -/
noncomputable def sumLoop (adc : Nat → Option Nat) : Nat → Nat → ℝ → R ℝ
  | 0, _, sum => .ok sum
  | n + 1, k, sum => do
    let v ← currentVoltage (adc k)
    sumLoop adc n (k + 1) (sum + v)

/-- `voltmeter.rs:40-57` `new`; it consumes the first 100 readings. -/
noncomputable def Voltmeter.new (adc : Nat → Option Nat) (period cutOff : ℝ) : R Voltmeter := do
  let alpha := 1 / (2 * Real.pi * (period * cutOff) + 1)
  let sum ← sumLoop adc 100 0 0
  return { voltage := sum / 100, alpha }

/-- `voltmeter.rs:59-62` `update_voltage`; nothing calls it. -/
noncomputable def Voltmeter.updateVoltage (self : Voltmeter) (reading : Option Nat) : R Voltmeter := do
  let v ← currentVoltage reading
  return { self with voltage := self.alpha * self.voltage + (1 - self.alpha) * v }

/-- `voltmeter.rs:76-79` `get_voltage`: the voltage stored, which is not updated (line 77 is commented out). -/
def Voltmeter.getVoltage (self : Voltmeter) : ℝ × Voltmeter := (self.voltage, self)

open Classical in
/-- `motor.rs:44-63` `apply`: the duties given to the two pins with maximum duties `max1`, `max2`, and the shared voltmeter afterwards. -/
noncomputable def apply (max1 max2 : Nat) (meter : Voltmeter) (voltage : ℝ) : (Nat × Nat) × Voltmeter :=
  let (battery, meter) := meter.getVoltage
  if 0 < voltage then
    let ratio := voltage / battery
    let ratio := if 1 < ratio then 1 else ratio
    ((Verif.Motor.toU16 ((1 - ratio) * max1), max2), meter)
  else
    let ratio := -(voltage / battery)
    let ratio := if 1 < ratio then 1 else ratio
    ((max1, Verif.Motor.toU16 ((1 - ratio) * max2)), meter)

/-! ## Distance sensor -/

/-- `tof.rs:24-36` `VL6180X` without the pin: address and state, and the settings. -/
structure Tof where
  dev : Verif.Tof.Tof
  pose : Pose
  a : ℝ
  b : ℝ

/-- `tof.rs:207-236` `get_distance`: mean and standard deviation. Access to registers (`tof.rs:173-193`) as in the newer model. -/
noncomputable def Tof.getDistance (self : Tof) (w : Verif.Tof.World) (log : Verif.Tof.Log) : Except Verif.Tof.Err (ℝ × ℝ) × Tof × Verif.Tof.Log :=
  match self.dev.state with
  | .idle =>
    match self.dev.writeReg w log 0x0018 0x01 with
    | (.error e, log) => (.error e, self, log)
    | (.ok _, log) => (.error .wouldBlock, { self with dev.state := .waiting }, log)
  | .waiting =>
    match self.dev.readReg w log 0x004F with
    | (.error e, log) => (.error e, self, log)
    | (.ok data, log) =>
      if data &&& 0x04 ≠ 0x04 then (.error .wouldBlock, self, log)
      else
        match self.dev.readReg w log 0x0062 with
        | (.error e, log) => (.error e, self, log)
        | (.ok distance, log) =>
          match self.dev.writeReg w log 0x0015 0x07 with
          | (.error e, log) => (.error e, self, log)
          | (.ok _, log) => (.ok (self.a * (distance / 1000) + self.b, 0.04), { self with dev.state := .idle }, log)

/-- `tof.rs:65-87` `new`; the text of `init` (`tof.rs:89-103`) and of what it calls is the one of the newer driver. -/
def Tof.new (w : Verif.Tof.World) (fuel newAddress : Nat) (pose : Pose) (multiplier offset : ℝ) (log : Verif.Tof.Log) : R (Tof × Verif.Tof.Log) := do
  let (dev, log) ← Verif.Tof.Tof.init ⟨Verif.Tof.defaultAddress, .idle⟩ w fuel newAddress log
  return (⟨dev, pose, multiplier, offset⟩, log)

/-! ## Inertial sensor -/

open Verif.Imu in
/-- `imu.rs:84-117` `init`: as in the newer driver, but the offsets are not reset before calibration. Registers, measurements, `calibrate` and `check_who_am_i` (`imu.rs:119-229`) have
the text of the newer driver. -/
noncomputable def imuInit (fuel : Nat) : M Unit := do
  waitOk (writeReg 0x06 0x80) fuel
  note (.delay 10)
  waitOk checkWhoAmI fuel
  writeWait fuel 0x06 0x01
  writeWait fuel 0x05 0x00
  writeWait fuel 0x7F 0x20
  writeWait fuel 0x01 0x06
  writeWait fuel 0x14 0x00
  writeWait fuel 0x7F 0x00
  waitOk calibrate fuel
  waitOk calibrate fuel

/-- `imu.rs:64-82` `new`: both offsets are 0 before `init`. (`post_init`, applied to the bus afterwards, is the caller's.) -/
noncomputable def imuNew (fuel : Nat) (w : Verif.Imu.World) : Verif.Imu.Out Unit × (Verif.Imu.Imu × Verif.Imu.Log) := imuInit fuel w (⟨0, 0⟩, [])

end Verif.Old.Sensors
