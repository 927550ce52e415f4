import Verif.Model.Basic
import Mathlib.Analysis.SpecialFunctions.Trigonometric.Basic
/-!
# Model of the battery voltmeter, `sensors2/src/voltmeter.rs`

Real arithmetic. The converter is a stream of results: a reading, or an error, which the driver unwraps.
-/
namespace Verif.Voltmeter
open Verif

/-- `voltmeter.rs:11-22` `Voltmeter` without the peripherals. -/
structure Voltmeter where
  voltage : ℝ
  alpha : ℝ
  ratio : ℝ

/-- `voltmeter.rs:69-72` `current_voltage`: one reading. -/
noncomputable def currentVoltage (ratio : ℝ) : Option Nat → R ℝ
  | none => .error .unwrapNone
  | some value => .ok (value * 3.3 * ratio / 4096)

/-- `voltmeter.rs:57-59` the loop summing `n` readings, the `k`-th first. -/
noncomputable def sumLoop (ratio : ℝ) (adc : Nat → Option Nat) : Nat → Nat → ℝ → R ℝ
  | 0, _, sum => .ok sum
  | n + 1, k, sum => do
    let v ← currentVoltage ratio (adc k)
    sumLoop ratio adc n (k + 1) (sum + v)

/-- `voltmeter.rs:38-62` `new`; it consumes the first 100 readings. -/
noncomputable def new (adc : Nat → Option Nat) (period cutOff batteryRatio : ℝ) : R Voltmeter := do
  let alpha := 1 / (2 * Real.pi * (period * cutOff) + 1)
  let sum ← sumLoop batteryRatio adc 100 0 0
  return { voltage := sum / 100, alpha, ratio := batteryRatio }

/-- `voltmeter.rs:64-67` `update_voltage`. -/
noncomputable def updateVoltage (self : Voltmeter) (reading : Option Nat) : R Voltmeter := do
  let v ← currentVoltage self.ratio reading
  return { self with voltage := self.alpha * self.voltage + (1 - self.alpha) * v }

end Verif.Voltmeter
