import Verif.Model.SingleSensors
import Verif.Model.Imu
import Verif.Model.Voltmeter
/-!
# Specification of the sensors in floating point arithmetic
-/
namespace Verif.Spec
open Verif

/-- A raw value of sixteen bits. -/
def Raw (r : Int) : Prop := -2 ^ 15 ≤ r ∧ r < 2 ^ 15

/-- The mean of a list of numbers. -/
noncomputable def mean (l : List ℝ) : ℝ := l.sum / l.length

/-- What the other pin should get, of its maximum duty `m`, for a voltage `v` and a battery of `b`: nothing less for no voltage, nothing for the full one. -/
noncomputable def idealDuty (m : Nat) (v b : ℝ) : ℝ := (1 - min 1 (|v| / b)) * m

/-- A voltmeter in floating point numbers whose voltage is a number from zero on, up to `e` that of one in real numbers, with the same ratio. -/
structure MeterShows (e : ℝ) (x : Single.Voltmeter) (y : Voltmeter.Voltmeter) : Prop where
  voltage : ∃ v : ℝ, x.voltage = .fin v ∧ 0 ≤ v ∧ |v - y.voltage| ≤ e
  ratio : x.ratio = .fin y.ratio

/-- `n` updates in real numbers, with the readings from number `k` on. -/
noncomputable def meterRun (adc : Nat → Option Nat) : Nat → Nat → Voltmeter.Voltmeter → R Voltmeter.Voltmeter
  | 0, _, m => .ok m
  | n + 1, k, m => do meterRun adc n (k + 1) (← Voltmeter.updateVoltage m (adc k))

/-- The same in floating point numbers. -/
noncomputable def singleMeterRun (A : Arith) (adc : Nat → Option Nat) : Nat → Nat → Single.Voltmeter → R Single.Voltmeter
  | 0, _, m => .ok m
  | n + 1, k, m => do singleMeterRun A adc n (k + 1) (← Single.Voltmeter.update A m (adc k))

end Verif.Spec
