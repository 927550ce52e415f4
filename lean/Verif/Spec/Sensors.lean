import Verif.Model.Encoder
import Verif.Model.Motor
import Verif.Model.Voltmeter
/-!
# Specification of the simple sensors
-/
namespace Verif.Spec
open Verif

/-- A wheel at position `pos` (counts since the start) makes the counter peripheral show some value whose lower sixteen
bits are those of `pos`. -/
def Shows (count : Nat) (pos : Int) : Prop := (count : Int) % 2 ^ 16 = pos % 2 ^ 16

/-- Calling `angle` once per counter value: the final `before_count` and the reported relative counts. -/
def encoderRun : List Nat → Nat → R (Nat × List Int)
  | [], b => .ok (b, [])
  | c :: l, b => do
    let (b, r) ← Encoder.relative b c
    let (b, rs) ← encoderRun l b
    return (b, r :: rs)

/-- Calling `angle` once per counter value: the final `before_count` and the sum of the reported angles, in revolutions. -/
noncomputable def totalAngle : List Nat → Nat → R (Nat × ℝ)
  | [], b => .ok (b, 0)
  | c :: l, b => do
    let (b, r) ← Encoder.angle b c
    let (b, rs) ← totalAngle l b
    return (b, r + rs)

/-- Repeated `update_voltage`. -/
noncomputable def updates : List (Option Nat) → Voltmeter.Voltmeter → R Voltmeter.Voltmeter
  | [], v => .ok v
  | r :: l, v => do
    let v ← Voltmeter.updateVoltage v r
    updates l v

/-- The voltage meant by a reading of the converter. -/
noncomputable def readingVoltage (ratio : ℝ) (value : Nat) : ℝ := 3.3 * ratio * (value / 4096)

end Verif.Spec
