import Verif.Spec.Imu
/-!
# Specification of the initialisation of the inertial sensor
-/
namespace Verif.Spec
open Verif Verif.Imu

/-- A stretch of the log that is one access to a register, tried as often as necessary: nothing but chip select and this
transfer is done, and the last thing is a complete access, every operation of it successful, with an answer `P`. -/
def Done (bytes : List Nat) (P : List Nat → Prop) (m : Log) : Prop :=
  (∀ e ∈ m, isPin e.1 ∨ e.1 = .transfer bytes) ∧
  ∃ a x v y, m = a ++ [(.cs false, some x), (.transfer bytes, some v), (.cs true, some y)] ∧ P v

/-- Registers set one after the other, each after a wait of one millisecond. -/
def Configured : List (Nat × Nat) → Log → Prop
  | [], m => m = []
  | (r, v) :: l, m => ∃ d a b, m = (.delay 1, d) :: a ++ b ∧ Done [r, v] (fun _ => True) a ∧ Configured l b

/-- The operations of a calibration: reading the two measured values, chip select, and waiting for the timer. -/
def OnlyMeasures (m : Log) : Prop :=
  ∀ e ∈ m, isPin e.1 ∨ e.1 = .transfer [0xAF, 0, 0] ∨ e.1 = .transfer [0xB7, 0, 0] ∨ e.1 = .timer

end Verif.Spec
