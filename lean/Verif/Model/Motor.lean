import Verif.Model.Basic
import Mathlib.Data.Real.Archimedean
/-!
# Model of the motor driver, `sensors2/src/motor.rs`

Real arithmetic.
-/
namespace Verif.Motor

/-- `f32 as u16`: towards zero, saturating. -/
noncomputable def toU16 (v : ℝ) : Nat := min 65535 ⌊v⌋₊

open Classical in
/-- `motor.rs:28-46` `apply` (lines of the file): the duties given to the two pins with maximum duties `max1`, `max2`. -/
noncomputable def apply (max1 max2 : Nat) (voltage battery : ℝ) : Nat × Nat :=
  if 0 < voltage then
    let ratio := voltage / battery
    let ratio := if 1 < ratio then 1 else ratio
    (toU16 ((1 - ratio) * max1), max2)
  else
    let ratio := -(voltage / battery)
    let ratio := if 1 < ratio then 1 else ratio
    (max1, toU16 ((1 - ratio) * max2))

end Verif.Motor
