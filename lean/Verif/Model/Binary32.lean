import Verif.Model.Float
import Mathlib.Data.Int.Log
import Mathlib.Algebra.Order.Round
/-!
# IEEE binary32, the arithmetic of `f32`

Rounding to nearest, ties to even, with subnormal numbers and overflow. This models the language primitive used throughout
`/repo`, not a file of it. The sign of zero is left out, as in `Verif.Model.Float`.
-/
namespace Verif.Binary32
open Verif

open Classical in
/-- The nearest integer, the even one of two. -/
noncomputable def roundEven (r : ℝ) : ℤ :=
  if Int.fract r < 1 / 2 then ⌊r⌋ else if 1 / 2 < Int.fract r then ⌊r⌋ + 1 else if Even ⌊r⌋ then ⌊r⌋ else ⌊r⌋ + 1

/-- The exponent of the last of 24 binary digits of `x`, or of the smallest positive number. -/
noncomputable def ulpExp (x : ℝ) : ℤ := max (Int.log 2 |x| - 23) (-149)

/-- Rounding to 24 binary digits (fewer for subnormal numbers). -/
noncomputable def round24 (x : ℝ) : ℝ := roundEven (x / 2 ^ ulpExp x) * 2 ^ ulpExp x

open Classical in
/-- The value of type `f32` for an exact result. -/
noncomputable def rnd (x : ℝ) : F :=
  if 2 ^ 128 ≤ round24 x then .pinf else if round24 x ≤ -2 ^ 128 then .ninf else .fin (round24 x)

/-- The arithmetic of `f32`, with the function `exp` of the library at hand. -/
noncomputable def arith (exp : F → F) : Arith := ⟨rnd, exp⟩

end Verif.Binary32
