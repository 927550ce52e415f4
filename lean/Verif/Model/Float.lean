import Mathlib.Data.Real.Basic
import Mathlib.Analysis.SpecialFunctions.Exp
/-!
# Floating point vocabulary

`f32` values are extended reals with a separate `nan`. Every operation is the exact one followed by a rounding
function `rnd`, which may overflow to an infinity; IEEE rules for infinities and `nan` are explicit.
Simplification: zeros have no sign (`x / 0` has the sign of `x`).
-/
namespace Verif

/-- A floating point value. -/
inductive F where
  | nan | ninf | pinf
  | fin (r : ℝ)

namespace F

/-- `-x`. -/
noncomputable def neg : F → F
  | nan => nan | ninf => pinf | pinf => ninf | fin r => fin (-r)

/-- An infinity with the sign of `s`; `0 * ∞` is `nan`. -/
noncomputable def infOf (s : ℝ) : F := if 0 < s then pinf else if s < 0 then ninf else nan

/-- `x < y`, false for `nan`. -/
def lt : F → F → Prop
  | nan, _ | _, nan => False
  | ninf, ninf => False
  | ninf, _ => True
  | fin a, fin b => a < b
  | fin _, pinf => True
  | fin _, ninf => False
  | pinf, _ => False

/-- `x ≤ y`, false for `nan`. -/
def le : F → F → Prop
  | nan, _ | _, nan => False
  | ninf, _ => True
  | fin a, fin b => a ≤ b
  | fin _, pinf => True
  | fin _, ninf => False
  | pinf, pinf => True
  | pinf, _ => False

/-- `f32::is_nan`. -/
def isNan : F → Prop
  | nan => True
  | _ => False

/-- `f32::is_infinite`. -/
def isInfinite : F → Prop
  | ninf | pinf => True
  | _ => False

/-- `f32::abs`. -/
noncomputable def abs : F → F
  | nan => nan | ninf => pinf | pinf => pinf | fin r => fin |r|

end F

/-- The parts of the arithmetic that depend on the target: rounding of an exact result, and the `exp` function of the
math library. -/
structure Arith where
  rnd : ℝ → F
  exp : F → F

namespace Arith
open F
variable (A : Arith)

noncomputable def add : F → F → F
  | nan, _ | _, nan => nan
  | pinf, ninf | ninf, pinf => nan
  | pinf, _ | _, pinf => pinf
  | ninf, _ | _, ninf => ninf
  | fin a, fin b => A.rnd (a + b)

noncomputable def sub (x y : F) : F := A.add x y.neg

noncomputable def mul : F → F → F
  | nan, _ | _, nan => nan
  | pinf, pinf | ninf, ninf => pinf
  | pinf, ninf | ninf, pinf => ninf
  | pinf, fin a | fin a, pinf => infOf a
  | ninf, fin a | fin a, ninf => infOf (-a)
  | fin a, fin b => A.rnd (a * b)

open Classical in
noncomputable def div : F → F → F
  | nan, _ | _, nan => nan
  | pinf, pinf | ninf, ninf | pinf, ninf | ninf, pinf => nan
  | fin _, pinf | fin _, ninf => fin 0
  | pinf, fin b => if b < 0 then ninf else pinf
  | ninf, fin b => if b < 0 then pinf else ninf
  | fin a, fin b => if b = 0 then infOf a else A.rnd (a / b)

end Arith

/-- Arithmetic without rounding. -/
noncomputable def exact : Arith where
  rnd := .fin
  exp
    | .nan => .nan
    | .ninf => .fin 0
    | .pinf => .pinf
    | .fin r => .fin (Real.exp r)

end Verif
