import Verif.Model.Basic
import Mathlib.Data.Real.Basic
/-!
# Model of the wheel encoder, `sensors2/src/encoder.rs`

`u16` values are naturals below `2 ^ 16`, `i16` values integers. Overflow of the negation is a panic, as in builds with
overflow checks (without them it wraps).
-/
namespace Verif.Encoder
open Verif

/-- `u16 as i16`. -/
def asI16 (n : Nat) : Int := if n < 2 ^ 15 then n else (n : Int) - 2 ^ 16

/-- `encoder.rs:25-28` `get_lower_bits`. -/
def lowerBits (val : Nat) : Nat := val &&& 0xFFFF

/-- Unary minus on `i16`. -/
def negI16 (v : Int) : R Int := if v = -2 ^ 15 then .error .overflow else .ok (-v)

/-- `encoder.rs:36-43` `angle` on the field `before_count`, up to the computation of `relative_count`; `count` is the value
of the counter peripheral. Returns the new `before_count` and `relative_count`. -/
def relative (before count : Nat) : R (Nat × Int) := do
  let after := lowerBits count
  let rel ← if before < after then pure (asI16 (after - before)) else negI16 (asI16 (before - after))
  return (after, rel)

/-- `encoder.rs:44-46` the angle in revolutions. -/
noncomputable def revolutions (rel : Int) : ℝ := rel / 1024

/-- `encoder.rs:36-47` `angle`. -/
noncomputable def angle (before count : Nat) : R (Nat × ℝ) := do
  let (after, rel) ← relative before count
  return (after, revolutions rel)

/-- `encoder.rs:18-23` `new`: the initial `before_count`. -/
def new : Nat := 0

end Verif.Encoder
