import Verif.Model.Float
/-!
# What is assumed of floating point rounding

The laws hold of IEEE rounding to nearest (and of exact arithmetic), and of any `exp` that is 1 at 0 and not negative
from there on.
-/
namespace Verif.Spec
open Verif

structure Rounding (A : Arith) : Prop where
  /-- 0, 1/2 and 1 are representable -/
  zero : A.rnd 0 = .fin 0
  half : A.rnd (1 / 2) = .fin (1 / 2)
  one : A.rnd 1 = .fin 1
  /-- rounding does not depend on the sign -/
  odd : ∀ x, A.rnd (-x) = (A.rnd x).neg
  /-- rounding is monotone (and never `nan`) -/
  mono : ∀ x y, x ≤ y → (A.rnd x).le (A.rnd y)
  /-- rounded values are representable -/
  idem : ∀ x y, A.rnd x = .fin y → A.rnd y = .fin y
  exp_zero : A.exp (.fin 0) = .fin 1
  exp_nonneg : ∀ x, 0 ≤ x → A.exp (.fin x) = .pinf ∨ ∃ y, 0 ≤ y ∧ A.exp (.fin x) = .fin y
  exp_inf : A.exp .pinf = .pinf
  exp_nan : A.exp .nan = .nan

/-- A representable number between 0 and 1. -/
def IsProb (A : Arith) (v : F) : Prop := ∃ r, v = .fin r ∧ 0 ≤ r ∧ r ≤ 1 ∧ A.rnd r = .fin r

/-- The square of the normalised deviation `(expected - mean) / stddev` overflows. -/
def SquareOverflows (A : Arith) (expected : F) (mean stddev : ℝ) : Prop :=
  A.mul (A.div (A.sub expected (.fin mean)) (.fin stddev)) (A.div (A.sub expected (.fin mean)) (.fin stddev)) = .pinf

end Verif.Spec
