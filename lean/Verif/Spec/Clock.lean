import Verif.Model.Clock
/-!
# Specification of clocks
-/
namespace Verif.Spec
open Verif

/-- A period added up `n` times, in the arithmetic `A`. -/
noncomputable def ticks (A : Arith) (p : F) : ℕ → F
  | 0 => .fin 0
  | n + 1 => A.add (ticks A p n) p

/-- How much `n` additions of a period may be late or early in single precision: a little more than half of `n * (n + 1)`
times the `2^24`-th part of the period. -/
noncomputable def lateness (p : ℝ) (n : ℕ) : ℝ := n * (n + 1) / 2 * (1 + n / 2 ^ 24) * p / 2 ^ 24

/-- A function of time, at a time of the clock. -/
def timed {α : Type} (f : ℝ → α) : F → α
  | .fin t => f t
  | _ => f 0

end Verif.Spec
