import Verif.Spec.Single
import Verif.Spec.Estimate
import Verif.Spec.Control
/-!
# Specification of what rounding does to the estimate
-/
namespace Verif.Spec
open Verif Verif.Single

/-- A sequence of estimates in any arithmetic. -/
noncomputable def estRunF (A : Arith) (L : Lib) (e : Single.Estimator) (s : Single.State) : List Single.Sensor → Single.Estimator × Single.State
  | [] => (e, s)
  | v :: l => let p := e.estimate A L s v; estRunF A L p.1 p.2 l

/-- How far off the speed can be. -/
noncomputable def speedErr (α V W w : ℝ) : ℝ := (V + W + w) / (2 ^ 20 * (1 - α))

/-- How far off the slip angle can be. -/
noncomputable def slipErr (p C α V W w Ω : ℝ) : ℝ := ((1 / p + Ω) / C * speedErr α V W w + 1 / 2 ^ 17) * (1 + V / (C * p))

/-- How far off the heading can be after every estimate, more than before it, if no heading exceeds `H`. -/
noncomputable def headingErr (p Ω H : ℝ) : ℝ := (H + Ω * p + 1 / 2 ^ 100) / 2 ^ 23

end Verif.Spec
