import Verif.Model.Estimate
/-!
# Specification of the estimator
-/
namespace Verif.Spec
open Verif Verif.Control Verif.Estimate

/-- A sequence of estimates. -/
noncomputable def estRun (T : Trig) (e : Estimator) (s : State) : List Sensor → Estimator × State
  | [] => (e, s)
  | v :: l => let p := e.estimate T s v; estRun T p.1 p.2 l

/-- The velocities after each of the estimates. -/
noncomputable def estVels (T : Trig) (e : Estimator) (s : State) : List Sensor → List ℝ
  | [] => []
  | v :: l => let p := e.estimate T s v; p.1.vel :: estVels T p.1 p.2 l

/-- Mean speed of the two wheels. -/
noncomputable def wheelSpeed (period : ℝ) (s : Sensor) : ℝ := (s.left + s.right) / (2 * period)

end Verif.Spec
