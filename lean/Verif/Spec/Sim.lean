import Verif.Model.Sim
import Verif.Model.Estimate
import Verif.Spec.Detect
/-!
# Specification of the simulator
-/
namespace Verif.Spec
open Verif Verif.Control Verif.Search Verif.Detect Verif.Sim Verif.Estimate

/-- Calls of the simulator that change it. -/
inductive SimCall where
  | apply (left right : ℝ)
  | step

noncomputable def simRun (T : Trig) (s : Simulator) : List SimCall → Simulator
  | [] => s
  | .apply l r :: cs => simRun T (s.apply l r) cs
  | .step :: cs => simRun T (s.step T) cs

/-- Forward speed: component of the velocity along the heading. -/
noncomputable def forward (s : State) : ℝ := s.x.v * Real.cos s.theta.x + s.y.v * Real.sin s.theta.x

/-- The robot of the simulator does not slide: the velocity points along the heading. -/
def NoSlide (s : State) : Prop := s.x.v * Real.sin s.theta.x = s.y.v * Real.cos s.theta.x

/-- What the sensors of the simulated robot measure. -/
noncomputable def sensors (T : Trig) (s : Simulator) : Sensor :=
  ⟨(s.distance T).1, (s.distance T).2, s.transAcc T, s.angularVelocity⟩

/-- The robot in the loop: before each step voltages are applied, after it the estimator reads the sensors. -/
noncomputable def simEst (T : Trig) (s : Simulator) (e : Estimator) (st : State) : List (ℝ × ℝ) → Simulator × Estimator × State
  | [] => (s, e, st)
  | v :: l =>
    let s := (s.apply v.1 v.2).step T
    let p := e.estimate T st (sensors T s)
    simEst T s p.1 p.2 l

/-- The wall sensor in the loop: at each pose the simulated reading, if there is one, is given to the detector. The returned
values in order. -/
noncomputable def simDetect (convert : Pose → Option WallInfo) (W : Nat) (s : Simulator) :
    List Pose → Detector → R (Detector × List (Option (Coord × WallState)))
  | [], d => .ok (d, [])
  | p :: l, d => do
    match ← s.distanceFromWall convert W p with
    | none => simDetect convert W s l d
    | some (mean, stddev) => do
      let (d, r) ← detectAndUpdate exact convert W d mean stddev p
      let (d, rs) ← simDetect convert W s l d
      return (d, r :: rs)

/-- All beliefs are on the side of the truth. -/
def Leaning (W : Nat) (w : Walls.Walls) (d : Detector) : Prop :=
  ∀ c, Valid W c → ∃ p, d (c.asIndex W) = .fin p ∧ 0 ≤ p ∧ p ≤ 1 ∧
    (Walls.wallState W w c = .ok (.checked true) → 1 / 2 ≤ p) ∧ (Walls.wallState W w c ≠ .ok (.checked true) → p ≤ 1 / 2)

end Verif.Spec
