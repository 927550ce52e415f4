import Verif.Model.SingleRunTest
import Verif.Spec.SingleSim
import Verif.Spec.SingleRun
/-!
# Specification of the whole integration test of the fast run in floating point arithmetic
-/
namespace Verif.Spec
open Verif Verif.Single

/-- What the robot takes to be its state in a round. -/
noncomputable def supposed (A : Arith) (L : Platform) (m : Sprint) : State :=
  (m.robot.estimator.estimate A L.toLib m.robot.state (senses A L.toLib m.simulator)).2

/-- The input demanded for a target, before the supervisor. -/
noncomputable def wished (A : Arith) (L : Platform) (m : Sprint) (t : Target) : Input := m.robot.navigation.navigate A (supposed A L m) t

/-- The voltages for a target, given the supervised input. -/
noncomputable def voltages (A : Arith) (L : Platform) (m : Sprint) (t : Target) (i : Input) : MotorOutput :=
  (m.robot.controller.control A (m.robot.tracker.track A L.toLib (supposed A L m) t i).2.1 (m.robot.tracker.track A L.toLib (supposed A L m) t i).2.2).2

/-- A number of at most 4 V. -/
def Modest (v : F) : Prop := ∃ r : ℝ, v = .fin r ∧ |r| ≤ 4

/-- Why a round can fail: the supervisor panics, or a voltage is not a number of at most 4 V. -/
def Declined (A : Arith) (L : Platform) (g : Supervisor) (m : Sprint) (t : Target) (e : Panic) : Prop :=
  g.supervise A L (wished A L m t) (supposed A L m) = .error e ∨
  e = .assert ∧ ∃ i, g.supervise A L (wished A L m t) (supposed A L m) = .ok i ∧ ¬ (Modest (voltages A L m t i).left ∧ Modest (voltages A L m t i).right)

/-- A round that does not fail: both voltages are numbers of at most 4 V and go to the motors. -/
def Granted (A : Arith) (L : Platform) (g : Supervisor) (m : Sprint) (t : Target) (m' : Sprint) : Prop :=
  ∃ i, g.supervise A L (wished A L m t) (supposed A L m) = .ok i ∧ Modest (voltages A L m t i).left ∧ Modest (voltages A L m t i).right ∧
    m'.simulator = (m.simulator.apply (voltages A L m t i).left (voltages A L m t i).right).step A L.toLib ∧ m'.robot.state = supposed A L m

end Verif.Spec
