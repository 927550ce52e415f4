import Verif.Model.Sim
/-!
# Specification of the speed loop: controller and simulated motors
-/
namespace Verif.Spec
open Verif Verif.Control Verif.Sim

/-- What the controller is told. `m` is what is wrong with the measurement: the speeds are off by `m.v` and `m.omega`, the
accelerations are measured as `m.a` and `m.alpha`. -/
noncomputable def measured (T : Trig) (m : ControlTarget) (s : Simulator) : ControlTarget :=
  ⟨transVel T s.current + m.v, m.a, s.current.theta.v + m.omega, m.alpha⟩

/-- One round of the loop of `mousecore2/tests/search.rs:275-276, 333`: the controller compares the reference `r` with the
measured speeds, the voltages are applied and the simulator makes a step. -/
noncomputable def servo (T : Trig) (r m : ControlTarget) (p : Controller × Simulator) : Controller × Simulator :=
  let q := p.1.control r (measured T m p.2)
  (q.1, (p.2.apply q.2.left q.2.right).step T)

/-- The voltages the controller asks for in this round. -/
noncomputable def asked (T : Trig) (r m : ControlTarget) (p : Controller × Simulator) : MotorOutput :=
  (p.1.control r (measured T m p.2)).2

/-- The motors can get these voltages. -/
def Within (max : ℝ) (o : MotorOutput) : Prop := |o.left| ≤ max ∧ |o.right| ≤ max

/-- The state before round `n`, with the reference `r n` and the measurement error `m n` in round `n`. -/
noncomputable def servoRun (T : Trig) (r m : ℕ → ControlTarget) (p : Controller × Simulator) : ℕ → Controller × Simulator
  | 0 => p
  | n + 1 => servo T (r n) (m n) (servoRun T r m p n)

/-- A PI controller for a motor with gain `K` and time constant `T1`, sampled with the period `h`: the model in the controller
is the motor, there is no differential part and the gains are positive and small against the sampling. -/
structure Tuned (p : Params) (K T1 h : ℝ) : Prop where
  gain : p.modelK = K
  time : p.modelT1 = T1
  kd : p.kd = 0
  K_pos : 0 < K
  T1_pos : 0 < T1
  h_pos : 0 < h
  ki_pos : 0 < p.ki
  /-- The integral part does not outrun the proportional part. -/
  slow : K * p.ki * h < 1 + K * p.kp
  /-- The proportional part does not overshoot within one period. -/
  mild : 2 * K * p.kp * h < 4 * T1 + 2 * h + K * p.ki * h * h

/-- Controller and simulator belong together. -/
structure Fits (c : Controller) (s : Simulator) : Prop where
  period : c.period = s.period
  trans : Tuned c.trans s.transK s.transT1 s.period
  rot : Tuned c.rot s.rotK s.rotT1 s.period

/-- The same gains, motors and limits; speeds, sums and all else may differ. -/
structure Like (p q : Controller × Simulator) : Prop where
  trans : q.1.trans = p.1.trans
  rot : q.1.rot = p.1.rot
  ctlPeriod : q.1.period = p.1.period
  period : q.2.period = p.2.period
  transK : q.2.transK = p.2.transK
  transT1 : q.2.transT1 = p.2.transT1
  rotK : q.2.rotK = p.2.rotK
  rotT1 : q.2.rotT1 = p.2.rotT1
  maxVoltage : q.2.maxVoltage = p.2.maxVoltage

/-- How far the reference, value `r` and derivative `dr`, is from one a motor with time constant `T1` would follow when it gets
the feed-forward voltage only; `r'` is the value one period later. For a constant reference this is zero; for a constant
acceleration it is `dr * h * h / (T1 + h)`. -/
noncomputable def defect (T1 h r dr r' : ℝ) : ℝ := r' - r - h * T1 / (T1 + h) * dr

end Verif.Spec
