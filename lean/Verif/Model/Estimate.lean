import Verif.Model.Control
/-!
# Model of `mousecore2/src/estimate.rs`

Real numbers, SI units, trigonometric functions as a parameter.
-/
namespace Verif.Estimate
open Verif Verif.Control

/-- `estimate.rs:32-38` `SensorValue`. -/
structure Sensor where
  left : ℝ
  right : ℝ
  acc : ℝ
  omega : ℝ

/-- `estimate.rs:41-54` `Estimator`. -/
structure Estimator where
  period : ℝ
  alpha : ℝ
  slipConst : ℝ
  approxTh : ℝ
  slip : ℝ
  vel : ℝ

/-- The builder with its defaults (`estimate.rs:44-53`). -/
noncomputable def Estimator.new (period : ℝ) : Estimator :=
  { period, alpha := 0.76094276, slipConst := 100, approxTh := 0.1, slip := 0, vel := 0 }

/-- `estimate.rs:72-74` the new translational velocity. -/
noncomputable def Estimator.nextVel (self : Estimator) (s : Sensor) : ℝ :=
  let average := (s.left / self.period + s.right / self.period) / 2
  self.alpha * (self.vel + s.acc * self.period) + (1 - self.alpha) * average

open Classical in
/-- `estimate.rs:76-82` the new slip angle, for the new velocity `vel`. At `vel = 0` the code divides by zero: the constant
(not zero) over zero is an infinity, and a finite number over that is zero. -/
noncomputable def Estimator.nextSlip (self : Estimator) (vel omega : ℝ) : ℝ :=
  if vel = 0 then 0
  else (self.slip * (1 / self.period) + omega) / (1 / self.period + self.slipConst / |vel|)

open Classical in
/-- `estimate.rs:57-107` `estimate`. -/
noncomputable def Estimator.estimate (T : Trig) (self : Estimator) (state : State) (s : Sensor) : Estimator × State :=
  let vel := self.nextVel s
  let slip := self.nextSlip vel s.omega
  let dtheta := s.omega * self.period
  let dist :=
    (if |s.omega| < self.approxTh then vel * self.period else 2 * vel * T.sin (dtheta / 2) / s.omega) / T.cos slip
  let thetaM := state.theta.x - slip + dtheta / 2
  let sinTh := T.sin thetaM
  let cosTh := T.cos thetaM
  ({ self with vel, slip },
   { x := ⟨state.x.x + dist * cosTh, vel * cosTh, s.acc * cosTh⟩
     y := ⟨state.y.x + dist * sinTh, vel * sinTh, s.acc * sinTh⟩
     theta := ⟨state.theta.x + dtheta, s.omega, (s.omega - state.theta.v) / self.period⟩ })

end Verif.Estimate
