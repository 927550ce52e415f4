import Verif.Spec.Sim
/-!
# Specification of the estimate of a simulated robot: largest speeds, jumps and errors
-/
namespace Verif.Spec
open Verif Verif.Control Verif.Sim Verif.Estimate

/-- A simulated robot which does not slide, drives at most at speed `V` and turns at most at rate `O`, and whose motors can bring it no
further: gain times voltage limit is at most that. -/
structure Roams (s : Simulator) (V O : ℝ) : Prop where
  limit : 0 ≤ s.maxVoltage
  period : 0 < s.period
  transT1 : 0 ≤ s.transT1
  rotT1 : 0 ≤ s.rotT1
  noSlide : NoSlide s.current
  speed : |forward s.current| ≤ V
  motor : |s.transK| * s.maxVoltage ≤ V
  turn : |s.current.theta.v| ≤ O
  turnMotor : |s.rotK| * s.maxVoltage ≤ O

/-- The speed of such a robot changes by at most this in a step. -/
noncomputable def speedJump (s : Simulator) (V : ℝ) : ℝ := 2 * V * (s.period / (s.transT1 + s.period))

/-- How far off the estimated speed may get with a filter of weight `α`: the wheels measure the mean of the speeds before and after the step, and the
accelerometer, in a turn, the speed before it less its share across the new heading. -/
noncomputable def speedOff (α : ℝ) (s : Simulator) (V O : ℝ) : ℝ := α / (1 - α) * (V * (O * s.period) ^ 2 / 2) + speedJump s V / 2

/-- How far the estimated and the true position may drift apart per unit of time, when the estimated speed is off by at most `E` and the share of
the estimated motion across the heading is at most `B`. -/
noncomputable def driftRate (s : Simulator) (V O E B : ℝ) : ℝ :=
  (V + E) * (B + (O * s.period) ^ 2 / 24) + E + speedJump s V / 2 + V * (O * s.period) ^ 2 / 8 + speedJump s V * (O * s.period) / 4

end Verif.Spec
