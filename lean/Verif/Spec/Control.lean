import Verif.Model.Control
import Mathlib.Data.Complex.Basic
/-!
# Specification of the control loop
-/
namespace Verif.Spec
open Verif Verif.Control

/-! ## Controller -/

/-- A call to the controller. -/
inductive CtlCall where
  | control (r y : ControlTarget)
  | reset

/-- All the outputs of a sequence of calls. -/
noncomputable def ctlRun (c : Controller) : List CtlCall → Controller × List MotorOutput
  | [] => (c, [])
  | .reset :: l => ctlRun c.reset l
  | .control r y :: l =>
    let (c', o) := c.control r y
    let (c'', os) := ctlRun c' l
    (c'', o :: os)

open Classical in
/-- The (reference, measured) pairs given since the last reset. -/
noncomputable def sinceReset : List CtlCall → List (ControlTarget × ControlTarget)
  | [] => []
  | .reset :: l => sinceReset l
  | .control r y :: l => if CtlCall.reset ∈ l then sinceReset l else (r, y) :: sinceReset l

/-- A PID law with feed-forward for one degree of freedom; `past` are the previous errors. -/
noncomputable def pidVoltage (p : Params) (period r dr y dy : ℝ) (past : List ℝ) : ℝ :=
  (p.modelT1 * dr + r) / p.modelK + p.kp * (r - y) + p.kd * (dr - dy) + p.ki * (past.map (· * period)).sum

/-! ## Motion of a robot that can only move along its heading -/

/-- The target describes a motion along its own heading, with speed `v`, acceleration `a`, derivative of the acceleration
`j`, turn rate `w` and angular acceleration `w'`. -/
structure Feasible (t : Target) (v a j : ℝ) : Prop where
  vx : t.x.v = v * Real.cos t.theta.x
  vy : t.y.v = v * Real.sin t.theta.x
  ax : t.x.a = a * Real.cos t.theta.x - v * t.theta.v * Real.sin t.theta.x
  ay : t.y.a = a * Real.sin t.theta.x + v * t.theta.v * Real.cos t.theta.x
  jx : t.x.j = (j - v * t.theta.v ^ 2) * Real.cos t.theta.x - (2 * a * t.theta.v + v * t.theta.a) * Real.sin t.theta.x
  jy : t.y.j = (j - v * t.theta.v ^ 2) * Real.sin t.theta.x + (2 * a * t.theta.v + v * t.theta.a) * Real.cos t.theta.x

/-- The robot is exactly where the target is. -/
def OnTarget (s : State) (t : Target) : Prop :=
  s = ⟨⟨t.x.x, t.x.v, t.x.a⟩, ⟨t.y.x, t.y.v, t.y.a⟩, ⟨t.theta.x, t.theta.v, t.theta.a⟩⟩

/-! ## Supervisor -/

/-- Squared distance of two accelerations. -/
def sqDist (x y x' y' : ℝ) : ℝ := (x - x') ^ 2 + (y - y') ^ 2

/-- The barrier of a pillar: how far outside the circle of the avoidance distance the robot is, and its first two
derivatives under the acceleration `(ux, uy)`. The supervisor demands `h'' + 2 margin h' + margin² h ≥ 0`. -/
noncomputable def barrier (d : ℝ) (s : State) (p : ℝ × ℝ) : ℝ := (s.x.x - p.1) ^ 2 + (s.y.x - p.2) ^ 2 - d ^ 2

noncomputable def barrier' (s : State) (p : ℝ × ℝ) : ℝ := 2 * (s.x.x - p.1) * s.x.v + 2 * (s.y.x - p.2) * s.y.v

noncomputable def barrier'' (s : State) (p : ℝ × ℝ) (ux uy : ℝ) : ℝ :=
  2 * s.x.v ^ 2 + 2 * s.y.v ^ 2 + 2 * (s.x.x - p.1) * ux + 2 * (s.y.x - p.2) * uy

/-- The demand for one pillar. -/
noncomputable def demand (c : Supervisor) (s : State) (p : ℝ × ℝ) (ux uy : ℝ) : ℝ :=
  barrier'' s p ux uy + 2 * c.margin * barrier' s p + c.margin ^ 2 * barrier c.avoidance s p

/-- Pillar `(i, j)` of the maze. -/
noncomputable def pillar (c : Supervisor) (i j : Int) : ℝ × ℝ := (i * c.squareWidth, j * c.squareWidth)

end Verif.Spec
