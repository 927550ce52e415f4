import Verif.Model.OldRobot
import Verif.Spec.OldDetect
import Verif.Spec.Estimate
import Verif.Spec.Control
/-!
# Specification of the former robot

Sequences of calls, and what they amount to in real numbers.
-/
namespace Verif.Spec
open Verif Verif.Old.Robot Verif.Old.Detect
open Verif.Detect (Pose)

/-! ## Controller -/

/-- What one call comes to: what is done to the motors, and the result. -/
abbrev Deed := List Effect × Except FailSafe Unit

/-- Several calls of one controller, each with the reference and the measured values. -/
noncomputable def controls (A : Arith) : List (ControlTarget × ControlTarget) → Old.Robot.Controller → Old.Robot.Controller × List Deed
  | [], c => (c, [])
  | (r, y) :: rest, c =>
    let (c, deed) := c.control A r y
    let (c, deeds) := controls A rest c
    (c, deed :: deeds)

/-- The same values as floating point values. -/
def inF (t : Control.ControlTarget) : ControlTarget := ⟨.fin t.v, .fin t.a, .fin t.omega, .fin t.alpha⟩

/-- Voltages allowed with a threshold: the magnitude does not exceed it, or it is not a number. -/
def Allowed (threshold : ℝ) (v : F) : Prop := v.abs.le (.fin threshold) ∨ v.isNan

/-- The motors are given these voltages if they are allowed, and stopped with a report otherwise. -/
def Safely (threshold left right : ℝ) (deed : Deed) : Prop :=
  (|left| ≤ threshold ∧ |right| ≤ threshold → deed = ([.left (.fin left), .right (.fin right)], .ok ())) ∧
  (threshold < |left| ∨ threshold < |right| → deed = ([.left (.fin 0), .right (.fin 0)], .error ⟨.fin left, .fin right⟩))

/-! ## Estimator -/

/-- Sensors that answer with these numbers. -/
def sensed (v : Estimate.Sensor) : Sensors := ⟨.value (.fin v.left), .value (.fin v.right), .value (.fin v.acc), .value v.omega⟩

/-- Several calls of one estimator. -/
noncomputable def reckon (A : Arith) : List Sensors → Old.Robot.Estimator → R Old.Robot.Estimator
  | [], e => .ok e
  | v :: rest, e => do
    let e ← e.poll A v
    reckon A rest e

/-- The state of a robot with the given standard deviations. -/
noncomputable def robotAt (s : Control.State) (sx sy : ℝ) : RobotState :=
  ⟨⟨.fin s.x.x, .fin sx, .fin s.x.v, .fin s.x.a⟩, ⟨.fin s.y.x, .fin sy, .fin s.y.v, .fin s.y.a⟩,
    ⟨s.theta.x, .fin s.theta.v, .fin s.theta.a⟩⟩

/-- An estimator whose values are all numbers: speed `v`, slip angle `b`, state `s` with standard deviations `sx` and `sy`, weight `α` of the
acceleration. The settings are positive. -/
structure Knows (e : Old.Robot.Estimator) (α v b : ℝ) (s : Control.State) (sx sy : ℝ) : Prop where
  period : 0 < e.period
  slipConst : 0 < e.slipConst
  approx : 0 < e.approxTh
  alpha : e.alpha = .fin α
  vel : e.vel = .fin v
  slip : e.slip = .fin b
  state : e.state = robotAt s sx sy

/-! ## Robot -/

/-- Several calls of `track_and_update`. -/
noncomputable def follow (A : Arith) (pi : ℝ) (conv : FPose → R (Except ConvError Info)) (W : Nat) : List Tick → Robot → R (Robot × List Deed)
  | [], r => .ok (r, [])
  | t :: rest, r => do
    let (r, deed) ← r.trackAndUpdate A pi conv W t
    let (r, deeds) ← follow A pi conv W rest r
    return (r, deed :: deeds)

/-- A tracker alone, with the states given. -/
noncomputable def steer (A : Arith) (pi : ℝ) : List (RobotState × Control.Target) → Old.Robot.Tracker → Old.Robot.Tracker × List Deed
  | [], k => (k, [])
  | (s, t) :: rest, k =>
    let (k, deed) := k.track A pi s t
    let (k, deeds) := steer A pi rest k
    (k, deed :: deeds)

/-- What one operator after the other does with the robot: each makes a robot from the state and the memory left by the one before, uses it, and
takes it apart. -/
noncomputable def operators (A : Arith) (pi : ℝ) (conv : FPose → R (Except ConvError Info)) (W : Nat) :
    List (Settings × List Tick) → RobotState × Old.Manager.Manager → R ((RobotState × Old.Manager.Manager) × List Deed)
  | [], s => .ok (s, [])
  | (c, ts) :: rest, s => do
    let r ← Robot.construct A pi c s.1 s.2
    let (r, deeds) ← follow A pi conv W ts r
    let (s, more) ← operators A pi conv W rest r.deconstruct
    return (s, deeds ++ more)

/-- Sensible settings. -/
structure Settings.Fair (c : Settings) : Prop where
  period : 0 < c.period
  cutOff : 0 ≤ c.cutOff
  slipConst : 0 < c.slipConst
  approx : 0 < c.approxTh

/-- A call during which the sensors answer with numbers: the encoders and the inertial sensor, and the distance sensors. -/
structure Round where
  sensor : Estimate.Sensor
  target : Control.Target
  looks : List Look

/-- At most six distance sensors. -/
def Round.Fair (W : Nat) (r : Round) : Prop := r.looks.length ≤ 6 ∧ ∀ l ∈ r.looks, l.Fair W

noncomputable def Round.tick (W : Nat) (r : Round) : Tick :=
  ⟨sensed r.sensor, r.target, r.looks.map (Look.input W)⟩

/-- A call without its distance sensors. -/
noncomputable def Round.blind (r : Round) : Sensors × Control.Target := (sensed r.sensor, r.target)

/-- A robot without distance sensors and without memory: the estimator and the tracker alone. For each call, the estimate and what is done. -/
noncomputable def blindly (A : Arith) (pi : ℝ) : List (Sensors × Control.Target) → Old.Robot.Estimator → Old.Robot.Tracker →
    R (Old.Robot.Estimator × Old.Robot.Tracker × List (RobotState × Deed))
  | [], e, k => .ok (e, k, [])
  | (v, t) :: rest, e, k => do
    let e ← e.poll A v
    let (k', deed) := k.track A pi e.state t
    let (e', k', more) ← blindly A pi rest e k'
    return (e', k', (e.state, deed) :: more)

/-- One operator after the other, without distance sensors. -/
noncomputable def blindLife (A : Arith) (pi : ℝ) : List (Settings × List (Sensors × Control.Target)) → RobotState → R (RobotState × List Deed)
  | [], s => .ok (s, [])
  | (c, ts) :: rest, s => do
    let e ← Old.Robot.Estimator.construct A pi c s
    let (e, _, out) ← blindly A pi ts e (.construct c)
    let (s, more) ← blindLife A pi rest e.state
    return (s, out.map Prod.snd ++ more)

/-- The place and the heading of a state. -/
def stands (s : Control.State) : Pose := ⟨s.x.x, s.y.x, s.theta.x⟩

/-- From where the detector looks: from the estimated pose, with deviation zero, at each call that has not failed. -/
inductive Sightings : List Round → List (RobotState × Deed) → List (Pose × ℝ × ℝ × List Look) → Prop
  | nil : Sightings [] [] []
  | ok {r rs s eff out l} : Sightings rs out l → Sightings (r :: rs) ((robotAt s 0 0, eff, .ok ()) :: out) ((stands s, 0, 0, r.looks) :: l)
  | failed {r rs s eff e out l} : Sightings rs out l → Sightings (r :: rs) ((s, eff, .error e) :: out) l

end Verif.Spec
