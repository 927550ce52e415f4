import Verif.Model.Control
import Verif.Model.OldDetect
/-!
# The robot of the former core crate

`obsolete/mousecore/src/controllers.rs`, `estimator.rs`, `tracker.rs`, `robot.rs`, the state of the robot (`utils/robot_state.rs`,
`utils/random.rs`) and the settings it is made from (`defaults/config.rs`). Units are erased (SI). Floating point values as in the wall
detector: every operation is rounded by an arithmetic, infinities and values that are not numbers included; but headings, readings of the
gyro, targets and settings are finite numbers, headings are not rounded, and sines and cosines are exact ones, rounded. Not modelled:
`Debug`, serialization, and the setters of the builders.
-/
namespace Verif.Old.Robot
open Verif Verif.Old.Detect
open Verif.Control (Params normalizeAngle sinc)

/-- `sin`, `cos` of a value that may not be a finite number. -/
noncomputable def fn (A : Arith) (f : ℝ → ℝ) : F → F
  | .fin r => A.rnd (f r)
  | _ => .nan

/-! ## State -/

/-- `utils/robot_state.rs:14-19` `LengthState` with `utils/random.rs:5-8` `Random`. -/
structure Axis where
  mean : F
  dev : F
  v : F
  a : F

/-- `utils/robot_state.rs:21-26` `AngleState`. -/
structure Heading where
  x : ℝ
  v : F
  a : F

/-- `utils/robot_state.rs:7-12` `RobotState`. -/
structure RobotState where
  x : Axis
  y : Axis
  theta : Heading

/-- `utils/robot_state.rs:28-51` `From<Pose>`: at rest, without deviation. -/
noncomputable def RobotState.ofPose (p : Verif.Detect.Pose) : RobotState :=
  ⟨⟨.fin p.x, .fin 0, .fin 0, .fin 0⟩, ⟨.fin p.y, .fin 0, .fin 0, .fin 0⟩, ⟨p.theta, .fin 0, .fin 0⟩⟩

/-- `utils/robot_state.rs:7` the derived `Default`. -/
noncomputable def RobotState.default : RobotState := ofPose ⟨0, 0, 0⟩

/-! ## Controller -/

/-- `controllers.rs:18-33` `SisoController`. -/
structure Siso where
  errorSum : F
  params : Params
  period : ℝ

/-- `controllers.rs:62-75` `calculate`: the new controller and the voltage. -/
noncomputable def Siso.calculate (A : Arith) (self : Siso) (r dr y dy : F) : Siso × F :=
  let volF := A.div (A.add (A.mul dr (.fin self.params.modelT1)) r) (.fin self.params.modelK)
  let volP := A.mul (.fin self.params.kp) (A.sub r y)
  let volI := A.mul (.fin self.params.ki) self.errorSum
  let volD := A.mul (.fin self.params.kd) (A.sub dr dy)
  ({ self with errorSum := A.add self.errorSum (A.mul (A.sub r y) (.fin self.period)) },
    A.add (A.add (A.add volF volP) volI) volD)

/-- `tracker.rs:25-31` `ControlTarget`. -/
structure ControlTarget where
  v : F
  a : F
  omega : F
  alpha : F

/-- What is done to the motors (`controllers.rs:14-16`). -/
inductive Effect where
  | left (v : F)
  | right (v : F)

/-- `controllers.rs:91-97` `MultiSisoController`; the motors are represented by what is done to them. -/
structure Controller where
  trans : Siso
  rot : Siso
  threshold : ℝ

/-- `controllers.rs:100-161` `MultiSisoController::new`. -/
noncomputable def Controller.new (trans rot : Params) (period threshold : ℝ) : Controller :=
  ⟨⟨.fin 0, trans, period⟩, ⟨.fin 0, rot, period⟩, threshold⟩

/-- `controllers.rs:173-178` `FailSafeError`. -/
structure FailSafe where
  left : F
  right : F

/-- `controllers.rs:213-216` `stop`. -/
noncomputable def Controller.stop : List Effect := [.left (.fin 0), .right (.fin 0)]

open Classical in
/-- `controllers.rs:187-211` `control`: the new controller, what is done to the motors, and the result. -/
noncomputable def Controller.control (A : Arith) (self : Controller) (r y : ControlTarget) :
    Controller × List Effect × Except FailSafe Unit :=
  let t := self.trans.calculate A r.v r.a y.v y.a
  let s := self.rot.calculate A r.omega r.alpha y.omega y.alpha
  let left := A.sub t.2 s.2
  let right := A.add t.2 s.2
  let self := { self with trans := t.1, rot := s.1 }
  if (F.fin self.threshold).lt left.abs ∨ (F.fin self.threshold).lt right.abs then
    (self, [.left (.fin 0), .right (.fin 0)], .error ⟨left, right⟩)
  else (self, [.left (A.sub t.2 s.2), .right (A.add t.2 s.2)], .ok ())

/-! ## Tracker -/

/-- `tracker.rs:42-51` `Tracker`. -/
structure Tracker where
  gain : ℝ
  dgain : ℝ
  xi : F
  period : ℝ
  xiThreshold : ℝ
  controller : Controller
  zeta : ℝ
  b : ℝ

open Classical in
/-- `tracker.rs:116-194` the part of `track` that computes: the new `xi`, the reference and the measured value. `pi` is the constant `PI`, of which
`TAU` is the double; `normalize_angle` and `sinc` (`tracker.rs:201-219`) are the functions of the newer crate. -/
noncomputable def Tracker.reference (A : Arith) (pi : ℝ) (self : Tracker) (state : RobotState) (target : Control.Target) :
    F × ControlTarget × ControlTarget :=
  let sinTh := A.rnd (Real.sin state.theta.x)
  let cosTh := A.rnd (Real.cos state.theta.x)
  let vv := A.add (A.mul state.x.v cosTh) (A.mul state.y.v sinTh)
  let va := A.add (A.mul state.x.a cosTh) (A.mul state.y.a sinTh)
  let input (p v : ℝ) (q u : F) (ff : ℝ) : F :=
    A.add (A.add (.fin ff) (A.mul (.fin self.dgain) (A.sub (.fin v) u))) (A.mul (.fin self.gain) (A.sub (.fin p) q))
  let ux := input target.x.x target.x.v state.x.mean state.x.v target.x.a
  let uy := input target.y.x target.y.v state.y.mean state.y.v target.y.a
  let dux := input target.x.v target.x.a state.x.v state.x.a target.x.j
  let duy := input target.y.v target.y.a state.y.v state.y.a target.y.j
  let dxi := A.add (A.mul ux cosTh) (A.mul uy sinTh)
  let xi := A.add self.xi (A.mul (.fin self.period) dxi)
  let sinThR := A.rnd (Real.sin target.theta.x)
  let cosThR := A.rnd (Real.cos target.theta.x)
  let vr := A.add (A.mul (.fin target.x.v) cosThR) (A.mul (.fin target.y.v) sinThR)
  let r : ControlTarget :=
    if (F.fin self.xiThreshold).lt vr.abs ∧ (F.fin self.xiThreshold).lt xi.abs then
      let uw := A.div (A.sub (A.mul uy cosTh) (A.mul ux sinTh)) xi
      { v := xi
        a := dxi
        omega := uw
        alpha := (A.div (A.sub (A.add (A.mul (A.mul (.fin 2) dxi) uw) (A.mul dux sinTh)) (A.mul duy cosTh)) xi).neg }
    else
      let thetaD := normalizeAngle pi (target.theta.x - state.theta.x)
      let cosThD := A.rnd (Real.cos thetaD)
      let xd := A.sub (.fin target.x.x) state.x.mean
      let yd := A.sub (.fin target.y.x) state.y.mean
      let wr := F.fin target.theta.v
      let k1 := A.mul (A.mul (.fin 2) (.fin self.zeta)) (sqrtF A (A.add (A.mul wr wr) (A.mul (A.mul (.fin self.b) vr) vr)))
      let k2 := F.fin self.b
      let k3 := k1
      { v := A.add (A.mul vr cosThD) (A.mul k1 (A.add (A.mul xd cosTh) (A.mul yd sinTh)))
        a := A.add (A.mul (.fin target.x.a) cosThR) (A.mul (.fin target.y.a) sinThR)
        omega := A.add (A.add wr (A.mul (A.mul (A.mul k2 vr) (A.add (A.mul xd.neg sinTh) (A.mul yd cosTh))) (A.rnd (sinc thetaD))))
          (A.mul k3 (.fin thetaD))
        alpha := .fin target.theta.a }
  (xi, r, { v := vv, a := va, omega := state.theta.v, alpha := state.theta.a })

/-- `tracker.rs:116-194` `track`. -/
noncomputable def Tracker.track (A : Arith) (pi : ℝ) (self : Tracker) (state : RobotState) (target : Control.Target) :
    Tracker × List Effect × Except FailSafe Unit :=
  let (xi, r, y) := self.reference A pi state target
  let (controller, effects, result) := self.controller.control A r y
  ({ self with xi, controller }, effects, result)

/-! ## Estimator -/

/-- `estimator.rs:35-45` `EstimatorInner`. -/
structure Estimator where
  period : ℝ
  alpha : F
  vel : F
  state : RobotState
  slipConst : ℝ
  slip : F
  approxTh : ℝ
  devDelta : ℝ

open Classical in
/-- `estimator.rs:74-135` `EstimatorInner::estimate`. -/
noncomputable def Estimator.estimate (A : Arith) (self : Estimator) (left right acc : F) (omega : ℝ) : R Estimator :=
  if left.isNan ∨ right.isNan ∨ acc.isNan then .error .assert
  else
    let period := F.fin self.period
    let s := self.state
    let average := A.div (A.add (A.div left period) (A.div right period)) (.fin 2)
    let vel := A.add (A.mul self.alpha (A.add self.vel (A.mul acc period))) (A.mul (A.sub (.fin 1) self.alpha) average)
    let rev := A.div (.fin 1) period
    let slip := A.div (A.add (A.mul self.slip rev) (.fin omega)) (A.add rev (A.div (.fin self.slipConst) vel.abs))
    let dtheta := omega * self.period
    let dist :=
      if |omega| < self.approxTh then A.mul vel period
      else A.div (A.mul (A.mul (.fin 2) vel) (A.rnd (Real.sin (dtheta / 2)))) (.fin omega)
    let thetaM := A.add (A.sub (.fin s.theta.x) slip) (.fin (dtheta / 2))
    let sinTh := fn A Real.sin thetaM
    let cosTh := fn A Real.cos thetaM
    .ok { self with
      vel, slip
      state :=
        { x := ⟨A.add s.x.mean (A.mul dist cosTh), A.add s.x.dev (.fin self.devDelta), A.mul vel cosTh, A.mul acc cosTh⟩
          y := ⟨A.add s.y.mean (A.mul dist sinTh), A.add s.y.dev (.fin self.devDelta), A.mul vel sinTh, A.mul acc sinTh⟩
          theta := ⟨s.theta.x + dtheta, .fin omega, A.div (A.sub (.fin omega) s.theta.v) period⟩ } }

/-- How waiting for a sensor ends (`block!` repeats the question until the answer is not `WouldBlock`). -/
inductive Answer (α : Type) where
  | value (a : α)
  | fails
  | never

/-- `block!(..).unwrap()`. -/
def Answer.get {α : Type} : Answer α → R α
  | .value a => .ok a
  | .fails => .error .unwrapNone
  | .never => .error .diverge

/-- What the encoders and the inertial sensor answer during one call. -/
structure Sensors where
  left : Answer F
  right : Answer F
  acc : Answer F
  omega : Answer ℝ

/-- `estimator.rs:267-281` `estimate`. -/
noncomputable def Estimator.poll (A : Arith) (self : Estimator) (v : Sensors) : R Estimator := do
  let left ← v.left.get
  let right ← v.right.get
  let acc ← v.acc.get
  let omega ← v.omega.get
  self.estimate A left right acc omega

/-- `estimator.rs:304-314` `EstimatorBuilder`; of the sensors only whether they are there. -/
structure EstimatorBuilder where
  leftEncoder : Bool := false
  rightEncoder : Bool := false
  imu : Bool := false
  period : Option ℝ := none
  cutOff : Option ℝ := none
  initialState : Option RobotState := none
  slipConst : Option ℝ := none
  approxTh : Option ℝ := none
  devDelta : Option ℝ := none

/-- `utils/builder.rs:16-21` `ok_or`. -/
def okOr {α : Type} (value : Option α) (name : String) : Except String α :=
  match value with
  | some a => .ok a
  | none => .error name

/-- `ok_or` of a sensor. -/
def present (there : Bool) (name : String) : Except String Unit := if there then .ok () else .error name

/-- `estimator.rs:48-52` `DEFAULT_APPROXIMATION_THRESHOLD`. -/
noncomputable def DEFAULT_APPROX : ℝ := 0.1

/-- `estimator.rs:395-415` `build`; `pi` is the constant `PI`. -/
noncomputable def EstimatorBuilder.build (A : Arith) (pi : ℝ) (b : EstimatorBuilder) : Except String Estimator := do
  let period ← okOr b.period "period"
  let cutOff ← okOr b.cutOff "cut_off_frequency"
  let alpha := A.div (.fin 1) (A.add (A.mul (A.mul (.fin 2) (.fin pi)) (A.mul (.fin period) (.fin cutOff))) (.fin 1))
  let slipConst ← okOr b.slipConst "slip_angle_const"
  present b.leftEncoder "left_encoder"
  present b.rightEncoder "right_encoder"
  present b.imu "imu"
  return { period, alpha, vel := .fin 0, state := b.initialState.getD .default, slipConst, slip := .fin 0,
           approxTh := b.approxTh.getD DEFAULT_APPROX, devDelta := b.devDelta.getD 0 }

/-! ## Robot -/

/-- The fields of `Config` (`defaults/config.rs:35-75`) from which the robot is made. -/
structure Settings where
  period : ℝ
  trans : Params
  rot : Params
  failSafe : ℝ
  cutOff : ℝ
  slipConst : ℝ
  approxTh : ℝ
  devDelta : ℝ
  gain : ℝ
  dgain : ℝ
  lowerBound : ℝ
  lowZeta : ℝ
  lowB : ℝ

/-- `estimator.rs:206-225` `construct` with the configuration of `defaults/config.rs:178-184`: the calls of the setters, and the `expect`. -/
noncomputable def Estimator.construct (A : Arith) (pi : ℝ) (c : Settings) (state : RobotState) : R Estimator :=
  match { leftEncoder := true, rightEncoder := true, imu := true, initialState := some state, period := some c.period,
          cutOff := some c.cutOff, slipConst := some c.slipConst, approxTh := some c.approxTh : EstimatorBuilder }.build A pi with
  | .ok e => .ok e
  | .error _ => .error .unwrapNone

/-- `tracker.rs:77-90` `construct` and `tracker.rs:295-306` `build`, `controllers.rs:240-254` `construct`, with the configuration of
`defaults/config.rs:172-177` and `185-192`. -/
noncomputable def Tracker.construct (c : Settings) : Tracker where
  gain := c.gain
  dgain := c.dgain
  xi := .fin 0
  period := c.period
  xiThreshold := c.lowerBound
  controller := .new c.trans c.rot c.period c.failSafe
  zeta := c.lowZeta
  b := c.lowB

/-- `robot.rs:35-39` `Robot`. -/
structure Robot where
  estimator : Estimator
  tracker : Tracker
  detector : Detector

/-- `robot.rs:82-87` `construct`; the detector has no state but the memory of the walls (`wall_detector.rs:103-120`). -/
noncomputable def Robot.construct (A : Arith) (pi : ℝ) (c : Settings) (state : RobotState) (memory : Manager.Manager) : R Robot := do
  let estimator ← Estimator.construct A pi c state
  return ⟨estimator, Tracker.construct c, .new memory⟩

/-- `robot.rs:99-110` `deconstruct`, `estimator.rs:234-245`, `wall_detector.rs:129-140`: the state of the estimator and the memory are kept. -/
def Robot.deconstruct (self : Robot) : RobotState × Manager.Manager := (self.estimator.state, self.detector.memory)

/-- The part of the state the detector sees. -/
def RobotState.seen (s : RobotState) : Detect.State := ⟨s.x.mean, s.y.mean, s.x.dev, s.y.dev, s.theta.x⟩

/-- The state after the detector has changed its part; it does not change the heading. -/
def RobotState.withSeen (s : RobotState) (d : Detect.State) : RobotState :=
  { s with x := { s.x with mean := d.x, dev := d.sx }, y := { s.y with mean := d.y, dev := d.sy } }

/-- What comes from outside during one call of `track_and_update`. -/
structure Tick where
  sensors : Sensors
  target : Control.Target
  inputs : List Input

/-- `robot.rs:122-127` `track_and_update`: the new robot, what is done to the motors, and the result. -/
noncomputable def Robot.trackAndUpdate (A : Arith) (pi : ℝ) (conv : FPose → R (Except ConvError Info)) (W : Nat) (self : Robot) (t : Tick) :
    R (Robot × List Effect × Except FailSafe Unit) := do
  let estimator ← self.estimator.poll A t.sensors
  let (tracker, effects, result) := self.tracker.track A pi estimator.state t.target
  match result with
  | .error e => return (⟨estimator, tracker, self.detector⟩, effects, .error e)
  | .ok () => do
    let (detector, s) ← detectAndUpdate A conv W self.detector t.inputs estimator.state.seen
    return (⟨{ estimator with state := estimator.state.withSeen s }, tracker, detector⟩, effects, .ok ())

/-- `robot.rs:129-131` `stop`, `tracker.rs:196-198`. -/
noncomputable def Robot.stop (_ : Robot) : List Effect := Controller.stop

end Verif.Old.Robot
