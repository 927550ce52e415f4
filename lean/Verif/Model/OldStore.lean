import Verif.Model.OldLife
import Verif.Model.OldConfig
/-!
# How the operators of the former core crate hand on what they are made of

`obsolete/mousecore/src/defaults/resource.rs`, `defaults/state.rs`, `defaults/operator_store.rs`, the implementations of `Construct` and `Deconstruct` (`operators/tracking.rs`,
`agents/tracking.rs`, `robot.rs`, `estimator.rs`, `tracker.rs`, `controllers.rs`, `wall_detector.rs`, `mazes.rs`, `commanders/*.rs`), the builders of the parts, and the
administrator on top of it. Encoders, motors, the inertial sensor and the distance sensors are represented by values that are moved around and never looked into: what they
measure comes from outside, as in `Verif.Model.OldRobot`. A reference to a wall manager (`Rc`) is the number of its place in a store of managers. The trajectory managers are
made anew for every operator and leave nothing behind (`lib.rs:7-18`); they are represented by what they answer (`Life.Agent`) and by the targets they give.
-/
namespace Verif.Old.Store
open Verif Verif.Run Verif.Old Verif.Old.FastRun Verif.Old.Detect Verif.Old.Robot
open Verif.Detect (Pose)
open Verif.Convert (Converter Dir)

/-- The types of the peripherals. -/
structure Kit where
  LeftEncoder : Type
  RightEncoder : Type
  Imu : Type
  LeftMotor : Type
  RightMotor : Type
  DistanceSensor : Type

variable (K : Kit)

/-! ## Resources -/

/-- `estimator.rs:190-194` `EstimatorResource`. -/
structure EstimatorResource where
  leftEncoder : K.LeftEncoder
  rightEncoder : K.RightEncoder
  imu : K.Imu

/-- `controllers.rs:229-232` `MultiSisoControllerResource`. -/
structure ControllerResource where
  leftMotor : K.LeftMotor
  rightMotor : K.RightMotor

/-- `wall_detector.rs:92-95` `WallDetectorResource`. -/
structure DetectorResource where
  wallManager : Nat
  distanceSensors : List K.DistanceSensor

/-- `defaults/resource.rs:13-29` `Resource`. -/
structure Resource where
  leftEncoder : K.LeftEncoder
  rightEncoder : K.RightEncoder
  imu : K.Imu
  leftMotor : K.LeftMotor
  rightMotor : K.RightMotor
  distanceSensors : List K.DistanceSensor
  wallManager : Nat

/-- `defaults/resource.rs:247-263` `ResourceBuilder`, `defaults/resource.rs:265-287` its default. -/
structure ResourceBuilder where
  leftEncoder : Option K.LeftEncoder := none
  rightEncoder : Option K.RightEncoder := none
  imu : Option K.Imu := none
  leftMotor : Option K.LeftMotor := none
  rightMotor : Option K.RightMotor := none
  distanceSensors : Option (List K.DistanceSensor) := none
  wallManager : Option Nat := none

variable {K}

/-- `defaults/resource.rs:31-55` `From<EstimatorResource>`. -/
def ResourceBuilder.ofEstimator (r : EstimatorResource K) : ResourceBuilder K :=
  { leftEncoder := some r.leftEncoder, rightEncoder := some r.rightEncoder, imu := some r.imu }

/-- `defaults/resource.rs:57-62` `From<MultiSisoControllerResource>`. -/
def ResourceBuilder.ofController (r : ControllerResource K) : ResourceBuilder K :=
  { leftMotor := some r.leftMotor, rightMotor := some r.rightMotor }

/-- `defaults/resource.rs:64-69` `From<WallDetectorResource>`. -/
def ResourceBuilder.ofDetector (r : DetectorResource K) : ResourceBuilder K :=
  { wallManager := some r.wallManager, distanceSensors := some r.distanceSensors }

/-- `defaults/resource.rs:71-90` `From<Rc<WallManager>>`. -/
def ResourceBuilder.ofManager (m : Nat) : ResourceBuilder K := { wallManager := some m }

/-- `defaults/resource.rs:228-243` `merge`: the left value counts. -/
def ResourceBuilder.merge (self rhs : ResourceBuilder K) : ResourceBuilder K where
  leftEncoder := self.leftEncoder.or rhs.leftEncoder
  rightEncoder := self.rightEncoder.or rhs.rightEncoder
  imu := self.imu.or rhs.imu
  leftMotor := self.leftMotor.or rhs.leftMotor
  rightMotor := self.rightMotor.or rhs.rightMotor
  distanceSensors := self.distanceSensors.or rhs.distanceSensors
  wallManager := self.wallManager.or rhs.wallManager

/-- `defaults/resource.rs:321-343` `build`. -/
def ResourceBuilder.build (b : ResourceBuilder K) : Except String (Resource K) := do
  let leftEncoder ← okOr b.leftEncoder "left_encoder"
  let rightEncoder ← okOr b.rightEncoder "right_encoder"
  let leftMotor ← okOr b.leftMotor "left_motor"
  let rightMotor ← okOr b.rightMotor "right_motor"
  let imu ← okOr b.imu "imu"
  let distanceSensors ← okOr b.distanceSensors "distance_sensors"
  let wallManager ← okOr b.wallManager "wall_manager"
  return { leftEncoder, rightEncoder, imu, leftMotor, rightMotor, distanceSensors, wallManager }

variable (K) in
/-- `defaults/resource.rs:92-105` `ResourceContainer`. -/
structure Container where
  estimator : Option (EstimatorResource K)
  controller : Option (ControllerResource K)
  wallDetector : Option (DetectorResource K)
  wallManager : Nat

/-- `defaults/resource.rs:178-213` `From<Resource>`. -/
def Container.of (r : Resource K) : Container K where
  estimator := some ⟨r.leftEncoder, r.rightEncoder, r.imu⟩
  controller := some ⟨r.leftMotor, r.rightMotor⟩
  wallDetector := some ⟨r.wallManager, r.distanceSensors⟩
  wallManager := r.wallManager

/-! ## State -/

/-- `defaults/state.rs:71-74` `StateBuilder`. -/
structure StateBuilder where
  currentNode : Option Node := none
  robotState : Option RobotState := none

/-- `defaults/state.rs:122-138` `From<CommanderState>`. -/
def StateBuilder.ofCommander (n : Node) : StateBuilder := { currentNode := some n }

/-- `defaults/state.rs:140-147` `From<EstimatorState>`. -/
def StateBuilder.ofEstimator (s : RobotState) : StateBuilder := { robotState := some s }

/-- `defaults/state.rs:150-154` `merge`. -/
def StateBuilder.merge (self other : StateBuilder) : StateBuilder where
  currentNode := self.currentNode.or other.currentNode
  robotState := self.robotState.or other.robotState

/-- `defaults/state.rs:12-18` `State`. The conversions to the states of the commanders (`defaults/state.rs:29-43`) do not change the node. -/
structure State where
  currentNode : Node
  robotState : RobotState

/-- `defaults/state.rs:76-81` `StateBuilderError`. -/
inductive StateError where
  | fieldEmpty (name : String)
  | conversionFailed

/-- `defaults/state.rs:106-113` `build`. -/
def StateBuilder.build (b : StateBuilder) : Except StateError State :=
  match b.currentNode with
  | none => .error (.fieldEmpty "current_node")
  | some n =>
    match RunNode.ofNode n with
    | none => .error .conversionFailed
    | some n =>
      match b.robotState with
      | none => .error (.fieldEmpty "robot_state")
      | some s => .ok ⟨n, s⟩

/-! ## Parts and their builders -/

/-- The configurations of the parts of the robot (`defaults/config.rs:171-192` and `217-222`). -/
structure Settings extends Robot.Settings where
  squareWidth : ℝ
  wallWidth : ℝ
  ignoreRadius : ℝ
  ignoreLength : ℝ

/-- `defaults/config.rs:155-226` `From<Config>`: the part for the robot. -/
noncomputable def Settings.of (c : ∀ f : Config.Field, f.type) : Settings where
  period := c .period
  trans := c .translationalParameters
  rot := c .rotationalParameters
  failSafe := c .failSafeVoltageThreshold
  cutOff := c .estimatorCutOffFrequency
  slipConst := c .slipAngleConst
  approxTh := c .estimatorApproximationThreshold
  devDelta := c .estimatorStandardDeviationDelta
  gain := c .trackerGain
  dgain := c .trackerDgain
  lowerBound := c .validControlLowerBound
  lowZeta := c .lowZeta
  lowB := c .lowB
  squareWidth := c .squareWidth
  wallWidth := c .wallWidth
  ignoreRadius := c .ignoreRadiusFromPillar
  ignoreLength := c .ignoreLengthFromWall

/-- `tracker.rs:221-229` `TrackerBuilder`. -/
structure TrackerBuilder where
  gain : Option ℝ := none
  dgain : Option ℝ := none
  xiThreshold : Option ℝ := none
  controller : Option Controller := none
  period : Option ℝ := none
  zeta : Option ℝ := none
  b : Option ℝ := none

/-- `tracker.rs:295-306` `build`. -/
noncomputable def TrackerBuilder.build (b : TrackerBuilder) : Except String Tracker := do
  let gain ← okOr b.gain "gain"
  let dgain ← okOr b.dgain "dgain"
  let xiThreshold ← okOr b.xiThreshold "xi_threshold"
  let controller ← okOr b.controller "controller"
  let period ← okOr b.period "period"
  let zeta ← okOr b.zeta "zeta"
  let low ← okOr b.b "b"
  return { gain, dgain, xiThreshold, controller, period, zeta, b := low, xi := .fin 0 }

/-- `wall_detector.rs:546-551` `PoseConverterBuilder`. -/
structure ConverterBuilder where
  squareWidth : Option ℝ := none
  wallWidth : Option ℝ := none
  ignoreRadius : Option ℝ := none
  ignoreLength : Option ℝ := none

/-- `wall_detector.rs:573-584` `build`, with the constants of `wall_detector.rs:282-301`. -/
noncomputable def ConverterBuilder.build (b : ConverterBuilder) : Except String Converter :=
  .ok (.new (b.squareWidth.getD (9 / 100)) (b.wallWidth.getD (6 / 1000)) (b.ignoreRadius.getD (1 / 100)) (b.ignoreLength.getD (8 / 1000)))

/-- `expect("Should never panic")`. -/
def expect {ε α : Type} : Except ε α → R α
  | .ok a => .ok a
  | .error _ => .error .unwrapNone

variable (K) in
/-- `estimator.rs:141-146` `Estimator`. -/
structure EstimatorPart where
  inner : Estimator
  leftEncoder : K.LeftEncoder
  rightEncoder : K.RightEncoder
  imu : K.Imu

variable (K) in
/-- `tracker.rs:42-51` `Tracker` with the motors of its controller, `controllers.rs:91-97`. -/
structure TrackerPart where
  inner : Tracker
  leftMotor : K.LeftMotor
  rightMotor : K.RightMotor

variable (K) in
/-- `wall_detector.rs:51-57` `WallDetector`. -/
structure DetectorPart where
  manager : Nat
  distanceSensors : List K.DistanceSensor
  past : Nat → Option FPose
  converter : Converter

variable (K) in
/-- `robot.rs:35-39` `Robot`. -/
structure RobotPart where
  estimator : EstimatorPart K
  tracker : TrackerPart K
  detector : DetectorPart K

/-- `estimator.rs:206-225` `construct`: the resource is taken out. -/
noncomputable def EstimatorPart.construct (A : Arith) (pi : ℝ) (c : Settings) (s : State) (r : Container K) : R (EstimatorPart K × Container K) :=
  match r.estimator with
  | none => .error .unreachable
  | some e => do
    let b : EstimatorBuilder :=
      { leftEncoder := true, rightEncoder := true, imu := true, initialState := some s.robotState, period := some c.period, cutOff := some c.cutOff,
        slipConst := some c.slipConst, approxTh := some c.approxTh }
    let inner ← expect (b.build A pi)
    return (⟨inner, e.leftEncoder, e.rightEncoder, e.imu⟩, { r with estimator := none })

/-- `tracker.rs:77-90` `construct` with `controllers.rs:240-254`. -/
noncomputable def TrackerPart.construct (c : Settings) (r : Container K) : R (TrackerPart K × Container K) :=
  match r.controller with
  | none => .error .unwrapNone
  | some m => do
    let b : TrackerBuilder :=
      { controller := some (.new c.trans c.rot c.period c.failSafe), gain := some c.gain, dgain := some c.dgain, period := some c.period,
        xiThreshold := some c.lowerBound, zeta := some c.lowZeta, b := some c.lowB }
    let inner ← expect b.build
    return (⟨inner, m.leftMotor, m.rightMotor⟩, { r with controller := none })

/-- `wall_detector.rs:103-120` `construct`. -/
noncomputable def DetectorPart.construct (c : Settings) (r : Container K) : R (DetectorPart K × Container K) :=
  match r.wallDetector with
  | none => .error .unreachable
  | some d => do
    let b : ConverterBuilder :=
      { squareWidth := some c.squareWidth, wallWidth := some c.wallWidth, ignoreRadius := some c.ignoreRadius, ignoreLength := some c.ignoreLength }
    let converter ← expect b.build
    return (⟨d.wallManager, d.distanceSensors, fun _ => none, converter⟩, { r with wallDetector := none })

/-- `robot.rs:82-87` `construct`. -/
noncomputable def RobotPart.construct (A : Arith) (pi : ℝ) (c : Settings) (s : State) (r : Container K) : R (RobotPart K × Container K) := do
  let (estimator, r) ← EstimatorPart.construct A pi c s r
  let (tracker, r) ← TrackerPart.construct c r
  let (detector, r) ← DetectorPart.construct c r
  return (⟨estimator, tracker, detector⟩, r)

/-- `robot.rs:99-110` `deconstruct`, with those of the estimator (`estimator.rs:234-245`), of the tracker (`tracker.rs:98-101`, `controllers.rs:263-273`) and of the detector
(`wall_detector.rs:129-139`). -/
def RobotPart.deconstruct (self : RobotPart K) : StateBuilder × ResourceBuilder K :=
  let e := self.estimator
  ((StateBuilder.ofEstimator e.inner.state).merge {} |>.merge {},
    (ResourceBuilder.ofEstimator ⟨e.leftEncoder, e.rightEncoder, e.imu⟩).merge (.ofController ⟨self.tracker.leftMotor, self.tracker.rightMotor⟩)
      |>.merge (.ofDetector ⟨self.detector.manager, self.detector.distanceSensors⟩))

variable (K) in
/-- `defaults/operator.rs:22-52` `Operators` with `operators/tracking.rs:41-44` and `agents/tracking.rs:22-25`: the commander, the manager that its maze refers to, and the robot. -/
structure Operator where
  commander : Life.Operator
  maze : Nat
  robot : RobotPart K

/-- `operators/tracking.rs:87-96` `deconstruct`, with those of the commanders (`commanders/search.rs:159-169`, `commanders/run.rs:106-116`, `commanders/setup.rs:71-81`), of their mazes
(`mazes.rs:144-147`) and of the agents (`agents/tracking.rs:61-69`); solvers and trajectory managers leave nothing. -/
def Operator.deconstruct (self : Operator K) : StateBuilder × ResourceBuilder K :=
  let commander : StateBuilder × ResourceBuilder K :=
    (({} : StateBuilder).merge {} |>.merge (.ofCommander self.commander.current), (ResourceBuilder.ofManager self.maze).merge {})
  let robot := self.robot.deconstruct
  let agent : StateBuilder × ResourceBuilder K := (({} : StateBuilder).merge robot.1, ({} : ResourceBuilder K).merge robot.2)
  (commander.1.merge agent.1, commander.2.merge agent.2)

variable (C : Life.Config) (A : Arith) (pi : ℝ) (c : Settings)

/-- The commander of a mode at a node: `commanders/search.rs:132-146`, `commanders/setup.rs:107-118`, `144-155`, `commanders/run.rs:83-94`, `210-221`. `b` is what the maze of the new
commander says. -/
def commander (b : Belief) (node : Node) : Life.Mode → R (Option Life.Operator)
  | .search _ => return some (.search (.new node))
  | .returnSetup _ => do return some (.returnSetup (← SetupCommander.new (C.solveReturn b) node))
  | .ret _ => do return some (.ret (← RunCommander.new (C.solveReturn b) node))
  | .runSetup _ => do return some (.runSetup (← SetupCommander.new (C.solveGoal b) node))
  | .run _ => do return some (.run (← RunCommander.new (C.solveGoal b) node))
  | .idle => return none

/-- `defaults/operator_store.rs:121-146`, `operators/tracking.rs:73-77` and `51-57`: commander, agent, first command. The maze refers to the manager of the container (`mazes.rs:131-135`).
`believe` is what a maze says that refers to a manager. -/
noncomputable def construct (believe : Nat → Belief) (a : Life.Agent) (s : State) (r : Container K) (mode : Life.Mode) : R (Option (Life.Command × Operator K)) := do
  match ← commander C (believe r.wallManager) s.currentNode mode with
  | none => return none
  | some com => do
    let maze := r.wallManager
    let (robot, _) ← RobotPart.construct A pi c s r
    let (command, com) ← Life.Operator.new C (believe maze) a com
    return some (command, ⟨com, maze, robot⟩)

/-- `defaults/operator_store.rs:93-147` `exchange`; `none` is `UnsupportedMode`, the old operator is lost. -/
noncomputable def exchange (believe : Nat → Belief) (a : Life.Agent) (op : Operator K) (mode : Life.Mode) : R (Option (Life.Command × Operator K)) := do
  let (state, resource) := op.deconstruct
  let state ← expect state.build
  let resource ← expect resource.build
  construct C A pi c believe a state (.of resource) mode

/-! ## The whole machine -/

/-- `robot.rs:122-127` `track_and_update`, with the managers in their store. -/
noncomputable def RobotPart.trackAndUpdate (W : Nat) (sort : List (Dir × F) → List (Dir × F)) (store : Nat → Manager.Manager) (self : RobotPart K) (t : Tick) :
    R (RobotPart K × (Nat → Manager.Manager) × List Effect × Except FailSafe Unit) := do
  let (r, effects, result) ← Robot.trackAndUpdate A pi (convertF self.detector.converter W sort) W
    ⟨self.estimator.inner, self.tracker.inner, ⟨self.detector.past, store self.detector.manager⟩⟩ t
  return (⟨{ self.estimator with inner := r.estimator }, { self.tracker with inner := r.tracker }, { self.detector with past := r.detector.past }⟩,
    fun p => if p = self.detector.manager then r.detector.memory else store p, effects, result)

variable (K) in
/-- `administrator.rs:66-73` `Administrator`, with the store of managers. -/
structure Machine where
  operator : Option (Operator K)
  mode : Life.Mode
  select : Bool
  interrupts : Bool
  store : Nat → Manager.Manager

/-- What happens around a call of `run`: what the agents answer, the mutexes held elsewhere, and the mode that is selected. -/
structure Moment where
  locked : Nat → Bool
  agent : Life.Agent
  newAgent : Life.Agent
  selected : Life.Mode

/-- `administrator.rs:136-148` `exchange_operator`: the motors are stopped first. -/
noncomputable def Machine.exchangeOperator (e : Moment) (s : Machine K) (mode : Life.Mode) : R (Bool × List Life.Command × List Effect × Machine K) :=
  match s.operator with
  | none => .error .unwrapNone
  | some op => do
    match ← exchange C A pi c (fun p => Manager.belief A C.search.W e.locked (s.store p)) e.newAgent op mode with
    | none => return (false, [], Controller.stop, { s with operator := none })
    | some (command, op) => return (true, [command], Controller.stop, { s with operator := some op })

/-- `administrator.rs:112-134` `run`, `administrator.rs:150-169` `mode_select`. -/
noncomputable def Machine.run (e : Moment) (s : Machine K) : R (Life.Result × List Life.Command × List Effect × Machine K) :=
  if s.select then do
    let (ok, cs, es, s) ← Machine.exchangeOperator C A pi c e { s with interrupts := false, mode := e.selected } e.selected
    return if ok then (.ok, cs, es, { s with select := false, interrupts := true }) else (.unsupported, cs, es, s)
  else
    match s.operator with
    | none => .error .unreachable
    | some op => do
      match ← op.commander.step C (Manager.belief A C.search.W e.locked (s.store op.maze)) e.agent with
      | (.incompleted, cs, com) => return (.ok, cs, [], { s with operator := some { op with commander := com } })
      | (.failed, cs, com) => return (.operatorError, cs, [], { s with operator := some { op with commander := com } })
      | (.done, cs, com) =>
        let mode := s.mode.successor
        let (ok, cs', es, s) ← Machine.exchangeOperator C A pi c e { s with operator := some { op with commander := com }, interrupts := false, mode := mode } mode
        return if ok then (.ok, cs ++ cs', es, { s with interrupts := true }) else (.unsupported, cs ++ cs', es, s)

/-- `administrator.rs:179-189` `tick`, `operators/tracking.rs:112-114`, `agents/tracking.rs:87-93`: `t` has the target that the trajectory manager gives. -/
noncomputable def Machine.tick (sort : List (Dir × F) → List (Dir × F)) (t : Tick) (enabled : Bool) (s : Machine K) : R (Bool × List Effect × Machine K) :=
  if s.select then .ok (true, [], s)
  else
    match s.operator with
    | none => .ok (true, [], { s with select := enabled })
    | some op => do
      let (robot, store, effects, result) ← op.robot.trackAndUpdate A pi C.search.W sort s.store t
      let s := { s with operator := some { op with robot }, store }
      match result with
      | .error _ => return (false, effects, s)
      | .ok () => return (true, effects, { s with select := enabled })

end Verif.Old.Store
