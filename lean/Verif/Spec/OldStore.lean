import Verif.Model.OldStore
import Verif.Spec.OldLife
import Verif.Spec.OldRobot
import Verif.Spec.OldConfig
/-!
# Specification of the former machine: what its operators hand on, and its life
-/
namespace Verif.Spec
open Verif Verif.Old Verif.Old.Store Verif.Old.Robot Verif.Old.Detect Verif.Old.Life
open Verif.Detect (Pose)
open Verif.Convert (Converter Dir)

variable {K : Kit}

/-- An operator has exactly these peripherals, and both its maze and its detector use the memory that belongs to them. -/
structure Owns (op : Old.Store.Operator K) (r : Resource K) : Prop where
  leftEncoder : op.robot.estimator.leftEncoder = r.leftEncoder
  rightEncoder : op.robot.estimator.rightEncoder = r.rightEncoder
  imu : op.robot.estimator.imu = r.imu
  leftMotor : op.robot.tracker.leftMotor = r.leftMotor
  rightMotor : op.robot.tracker.rightMotor = r.rightMotor
  distanceSensors : op.robot.detector.distanceSensors = r.distanceSensors
  maze : op.maze = r.wallManager
  manager : op.robot.detector.manager = r.wallManager

/-- A robot that has just been made: it has the settings and the state given, and otherwise knows nothing of what happened before. -/
structure Afresh (A : Arith) (pi : ℝ) (c : Old.Store.Settings) (s : RobotState) (r : RobotPart K) : Prop where
  state : r.estimator.inner.state = s
  speed : r.estimator.inner.vel = .fin 0
  slip : r.estimator.inner.slip = .fin 0
  estimatorPeriod : r.estimator.inner.period = c.period
  slipConst : r.estimator.inner.slipConst = c.slipConst
  approx : r.estimator.inner.approxTh = c.approxTh
  deviation : r.estimator.inner.devDelta = 0
  weight : r.estimator.inner.alpha = A.div (.fin 1) (A.add (A.mul (A.mul (.fin 2) (.fin pi)) (A.mul (.fin c.period) (.fin c.cutOff))) (.fin 1))
  xi : r.tracker.inner.xi = .fin 0
  gains : r.tracker.inner.gain = c.gain ∧ r.tracker.inner.dgain = c.dgain ∧ r.tracker.inner.zeta = c.lowZeta ∧ r.tracker.inner.b = c.lowB
  trackerPeriod : r.tracker.inner.period = c.period
  bound : r.tracker.inner.xiThreshold = c.lowerBound
  controller : r.tracker.inner.controller = ⟨⟨.fin 0, c.trans, c.period⟩, ⟨.fin 0, c.rot, c.period⟩, c.failSafe⟩
  past : ∀ i, r.detector.past i = none
  converter : r.detector.converter = .new c.squareWidth c.wallWidth c.ignoreRadius c.ignoreLength

/-- The value that counts for a field after calls of the builder, or its default. -/
noncomputable def settled (h : List BuilderCall) (f : Old.Config.Field) : Option f.type := (counts h f).or (defaultOf f)

/-- A robot that is configured as it was said to the builder. Of the fields for the robot only the standard deviation is not found in it, see `C112_configured`. -/
structure Appointed (A : Arith) (pi : ℝ) (h : List BuilderCall) (r : RobotPart K) : Prop where
  period : settled h .period = some r.estimator.inner.period ∧ settled h .period = some r.tracker.inner.period ∧
    settled h .period = some r.tracker.inner.controller.trans.period ∧ settled h .period = some r.tracker.inner.controller.rot.period
  trans : settled h .translationalParameters = some r.tracker.inner.controller.trans.params
  rot : settled h .rotationalParameters = some r.tracker.inner.controller.rot.params
  failSafe : settled h .failSafeVoltageThreshold = some r.tracker.inner.controller.threshold
  slipConst : settled h .slipAngleConst = some r.estimator.inner.slipConst
  approx : settled h .estimatorApproximationThreshold = some r.estimator.inner.approxTh
  cutOff : ∃ f : ℝ, settled h .estimatorCutOffFrequency = some f ∧
    r.estimator.inner.alpha = A.div (.fin 1) (A.add (A.mul (A.mul (.fin 2) (.fin pi)) (A.mul (.fin r.estimator.inner.period) (.fin f))) (.fin 1))
  gain : settled h .trackerGain = some r.tracker.inner.gain
  dgain : settled h .trackerDgain = some r.tracker.inner.dgain
  bound : settled h .validControlLowerBound = some r.tracker.inner.xiThreshold
  zeta : settled h .lowZeta = some r.tracker.inner.zeta
  b : settled h .lowB = some r.tracker.inner.b
  widths : ∃ w v p l : ℝ, settled h .squareWidth = some w ∧ settled h .wallWidth = some v ∧ settled h .ignoreRadiusFromPillar = some p ∧
    settled h .ignoreLengthFromWall = some l ∧ r.detector.converter = .new w v p l

/-- The machine without its robot. -/
def robotless (s : Machine K) : Admin := ⟨s.operator.map fun op => op.commander, s.mode, s.select, s.interrupts⟩

/-- What the maze of the operator says at a moment. -/
noncomputable def mazeSays (C : Life.Config) (A : Arith) (e : Old.Store.Moment) (s : Machine K) : Belief :=
  match s.operator with
  | none => ⟨fun _ => false, fun _ => false, fun _ => false⟩
  | some op => Manager.belief A C.search.W e.locked (s.store op.maze)

/-- The same moment, for the machine without its robot. -/
noncomputable def momentOf (C : Life.Config) (A : Arith) (e : Old.Store.Moment) (s : Machine K) : Life.Moment :=
  ⟨mazeSays C A e s, e.agent, e.newAgent, e.selected⟩

/-- A machine at work: an operator is made from peripherals, and then the administrator is run and interrupted in any order. -/
inductive Works (C : Life.Config) (A : Arith) (pi : ℝ) (c : Old.Store.Settings) (sort : List (Dir × F) → List (Dir × F)) (r : Resource K) (memory : Nat → Manager.Manager) :
    Machine K → Prop
  | start (believe : Nat → Belief) (a : Agent) (s : Old.Store.State) (mode : Mode) (cmd : Command) (op : Old.Store.Operator K) (on : Bool) :
      construct C A pi c believe a s (.of r) mode = .ok (some (cmd, op)) → Works C A pi c sort r memory ⟨some op, mode, false, on, memory⟩
  | run (e : Old.Store.Moment) (s s' : Machine K) (res : Life.Result) (cs : List Command) (es : List Effect) : Works C A pi c sort r memory s →
      s.run C A pi c e = .ok (res, cs, es, s') → Works C A pi c sort r memory s'
  | tick (t : Tick) (enabled ok : Bool) (s s' : Machine K) (es : List Effect) : Works C A pi c sort r memory s →
      s.tick C A pi sort t enabled = .ok (ok, es, s') → Works C A pi c sort r memory s'

/-- What the distance sensors measure during an interrupt is true of the maze, seen from where the robot then takes itself to be. -/
def Honest (real : Old.Wall → Bool) (see : Pose → Option Seen) (W : Nat) (op : Old.Store.Operator K) (memory : Nat → Manager.Manager) (q : Round) : Prop :=
  ∀ e p sx sy g, op.robot.estimator.inner.poll exact (sensed q.sensor) = .ok e → e.state.seen = stateAt p sx sy →
    Remembers W ⟨op.robot.detector.past, memory op.robot.detector.manager⟩ g → AllTruthful real see p 0 q.looks (g.begin sx sy)

/-- What is assumed of the machine: the start is in the corner, a good threshold, a regular maze, a converter that returns what is seen, and sensible settings. -/
structure Equipped (C : Life.Config) (pi : ℝ) (c : Old.Store.Settings) (sort : List (Dir × F) → List (Dir × F)) (t : F) (real : Old.Wall → Bool) (see : Pose → Option Seen) : Prop where
  corner : C.search.start = ⟨0, 0, .north⟩
  threshold : GoodThreshold exact t
  regular : Regular C.search.W real
  sees : Sees C.search.W (convertF (.new c.squareWidth c.wallWidth c.ignoreRadius c.ignoreLength) C.search.W sort) see
  pi : 0 < pi
  settings : Settings.Fair c.toSettings

/-- The life of a machine from a search with `count` fast runs, on a new memory: calls of `run` and interrupts in any order, while the sensors answer with numbers, the distance sensors measure
truthfully, no mode is selected by hand, and the agents accept the commands. `cs` are all commands given. -/
inductive MachineLives (C : Life.Config) (pi : ℝ) (c : Old.Store.Settings) (sort : List (Dir × F) → List (Dir × F)) (t : F) (real : Old.Wall → Bool)
    (see : Pose → Option Seen) (count : Nat) (r : Resource K) : Machine K → List Command → Prop
  | start (memory : Nat → Manager.Manager) (locked : Nat → Bool) (a : Agent) (s : Control.State) (sx sy : ℝ) (cmd : Command) (op : Old.Store.Operator K) :
      Manager.new C.search.W t = .ok (memory r.wallManager) → a.accepts = true →
      construct C exact pi c (fun p => Manager.belief exact C.search.W locked (memory p)) a ⟨C.search.start, robotAt s sx sy⟩ (.of r) (.search count) = .ok (some (cmd, op)) →
      MachineLives C pi c sort t real see count r ⟨some op, .search count, false, true, memory⟩ [cmd]
  | run (e : Old.Store.Moment) (s s' : Machine K) (res : Life.Result) (cs new : List Command) (es : List Effect) : MachineLives C pi c sort t real see count r s cs →
      e.agent.accepts = true → e.newAgent.accepts = true → s.run C exact pi c e = .ok (res, new, es, s') →
      MachineLives C pi c sort t real see count r s' (cs ++ new)
  | tick (q : Round) (ok : Bool) (s s' : Machine K) (cs : List Command) (es : List Effect) : MachineLives C pi c sort t real see count r s cs →
      q.Fair C.search.W → (∀ op, s.operator = some op → Honest real see C.search.W op s.store q) →
      s.tick C exact pi sort (q.tick C.search.W) false = .ok (ok, es, s') → MachineLives C pi c sort t real see count r s' cs

end Verif.Spec
