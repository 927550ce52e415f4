import Verif.Model.Binary32
/-!
# `mousecore2/src/estimate.rs` and parts of `mousecore2/src/control.rs` in floating point arithmetic

The functions of `Verif.Model.Estimate` and `Verif.Model.Control` (which have real numbers) once more, for any arithmetic: every
operation is rounded, in the order of the code, and values may be infinite or not a number. Units are erased (SI; reading a
quantity in its base unit changes nothing). `sin`, `cos` and `sqrt` are those of the library at hand. Not here: the supervisor.
-/
namespace Verif.Single
open Verif

/-- The functions of the math library (`micromath` or the standard library) and the constant `PI`. -/
structure Lib where
  sin : F → F
  cos : F → F
  sqrt : F → F
  pi : ℝ

/-- `control.rs:44-58` `LengthTarget`, `AngleTarget`. -/
structure Axis where
  x : F
  v : F
  a : F
  j : F

/-- `control.rs:37-42` `Target`. -/
structure Target where
  x : Axis
  y : Axis
  theta : Axis

/-- `estimate.rs:18-30` `LengthState`, `AngleState`. -/
structure AxisState where
  x : F
  v : F
  a : F

/-- `estimate.rs:11-16` `State`. -/
structure State where
  x : AxisState
  y : AxisState
  theta : AxisState

/-- `estimate.rs:11-30`: the derived `Default`. -/
noncomputable def State.default : State := ⟨⟨.fin 0, .fin 0, .fin 0⟩, ⟨.fin 0, .fin 0, .fin 0⟩, ⟨.fin 0, .fin 0, .fin 0⟩⟩

/-! ## Estimator -/

/-- `estimate.rs:32-38` `SensorValue`. -/
structure Sensor where
  left : F
  right : F
  acc : F
  omega : F

/-- `estimate.rs:41-54` `Estimator`. -/
structure Estimator where
  period : F
  alpha : F
  slipConst : F
  approxTh : F
  slip : F
  vel : F

/-- The builder (`estimate.rs:41-54`) with all its settings: slip angle and velocity start at zero. -/
noncomputable def Estimator.new (period alpha slipConst approxTh : F) : Estimator :=
  ⟨period, alpha, slipConst, approxTh, .fin 0, .fin 0⟩

/-- `estimate.rs:67-74` the new translational velocity. -/
noncomputable def Estimator.nextVel (A : Arith) (self : Estimator) (s : Sensor) : F :=
  let averageLeft := A.div s.left self.period
  let averageRight := A.div s.right self.period
  let average := A.div (A.add averageLeft averageRight) (.fin 2)
  A.add (A.mul self.alpha (A.add self.vel (A.mul s.acc self.period))) (A.mul (A.sub (.fin 1) self.alpha) average)

/-- `estimate.rs:76-82` the new slip angle. -/
noncomputable def Estimator.nextSlip (A : Arith) (self : Estimator) (vel omega : F) : F :=
  let revPeriod := A.div (.fin 1) self.period
  A.div (A.add (A.mul self.slip revPeriod) omega) (A.add revPeriod (A.div self.slipConst vel.abs))

open Classical in
/-- `estimate.rs:85-91` the distance covered, before the division by the cosine of the slip angle. -/
noncomputable def Estimator.chord (A : Arith) (L : Lib) (self : Estimator) (vel omega dtheta : F) : F :=
  if omega.abs.lt self.approxTh then A.mul vel self.period
  else A.div (A.mul (A.mul (.fin 2) vel) (L.sin (A.div dtheta (.fin 2)))) omega

/-- `estimate.rs:57-107` `estimate`. -/
noncomputable def Estimator.estimate (A : Arith) (L : Lib) (self : Estimator) (state : State) (s : Sensor) : Estimator × State :=
  let vel := self.nextVel A s
  let slip := self.nextSlip A vel s.omega
  let dtheta := A.mul s.omega self.period
  let dist := A.div (self.chord A L vel s.omega dtheta) (L.cos slip)
  let thetaM := A.add (A.sub state.theta.x slip) (A.div dtheta (.fin 2))
  let sinTh := L.sin thetaM
  let cosTh := L.cos thetaM
  ({ self with vel, slip },
   { x := ⟨A.add state.x.x (A.mul dist cosTh), A.mul vel cosTh, A.mul s.acc cosTh⟩
     y := ⟨A.add state.y.x (A.mul dist sinTh), A.mul vel sinTh, A.mul s.acc sinTh⟩
     theta := ⟨A.add state.theta.x dtheta, s.omega, A.div (A.sub s.omega state.theta.v) self.period⟩ })

/-! ## Navigation -/

/-- `control.rs:248-254` `NavigationController`. -/
structure Navigation where
  gain : F
  dgain : F

/-- `control.rs:275-281` `TrackingInput`. -/
structure Input where
  ux : F
  uy : F
  dux : F
  duy : F

/-- One of the four sums of `control.rs:257-272`. -/
noncomputable def Navigation.sum (A : Arith) (self : Navigation) (ff d d' e e' : F) : F :=
  A.add (A.add ff (A.mul self.dgain (A.sub d d'))) (A.mul self.gain (A.sub e e'))

/-- `control.rs:257-272` `navigate`. -/
noncomputable def Navigation.navigate (A : Arith) (self : Navigation) (s : State) (t : Target) : Input where
  ux := self.sum A t.x.a t.x.v s.x.v t.x.x s.x.x
  uy := self.sum A t.y.a t.y.v s.y.v t.y.x s.y.x
  dux := self.sum A t.x.j t.x.a s.x.a t.x.v s.x.v
  duy := self.sum A t.y.j t.y.a s.y.a t.y.v s.y.v

/-! ## Tracker -/

/-- `control.rs:60-66` `ControlTarget`. -/
structure ControlTarget where
  v : F
  a : F
  omega : F
  alpha : F

/-- `control.rs:68-77` `Tracker`. -/
structure Tracker where
  xi : F
  period : F
  xiThreshold : F
  zeta : F
  b : F

/-- The builder (`control.rs:68-77`): `xi` starts at zero. -/
noncomputable def Tracker.new (period xiThreshold zeta b : F) : Tracker := ⟨.fin 0, period, xiThreshold, zeta, b⟩

/-- The part of a number towards zero. -/
noncomputable def trunc (x : ℝ) : ℤ := if 0 ≤ x then ⌊x⌋ else ⌈x⌉

open Classical in
/-- `f32::rem_euclid` with a positive finite divisor: the remainder of `%` is exact, only the correction is rounded. -/
noncomputable def remEuclid (A : Arith) (x : F) (m : ℝ) : F :=
  match x with
  | .fin r =>
    let rem := r - m * trunc (r / m)
    if rem < 0 then A.add (.fin rem) (.fin m) else .fin rem
  | _ => .nan

open Classical in
/-- `control.rs:157-167` `normalize_angle`; `TAU` is exactly the double of `PI`. -/
noncomputable def normalizeAngle (A : Arith) (L : Lib) (angle : F) : F :=
  let raw := remEuclid A angle (2 * L.pi)
  if (F.fin L.pi).lt raw then A.sub raw (.fin (2 * L.pi)) else raw

/-- `control.rs:170-174` `sinc`. -/
noncomputable def sinc (A : Arith) (x : F) : F :=
  let xx := A.mul x x
  let xxxx := A.mul xx xx
  A.add (A.sub (A.add (A.sub (A.div (A.mul xxxx xxxx) (.fin 362880)) (A.div (A.mul xxxx xx) (.fin 5040))) (A.div xxxx (.fin 120)))
    (A.div xx (.fin 6))) (.fin 1)

/-- `control.rs:102-110` the reference of the tracker when it is fast. -/
noncomputable def fast (A : Arith) (sinTh cosTh dxi xi : F) (i : Input) : ControlTarget :=
  let uw := A.div (A.sub (A.mul i.uy cosTh) (A.mul i.ux sinTh)) xi
  { v := xi
    a := dxi
    omega := uw
    alpha := (A.div (A.sub (A.add (A.mul (A.mul (.fin 2) dxi) uw) (A.mul i.dux sinTh)) (A.mul i.duy cosTh)) xi).neg }

/-- `control.rs:111-138` the reference of the tracker when it is slow. -/
noncomputable def slow (A : Arith) (L : Lib) (self : Tracker) (sinTh cosTh sinThR cosThR vr : F) (s : State) (t : Target) :
    ControlTarget :=
  let thetaD := normalizeAngle A L (A.sub t.theta.x s.theta.x)
  let cosThD := L.cos thetaD
  let xd := A.sub t.x.x s.x.x
  let yd := A.sub t.y.x s.y.x
  let wr := t.theta.v
  let k1 := A.mul (A.mul (.fin 2) self.zeta) (L.sqrt (A.add (A.mul wr wr) (A.mul (A.mul self.b vr) vr)))
  { v := A.add (A.mul vr cosThD) (A.mul k1 (A.add (A.mul xd cosTh) (A.mul yd sinTh)))
    a := A.add (A.mul t.x.a cosThR) (A.mul t.y.a sinThR)
    omega := A.add (A.add wr (A.mul (A.mul (A.mul self.b vr) (A.add (A.mul xd.neg sinTh) (A.mul yd cosTh))) (sinc A thetaD)))
      (A.mul k1 thetaD)
    alpha := t.theta.a }

open Classical in
/-- `control.rs:80-153` `track`: the new tracker, the reference and the measured value. -/
noncomputable def Tracker.track (A : Arith) (L : Lib) (self : Tracker) (s : State) (t : Target) (i : Input) :
    Tracker × ControlTarget × ControlTarget :=
  let sinTh := L.sin s.theta.x
  let cosTh := L.cos s.theta.x
  let vv := A.add (A.mul s.x.v cosTh) (A.mul s.y.v sinTh)
  let va := A.add (A.mul s.x.a cosTh) (A.mul s.y.a sinTh)
  let dxi := A.add (A.mul i.ux cosTh) (A.mul i.uy sinTh)
  let xi := A.add self.xi (A.mul self.period dxi)
  let sinThR := L.sin t.theta.x
  let cosThR := L.cos t.theta.x
  let vr := A.add (A.mul t.x.v cosThR) (A.mul t.y.v sinThR)
  let r := if self.xiThreshold.lt vr.abs ∧ self.xiThreshold.lt xi.abs then fast A sinTh cosTh dxi xi i
    else slow A L self sinTh cosTh sinThR cosThR vr s t
  ({ self with xi }, r, { v := vv, a := va, omega := s.theta.v, alpha := s.theta.a })

/-! ## Controller -/

/-- `control.rs:176-183` `ControlParameters`. -/
structure Params where
  kp : F
  ki : F
  kd : F
  modelK : F
  modelT1 : F

/-- `control.rs:185-194` `Controller`. -/
structure Controller where
  trans : Params
  rot : Params
  transSum : F
  rotSum : F
  period : F

/-- The builder (`control.rs:185-194`): both sums start at zero. -/
noncomputable def Controller.new (trans rot : Params) (period : F) : Controller := ⟨trans, rot, .fin 0, .fin 0, period⟩

/-- `control.rs:197-212` `control_each`: the voltage and the new error sum. -/
noncomputable def controlEach (A : Arith) (r dr y dy : F) (p : Params) (period errorSum : F) : F × F :=
  let volF := A.div (A.add (A.mul dr p.modelT1) r) p.modelK
  let volP := A.mul p.kp (A.sub r y)
  let volI := A.mul p.ki errorSum
  let volD := A.mul p.kd (A.sub dr dy)
  (A.add (A.add (A.add volF volP) volI) volD, A.add errorSum (A.mul (A.sub r y) period))

/-- `control.rs:28-32` `MotorOutput`. -/
structure MotorOutput where
  left : F
  right : F

/-- `control.rs:219-245` `control`. -/
noncomputable def Controller.control (A : Arith) (self : Controller) (r y : ControlTarget) : Controller × MotorOutput :=
  let (volT, ts) := controlEach A r.v r.a y.v y.a self.trans self.period self.transSum
  let (volR, rs) := controlEach A r.omega r.alpha y.omega y.alpha self.rot self.period self.rotSum
  ({ self with transSum := ts, rotSum := rs }, { left := A.sub volT volR, right := A.add volT volR })

/-! ## One round -/

/-- The parts of a robot that are called in every round of `mousecore2/tests/search.rs` between the sensors and the motors. -/
structure Robot where
  estimator : Estimator
  state : State
  navigation : Navigation
  tracker : Tracker
  controller : Controller

/-- One round: `tests/search.rs:265-278` estimate, navigate, track, control. -/
noncomputable def Robot.round (A : Arith) (L : Lib) (self : Robot) (s : Sensor) (t : Target) : Robot × MotorOutput :=
  let (estimator, state) := self.estimator.estimate A L self.state s
  let input := self.navigation.navigate A state t
  let (tracker, r, y) := self.tracker.track A L state t input
  let (controller, out) := self.controller.control A r y
  ({ self with estimator, state, tracker, controller }, out)

end Verif.Single
