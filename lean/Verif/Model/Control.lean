import Verif.Model.Basic
import Verif.Model.Float
import Mathlib.Analysis.Real.Sqrt
import Mathlib.Analysis.SpecialFunctions.Complex.Arg
/-!
# Model of `mousecore2/src/control.rs`

Real numbers instead of `f32`, units erased (SI). The trigonometric functions are a parameter: the code uses the
approximations of `micromath`, and most statements hold for any functions.
-/
namespace Verif.Control
open Verif

/-- `f32::sin`, `f32::cos` as imported from `micromath`. -/
structure Trig where
  sin : ℝ → ℝ
  cos : ℝ → ℝ

/-- The exact functions. -/
noncomputable def Trig.real : Trig := ⟨Real.sin, Real.cos⟩

/-- `control.rs:44-58` `LengthTarget`, `AngleTarget`. -/
structure Axis where
  x : ℝ
  v : ℝ
  a : ℝ
  j : ℝ

/-- `Default` of the same. -/
noncomputable def Axis.zero : Axis := ⟨0, 0, 0, 0⟩

/-- `control.rs:37-42` `Target`. -/
structure Target where
  x : Axis
  y : Axis
  theta : Axis

/-- `estimate.rs:18-30` `LengthState`, `AngleState`. -/
structure AxisState where
  x : ℝ
  v : ℝ
  a : ℝ

/-- `estimate.rs:11-16` `State`. -/
structure State where
  x : AxisState
  y : AxisState
  theta : AxisState

/-- `control.rs:60-66` `ControlTarget`. -/
structure ControlTarget where
  v : ℝ
  a : ℝ
  omega : ℝ
  alpha : ℝ

/-- `control.rs:275-281` `TrackingInput`. -/
structure TrackingInput where
  ux : ℝ
  uy : ℝ
  dux : ℝ
  duy : ℝ

/-! ## Tracker -/

/-- `control.rs:68-77` `Tracker`. -/
structure Tracker where
  xi : ℝ
  period : ℝ
  xiThreshold : ℝ
  zeta : ℝ
  b : ℝ

open Classical in
/-- `control.rs:157-167` `normalize_angle`; `pi` is the constant `PI`, of which `TAU` is exactly the double. -/
noncomputable def normalizeAngle (pi angle : ℝ) : ℝ :=
  let raw := angle - (2 * pi) * ⌊angle / (2 * pi)⌋
  if pi < raw then raw - 2 * pi else raw

/-- `control.rs:170-174` `sinc`. -/
noncomputable def sinc (x : ℝ) : ℝ :=
  let xx := x * x
  let xxxx := xx * xx
  xxxx * xxxx / 362880 - xxxx * xx / 5040 + xxxx / 120 - xx / 6 + 1

open Classical in
/-- `control.rs:80-153` `track`: the new tracker, the reference and the measured value. -/
noncomputable def Tracker.track (T : Trig) (pi : ℝ) (self : Tracker) (state : State) (target : Target)
    (input : TrackingInput) : Tracker × ControlTarget × ControlTarget :=
  let sinTh := T.sin state.theta.x
  let cosTh := T.cos state.theta.x
  let vv := state.x.v * cosTh + state.y.v * sinTh
  let va := state.x.a * cosTh + state.y.a * sinTh
  let dxi := input.ux * cosTh + input.uy * sinTh
  let xi := self.xi + self.period * dxi
  let sinThR := T.sin target.theta.x
  let cosThR := T.cos target.theta.x
  let vr := target.x.v * cosThR + target.y.v * sinThR
  let r : ControlTarget :=
    if self.xiThreshold < |vr| ∧ self.xiThreshold < |xi| then
      let uw := (input.uy * cosTh - input.ux * sinTh) / xi
      { v := xi, a := dxi, omega := uw, alpha := -((2 * dxi * uw + input.dux * sinTh - input.duy * cosTh) / xi) }
    else
      let thetaD := normalizeAngle pi (target.theta.x - state.theta.x)
      let cosThD := T.cos thetaD
      let xd := target.x.x - state.x.x
      let yd := target.y.x - state.y.x
      let wr := target.theta.v
      let k1 := 2 * self.zeta * Real.sqrt (wr * wr + self.b * vr * vr)
      { v := vr * cosThD + k1 * (xd * cosTh + yd * sinTh)
        a := target.x.a * cosThR + target.y.a * sinThR
        omega := wr + self.b * vr * (-xd * sinTh + yd * cosTh) * sinc thetaD + k1 * thetaD
        alpha := target.theta.a }
  ({ self with xi }, r, { v := vv, a := va, omega := state.theta.v, alpha := state.theta.a })

/-! ## Controller -/

/-- `control.rs:176-183` `ControlParameters`. -/
structure Params where
  kp : ℝ
  ki : ℝ
  kd : ℝ
  modelK : ℝ
  modelT1 : ℝ

/-- `control.rs:185-194` `Controller`. -/
structure Controller where
  trans : Params
  rot : Params
  transSum : ℝ
  rotSum : ℝ
  period : ℝ

/-- The builder of `Controller`: both sums start at zero. -/
noncomputable def Controller.new (trans rot : Params) (period : ℝ) : Controller := ⟨trans, rot, 0, 0, period⟩

/-- `control.rs:197-212` `control_each`: the voltage and the new error sum. -/
noncomputable def controlEach (r dr y dy : ℝ) (p : Params) (period errorSum : ℝ) : ℝ × ℝ :=
  let volF := (dr * p.modelT1 + r) / p.modelK
  let volP := p.kp * (r - y)
  let volI := p.ki * errorSum
  let volD := p.kd * (dr - dy)
  (volF + volP + volI + volD, errorSum + (r - y) * period)

/-- `control.rs:214-217` `reset`. -/
noncomputable def Controller.reset (self : Controller) : Controller := { self with transSum := 0, rotSum := 0 }

/-- `control.rs:28-32` `MotorOutput`. -/
structure MotorOutput where
  left : ℝ
  right : ℝ

/-- `control.rs:219-245` `control`. -/
noncomputable def Controller.control (self : Controller) (r y : ControlTarget) : Controller × MotorOutput :=
  let (volT, ts) := controlEach r.v r.a y.v y.a self.trans self.period self.transSum
  let (volR, rs) := controlEach r.omega r.alpha y.omega y.alpha self.rot self.period self.rotSum
  ({ self with transSum := ts, rotSum := rs }, { left := volT - volR, right := volT + volR })

/-! ## Navigation -/

/-- `control.rs:248-254` `NavigationController`. -/
structure Navigation where
  gain : ℝ
  dgain : ℝ

/-- `control.rs:257-272` `navigate`. -/
noncomputable def Navigation.navigate (self : Navigation) (state : State) (target : Target) : TrackingInput where
  ux := target.x.a + self.dgain * (target.x.v - state.x.v) + self.gain * (target.x.x - state.x.x)
  uy := target.y.a + self.dgain * (target.y.v - state.y.v) + self.gain * (target.y.x - state.y.x)
  dux := target.x.j + self.dgain * (target.x.a - state.x.a) + self.gain * (target.x.v - state.x.v)
  duy := target.y.j + self.dgain * (target.y.a - state.y.a) + self.gain * (target.y.v - state.y.v)

/-! ## Supervisor -/

/-- `control.rs:290-296` `SupervisoryController`. -/
structure Supervisor where
  margin : ℝ
  avoidance : ℝ
  squareWidth : ℝ

/-- `f32 as usize`: towards zero, negative values give 0; saturation at the top is left out. -/
noncomputable def toUsize (v : ℝ) : Nat := ⌊v⌋₊

/-- `usize as i8`. -/
def wrapI8 (n : Nat) : Int := if n % 256 < 128 then ((n % 256 : Nat) : Int) else ((n % 256 : Nat) : Int) - 256

/-- Addition on `i8`, checked. -/
def addI8 (a b : Int) : R Int := if -128 ≤ a + b ∧ a + b ≤ 127 then .ok (a + b) else .error .overflow

/-- `control.rs:283-288` `remquof`; a zero divisor panics. -/
noncomputable def remquof (value base : ℝ) : R (Int × ℝ) :=
  let iwidth := toUsize (base * 1000)
  let ivalue := toUsize (value * 1000)
  if iwidth = 0 then .error .assert
  else
    let div := ivalue / iwidth
    .ok (wrapI8 div, value - base * div)

/-- `control.rs:343-348` the position of a pillar. -/
noncomputable def Supervisor.place (self : Supervisor) (p : Int × Int) : R (ℝ × ℝ) := do
  let px ← addI8 p.1 1
  let py ← addI8 p.2 1
  return ((px : ℝ) * self.squareWidth, (py : ℝ) * self.squareWidth)

open Classical in
/-- `control.rs:325-349` `nearest_pillars`. The code computes the sums lazily, here they are computed in order at the
start, which makes no difference to what is returned. -/
noncomputable def Supervisor.nearestPillars (self : Supervisor) (x y : ℝ) : R (List (ℝ × ℝ)) := do
  let (dx, rx) ← remquof x self.squareWidth
  let (dy, ry) ← remquof y self.squareWidth
  let dx1 ← addI8 dx 1
  let dy1 ← addI8 dy 1
  let two ←
    if ry > rx then
      if ry > self.squareWidth - rx then do let dy2 ← addI8 dy 2; pure [(dx, dy2), (dx1, dy2)]
      else do let dxm ← addI8 dx (-1); pure [(dxm, dy), (dxm, dy1)]
    else
      if ry > self.squareWidth - rx then do let dx2 ← addI8 dx 2; pure [(dx2, dy), (dx2, dy1)]
      else do let dym ← addI8 dy (-1); pure [(dx, dym), (dx1, dym)]
  ([(dx, dy), (dx1, dy), (dx, dy1), (dx1, dy1)] ++ two).mapM self.place

/-- `control.rs:303-315` the constraint of a pillar: `a1 ux + a2 uy + b ≥ 0`. -/
noncomputable def Supervisor.constraint (self : Supervisor) (s : State) (p : ℝ × ℝ) : ℝ × ℝ × ℝ :=
  let a1 := 2 * (s.x.x - p.1)
  let a2 := 2 * (s.y.x - p.2)
  let bPart := 2 * (s.x.v * s.x.v + s.y.v * s.y.v)
  let b := bPart + 4 * self.margin * ((s.x.x - p.1) * s.x.v + (s.y.x - p.2) * s.y.v) +
    self.margin * self.margin *
      ((s.x.x - p.1) * (s.x.x - p.1) + (s.y.x - p.2) * (s.y.x - p.2) - self.avoidance * self.avoidance)
  (a1, a2, b)

open Classical in
/-- `Iterator::min_by` on real keys: the first minimum. -/
noncomputable def minBy {α : Type} (f : α → ℝ) : List α → Option α
  | [] => none
  | x :: l => some (l.foldl (fun m y => if f m ≤ f y then m else y) x)

/-- Result of `apply_constraints`; the jerks can be infinite or `nan`. -/
structure Supervised where
  ux : ℝ
  uy : ℝ
  dux : F
  duy : F

/-- `control.rs:386` `to_polar`; `atan2(y, x)` is the argument of `x + iy`. -/
noncomputable def toPolar (x y : ℝ) : ℝ × ℝ := (Real.sqrt (x * x + y * y), Complex.arg ⟨x, y⟩)

open Classical in
/-- `control.rs:351-400` `apply_constraints`. -/
noncomputable def applyConstraints (T : Trig) (i : TrackingInput) (a1 a2 b : ℝ) : R Supervised :=
  if a1 * i.ux + a2 * i.uy + b ≥ 0 then .ok ⟨i.ux, i.uy, .fin i.dux, .fin i.duy⟩
  else do
    let (ux2, uy2) ←
      if a2 ≠ 0 then
        let a := -a1 / a2
        let b := -b / a2
        let c1 := a * a + 1
        let c2 := 2 * (a * b - i.ux - a * i.uy)
        let ux2 := -c2 / (2 * c1)
        let uy2 := a * ux2 + b
        pure (ux2, uy2)
      else if a1 ≠ 0 then
        let a := -a2 / a1
        let b := -b / a1
        let c1 := a * a + 1
        let c2 := 2 * (a * b - i.uy - a * i.ux)
        let uy2 := -c2 / (2 * c1)
        let ux2 := a * uy2 + b
        pure (ux2, uy2)
      else .error .unreachable
    let (r, t) := toPolar i.ux i.uy
    let (r2, t2) := toPolar ux2 uy2
    let (dr, dt) := toPolar i.dux i.duy
    let dr2 := exact.div (.fin (dr * r2)) (.fin r)
    let dt2 := dt + t2 - t
    return ⟨ux2, uy2, exact.mul dr2 (.fin (T.cos dt2)), exact.mul dr2 (.fin (T.sin dt2))⟩

/-- `control.rs:299-323` `supervise`. -/
noncomputable def Supervisor.supervise (T : Trig) (self : Supervisor) (i : TrackingInput) (s : State) : R Supervised := do
  let pillars ← self.nearestPillars s.x.x s.y.x
  let (a1, a2, b) ← unwrap (minBy (fun (c : ℝ × ℝ × ℝ) => c.1 * i.ux + c.2.1 * i.uy + c.2.2)
    (pillars.map (self.constraint s)))
  applyConstraints T i a1 a2 b

end Verif.Control
