import Verif.Model.Control
import Verif.Model.Detect
/-!
# Model of `mousecore2/src/trajectory/straight.rs`

The macro is instantiated twice in the code, for lengths and for angles; with units erased there is one model.
Real numbers; times that are the result of a division by a possibly zero speed can be infinite or `nan`.
The square root (`trajectory.rs:20-58`) is the exact one.
-/
namespace Verif.Straight
open Verif Verif.Control

/-- `straight.rs:21-25` `StraightCalculatorGenerator`. -/
structure Gen where
  vMax : ℝ
  aMax : ℝ
  jMax : ℝ

/-- `straight.rs:28` `LOOP_COUNT`. -/
def LOOP_COUNT : Nat := 25

open Classical in
/-- `straight.rs:170-179` `calculate_acceleration_distance`. -/
noncomputable def Gen.accDist (g : Gen) (vStart vEnd : ℝ) : ℝ :=
  let tc := g.aMax / g.jMax
  let vd := g.aMax * tc
  let t := if |vEnd - vStart| ≥ vd then |vEnd - vStart| / g.aMax + tc else 2 * Real.sqrt (|vEnd - vStart| / g.jMax)
  (vStart + vEnd) * t / 2

open Classical in
/-- The bisection loops of `straight.rs:81-90`, `204-212`, `217-225`: when `up mid` the lower end moves. -/
noncomputable def bisect (up : ℝ → Prop) : Nat → ℝ → ℝ → ℝ × ℝ
  | 0, low, high => (low, high)
  | n + 1, low, high =>
    let mid := (low + high) / 2
    if up mid then bisect up n mid high else bisect up n low mid

open Classical in
/-- `straight.rs:195-227` `calculate_reachable_velocity`. -/
noncomputable def Gen.reachable (g : Gen) (vStart vEnd distance : ℝ) : ℝ :=
  if vStart < vEnd then (bisect (fun mid => g.accDist vStart mid < distance) LOOP_COUNT vStart g.vMax).1
  else (bisect (fun mid => ¬ g.accDist vStart mid < distance) LOOP_COUNT 0 vStart).1

/-- `straight.rs:232-242` `AccelerationCalculator`. -/
structure AccCalc where
  xStart : ℝ
  vStart : ℝ
  xEnd : ℝ
  vEnd : ℝ
  aM : ℝ
  jM : ℝ
  t1 : ℝ
  t2 : ℝ
  t3 : ℝ

open Classical in
/-- `straight.rs:245-294` `AccelerationCalculator::calculate`. -/
noncomputable def AccCalc.calculate (c : AccCalc) (t : ℝ) : Axis :=
  if t < 0 then ⟨c.xStart, c.vStart, 0, 0⟩
  else if t ≤ c.t1 then
    { j := c.jM, a := c.jM * t, v := c.vStart + c.jM * t * t / 2, x := c.xStart + (c.vStart * t + c.jM * t * t * t / 6) }
  else if t ≤ c.t2 then
    let dt1 := t - c.t1
    { j := 0, a := c.aM, v := c.vStart + (c.aM * c.t1 / 2 + c.aM * dt1)
      x := c.xStart + (c.vStart * c.t1 + c.jM * c.t1 * c.t1 * c.t1 / 6 + (c.vStart + c.aM * c.t1 / 2) * dt1 +
        c.aM * dt1 * dt1 / 2) }
  else if t ≤ c.t3 then
    let dt3 := c.t3 - t
    { j := -c.jM, a := c.jM * dt3, v := c.vEnd - c.jM * dt3 * dt3 / 2
      x := c.xEnd - c.vEnd * dt3 + c.jM * dt3 * dt3 * dt3 / 6 }
  else ⟨c.xEnd, c.vEnd, 0, 0⟩

open Classical in
/-- `straight.rs:129-168` `generate_acceleration`. -/
noncomputable def Gen.acceleration (g : Gen) (xStart vStart vEnd : ℝ) : AccCalc × ℝ :=
  let tc := g.aMax / g.jMax
  let vd := g.aMax * tc
  let (t1, t2, t3) :=
    if |vEnd - vStart| ≥ vd then
      let tm := |vEnd - vStart| / g.aMax - tc
      (tc, tc + tm, 2 * tc + tm)
    else
      let td := Real.sqrt (|vEnd - vStart| / g.jMax)
      (td, td, 2 * td)
  let (aM, jM) := if vStart ≤ vEnd then (g.aMax, g.jMax) else (-g.aMax, -g.jMax)
  let distance := (vStart + vEnd) * t3 / 2
  let xEnd := xStart + distance
  (⟨xStart, vStart, xEnd, vEnd, aM, jM, t1, t2, t3⟩, t3)

/-- The real value of a finite time. -/
noncomputable def val : F → ℝ
  | .fin r => r
  | _ => 0

/-- `straight.rs:298-302` `ConstantCalculator`. -/
structure ConstCalc where
  tEnd : F
  xStart : ℝ
  v : ℝ

open Classical in
/-- `straight.rs:305-321` `ConstantCalculator::calculate`. For negative times and an infinite end (never asked for by the
rest of the code) the position is not faithful. -/
noncomputable def ConstCalc.calculate (c : ConstCalc) (t : ℝ) : Axis :=
  if c.tEnd.lt (.fin t) ∨ t < 0 then ⟨c.xStart + c.v * val c.tEnd, c.v, 0, 0⟩
  else ⟨c.xStart + c.v * t, c.v, 0, 0⟩

open Classical in
/-- `straight.rs:181-192` `generate_constant`. -/
noncomputable def constant (xStart distance v : ℝ) : ConstCalc × F :=
  let q := exact.div (.fin distance) (.fin v)
  let tEnd := if q.lt (.fin 0) then .fin 0 else q
  (⟨tEnd, xStart, v⟩, tEnd)

/-- `straight.rs:325-337` `OverallCalculator`. -/
structure Overall where
  xStart : ℝ
  vStart : ℝ
  t1 : ℝ
  t2 : F
  t3 : F
  distance : ℝ
  vEnd : ℝ
  accel : AccCalc
  const : ConstCalc
  decel : AccCalc
  sign : ℝ

open Classical in
/-- `straight.rs:341-364` the target before the sign is applied. The last time but one is reached only when `t2` is finite. -/
noncomputable def Overall.unsigned (c : Overall) (t : ℝ) : Axis :=
  if t < 0 then ⟨c.xStart, c.vStart, 0, 0⟩
  else if t ≤ c.t1 then c.accel.calculate t
  else if (F.fin t).le c.t2 then c.const.calculate (t - c.t1)
  else if (F.fin t).le c.t3 then c.decel.calculate (t - val c.t2)
  else ⟨c.xStart + c.distance, c.vEnd, 0, 0⟩

/-- `straight.rs:340-371` `OverallCalculator::calculate`. -/
noncomputable def Overall.calculate (c : Overall) (t : ℝ) : Axis :=
  let target := c.unsigned t
  ⟨(target.x - c.xStart) * c.sign + c.xStart, target.v * c.sign, target.a * c.sign, target.j * c.sign⟩

open Classical in
/-- `straight.rs:67-78` the end velocity aimed at. -/
noncomputable def Gen.aim (g : Gen) (vStart vEnd distance : ℝ) : ℝ :=
  let vReach := g.reachable vStart vEnd distance
  if vStart < vEnd then if vReach < vEnd then vReach else vEnd
  else if vReach > vEnd then vReach else vEnd

open Classical in
/-- `straight.rs:79-92` the largest velocity of the trajectory, for the end velocity aimed at. -/
noncomputable def Gen.peak (g : Gen) (vStart vEnd distance : ℝ) : ℝ :=
  (bisect (fun mid => g.accDist vStart mid + g.accDist mid vEnd ≤ distance) LOOP_COUNT
    (if vStart < vEnd then vEnd else vStart) g.vMax).1

open Classical in
/-- `straight.rs:55-127` `generate_with_terminal_velocity`. -/
noncomputable def Gen.generate (g : Gen) (xStart distance vStart vEnd : ℝ) : Overall × F × ℝ :=
  let (distance, sign) := if distance < 0 then (-distance, -1) else (distance, 1)
  let vEnd := g.aim vStart vEnd distance
  let vMax := g.peak vStart vEnd distance
  let vEnd := if vEnd < vMax then vEnd else vMax
  let dist1 := g.accDist vStart vMax
  let dist3 := g.accDist vMax vEnd
  let dist2 := distance - dist1 - dist3
  let (accel, dt1) := g.acceleration xStart vStart vMax
  let (const, dt2) := constant (xStart + dist1) dist2 vMax
  let (decel, dt3) := g.acceleration (xStart + distance - dist3) vMax vEnd
  let t1 := dt1
  let t2 := exact.add (.fin t1) dt2
  let t3 := exact.add t2 (.fin dt3)
  (⟨xStart, vStart, t1, t2, t3, distance, vEnd, accel, const, decel, sign⟩, t3, vEnd)

/-! ## Iterators -/

/-- `straight.rs:472-475` `StraightTrajectoryCalculator`. -/
inductive StraightCalc where
  | accel (c : Overall)
  | const (c : ConstCalc)

noncomputable def StraightCalc.calculate : StraightCalc → ℝ → Axis
  | .accel c, t => c.calculate t
  | .const c, t => c.calculate t

/-- `straight.rs:478-494` `StraightTrajectory`. -/
structure Straight where
  calculator : StraightCalc
  t : ℝ
  tEnd : F
  period : ℝ

open Classical in
/-- `straight.rs:500-514` `StraightTrajectory::next`. -/
noncomputable def Straight.next (s : Straight) : Option Target × Straight :=
  if s.tEnd.lt (.fin s.t) then (none, s)
  else (some ⟨s.calculator.calculate s.t, .zero, .zero⟩, { s with t := s.t + s.period })

/-- `straight.rs:429-447` `StraightGenerator::generate_with_terminal_velocity`. -/
noncomputable def straightGenerate (g : Gen) (period distance vStart vEnd : ℝ) : Straight × ℝ :=
  let (c, tEnd, v) := g.generate 0 distance vStart vEnd
  (⟨.accel c, 0, tEnd, period⟩, v)

/-- `straight.rs:449-458` `StraightGenerator::generate_constant`. -/
noncomputable def straightConstant (distance v period : ℝ) : Straight :=
  let (c, tEnd) := constant 0 distance v
  ⟨.const c, 0, tEnd, period⟩

/-- `spin.rs:43-60` `SpinTrajectory`. -/
structure Spin where
  calculator : Overall
  t : ℝ
  tEnd : F
  period : ℝ

open Classical in
/-- `spin.rs:65-75` `SpinTrajectory::next`. -/
noncomputable def Spin.next (s : Spin) : Option Target × Spin :=
  if s.tEnd.lt (.fin s.t) then (none, s)
  else (some ⟨.zero, .zero, s.calculator.calculate s.t⟩, { s with t := s.t + s.period })

/-- `spin.rs:32-40` `SpinGenerator::generate`. -/
noncomputable def spinGenerate (g : Gen) (period thetaDistance : ℝ) : Spin :=
  let (c, tEnd, _) := g.generate 0 thetaDistance 0 0
  ⟨c, 0, tEnd, period⟩

/-- `trajectory.rs:126-143` `StopTrajectory`. -/
structure Stop where
  t : ℝ
  pose : Detect.Pose
  period : ℝ
  tEnd : ℝ

open Classical in
/-- `trajectory.rs:148-168` `StopTrajectory::next`. -/
noncomputable def Stop.next (s : Stop) : Option Target × Stop :=
  if s.t < s.tEnd then
    (some ⟨⟨s.pose.x, 0, 0, 0⟩, ⟨s.pose.y, 0, 0, 0⟩, ⟨s.pose.theta, 0, 0, 0⟩⟩, { s with t := s.t + s.period })
  else (none, s)

/-- `trajectory.rs:84-107` `ShiftTrajectory::shift`. -/
noncomputable def shift (T : Trig) (pose : Detect.Pose) (t : Target) : Target :=
  let sinTh := T.sin pose.theta
  let cosTh := T.cos pose.theta
  { x := ⟨t.x.x * cosTh - t.y.x * sinTh + pose.x, t.x.v * cosTh - t.y.v * sinTh, t.x.a * cosTh - t.y.a * sinTh,
      t.x.j * cosTh - t.y.j * sinTh⟩
    y := ⟨t.x.x * sinTh + t.y.x * cosTh + pose.y, t.x.v * sinTh + t.y.v * cosTh, t.x.a * sinTh + t.y.a * cosTh,
      t.x.j * sinTh + t.y.j * cosTh⟩
    theta := ⟨t.theta.x + pose.theta, t.theta.v, t.theta.a, t.theta.j⟩ }

/-- `trajectory.rs:116-118` `ShiftTrajectory::next` around any iterator. -/
noncomputable def shiftNext (T : Trig) (pose : Detect.Pose) {σ : Type} (next : σ → Option Target × σ) (s : σ) :
    Option Target × σ :=
  let (o, s) := next s
  (o.map (shift T pose), s)

end Verif.Straight
