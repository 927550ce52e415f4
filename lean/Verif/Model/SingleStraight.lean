import Verif.Model.Single
import Verif.Model.Clock
import Verif.Model.Detect
/-!
# `mousecore2/src/trajectory/straight.rs`, `spin.rs` and the shift of `trajectory.rs` in floating point arithmetic

The functions of `Verif.Model.Straight` (which have real numbers) once more, for any arithmetic: every operation is rounded, in the
order of the code, and values may be infinite or not a number. Units are erased; the conversions between kinds (`<$t>::from`) and the
readings in base units change nothing. The macro is instantiated twice in the code, for lengths and for angles.
-/
namespace Verif.Single
open Verif

/-- `straight.rs:21-25` `StraightCalculatorGenerator`. -/
structure Gen where
  vMax : F
  aMax : F
  jMax : F

open Classical in
/-- `straight.rs:170-179` `calculate_acceleration_distance`. -/
noncomputable def Gen.accDist (A : Arith) (L : Lib) (g : Gen) (vStart vEnd : F) : F :=
  let tc := A.div g.aMax g.jMax
  let vd := A.mul g.aMax tc
  let d := (A.sub vEnd vStart).abs
  let t := if vd.le d then A.add (A.div d g.aMax) tc else A.mul (.fin 2) (L.sqrt (A.div d g.jMax))
  A.div (A.mul (A.add vStart vEnd) t) (.fin 2)

open Classical in
/-- The bisection loops of `straight.rs:81-90`, `204-212`, `217-225`: when `up mid` the lower end moves. -/
noncomputable def bisect (A : Arith) (up : F → Prop) : Nat → F → F → F × F
  | 0, low, high => (low, high)
  | n + 1, low, high =>
    let mid := A.div (A.add low high) (.fin 2)
    if up mid then bisect A up n mid high else bisect A up n low mid

open Classical in
/-- `straight.rs:195-227` `calculate_reachable_velocity`, with the loop count of `straight.rs:28`. -/
noncomputable def Gen.reachable (A : Arith) (L : Lib) (g : Gen) (vStart vEnd distance : F) : F :=
  if vStart.lt vEnd then (bisect A (fun mid => (g.accDist A L vStart mid).lt distance) 25 vStart g.vMax).1
  else (bisect A (fun mid => ¬ (g.accDist A L vStart mid).lt distance) 25 (.fin 0) vStart).1

/-- `straight.rs:232-242` `AccelerationCalculator`. -/
structure AccCalc where
  xStart : F
  vStart : F
  xEnd : F
  vEnd : F
  aM : F
  jM : F
  t1 : F
  t2 : F
  t3 : F

open Classical in
/-- `straight.rs:245-294` `AccelerationCalculator::calculate`. -/
noncomputable def AccCalc.calculate (A : Arith) (c : AccCalc) (t : F) : Axis :=
  if t.lt (.fin 0) then ⟨c.xStart, c.vStart, .fin 0, .fin 0⟩
  else if t.le c.t1 then
    { j := c.jM
      a := A.mul c.jM t
      v := A.add c.vStart (A.div (A.mul (A.mul c.jM t) t) (.fin 2))
      x := A.add c.xStart (A.add (A.mul c.vStart t) (A.div (A.mul (A.mul (A.mul c.jM t) t) t) (.fin 6))) }
  else if t.le c.t2 then
    let dt1 := A.sub t c.t1
    { j := .fin 0
      a := c.aM
      v := A.add c.vStart (A.add (A.div (A.mul c.aM c.t1) (.fin 2)) (A.mul c.aM dt1))
      x := A.add c.xStart
        (A.add
          (A.add (A.add (A.mul c.vStart c.t1) (A.div (A.mul (A.mul (A.mul c.jM c.t1) c.t1) c.t1) (.fin 6)))
            (A.mul (A.add c.vStart (A.div (A.mul c.aM c.t1) (.fin 2))) dt1))
          (A.div (A.mul (A.mul c.aM dt1) dt1) (.fin 2))) }
  else if t.le c.t3 then
    let dt3 := A.sub c.t3 t
    { j := c.jM.neg
      a := A.mul c.jM dt3
      v := A.sub c.vEnd (A.div (A.mul (A.mul c.jM dt3) dt3) (.fin 2))
      x := A.add (A.sub c.xEnd (A.mul c.vEnd dt3)) (A.div (A.mul (A.mul (A.mul c.jM dt3) dt3) dt3) (.fin 6)) }
  else ⟨c.xEnd, c.vEnd, .fin 0, .fin 0⟩

open Classical in
/-- `straight.rs:129-168` `generate_acceleration`. -/
noncomputable def Gen.acceleration (A : Arith) (L : Lib) (g : Gen) (xStart vStart vEnd : F) : AccCalc × F :=
  let tc := A.div g.aMax g.jMax
  let vd := A.mul g.aMax tc
  let d := (A.sub vEnd vStart).abs
  let (t1, t2, t3) :=
    if vd.le d then
      let tm := A.sub (A.div d g.aMax) tc
      (tc, A.add tc tm, A.add (A.mul (.fin 2) tc) tm)
    else
      let td := L.sqrt (A.div d g.jMax)
      (td, td, A.mul (.fin 2) td)
  let (aM, jM) := if vStart.le vEnd then (g.aMax, g.jMax) else (g.aMax.neg, g.jMax.neg)
  let distance := A.div (A.mul (A.add vStart vEnd) t3) (.fin 2)
  let xEnd := A.add xStart distance
  (⟨xStart, vStart, xEnd, vEnd, aM, jM, t1, t2, t3⟩, t3)

/-- `straight.rs:298-302` `ConstantCalculator`. -/
structure ConstCalc where
  tEnd : F
  xStart : F
  v : F

open Classical in
/-- `straight.rs:305-321` `ConstantCalculator::calculate`. -/
noncomputable def ConstCalc.calculate (A : Arith) (c : ConstCalc) (t : F) : Axis :=
  if c.tEnd.lt t ∨ t.lt (.fin 0) then ⟨A.add c.xStart (A.mul c.v c.tEnd), c.v, .fin 0, .fin 0⟩
  else ⟨A.add c.xStart (A.mul c.v t), c.v, .fin 0, .fin 0⟩

open Classical in
/-- `straight.rs:181-192` `generate_constant`. -/
noncomputable def constant (A : Arith) (xStart distance v : F) : ConstCalc × F :=
  let q := A.div distance v
  let tEnd := if q.lt (.fin 0) then .fin 0 else q
  (⟨tEnd, xStart, v⟩, tEnd)

/-- `straight.rs:325-337` `OverallCalculator`. -/
structure Overall where
  xStart : F
  vStart : F
  t1 : F
  t2 : F
  t3 : F
  distance : F
  vEnd : F
  accel : AccCalc
  const : ConstCalc
  decel : AccCalc
  sign : F

open Classical in
/-- `straight.rs:341-364` the target before the sign is applied. -/
noncomputable def Overall.unsigned (A : Arith) (c : Overall) (t : F) : Axis :=
  if t.lt (.fin 0) then ⟨c.xStart, c.vStart, .fin 0, .fin 0⟩
  else if t.le c.t1 then c.accel.calculate A t
  else if t.le c.t2 then c.const.calculate A (A.sub t c.t1)
  else if t.le c.t3 then c.decel.calculate A (A.sub t c.t2)
  else ⟨A.add c.xStart c.distance, c.vEnd, .fin 0, .fin 0⟩

/-- `straight.rs:340-371` `OverallCalculator::calculate`. -/
noncomputable def Overall.calculate (A : Arith) (c : Overall) (t : F) : Axis :=
  let target := c.unsigned A t
  ⟨A.add (A.mul (A.sub target.x c.xStart) c.sign) c.xStart, A.mul target.v c.sign, A.mul target.a c.sign, A.mul target.j c.sign⟩

open Classical in
/-- `straight.rs:67-78` the end velocity aimed at. -/
noncomputable def Gen.aim (A : Arith) (L : Lib) (g : Gen) (vStart vEnd distance : F) : F :=
  let vReach := g.reachable A L vStart vEnd distance
  if vStart.lt vEnd then if vReach.lt vEnd then vReach else vEnd
  else if vEnd.lt vReach then vReach else vEnd

open Classical in
/-- `straight.rs:79-92` the largest velocity of the trajectory, for the end velocity aimed at. -/
noncomputable def Gen.peak (A : Arith) (L : Lib) (g : Gen) (vStart vEnd distance : F) : F :=
  (bisect A (fun mid => (A.add (g.accDist A L vStart mid) (g.accDist A L mid vEnd)).le distance) 25
    (if vStart.lt vEnd then vEnd else vStart) g.vMax).1

open Classical in
/-- `straight.rs:55-127` `generate_with_terminal_velocity`. -/
noncomputable def Gen.generate (A : Arith) (L : Lib) (g : Gen) (xStart distance vStart vEnd : F) : Overall × F × F :=
  let (distance, sign) := if distance.lt (.fin 0) then (distance.neg, F.fin (-1)) else (distance, F.fin 1)
  let vEnd := g.aim A L vStart vEnd distance
  let vMax := g.peak A L vStart vEnd distance
  let vEnd := if vEnd.lt vMax then vEnd else vMax
  let dist1 := g.accDist A L vStart vMax
  let dist3 := g.accDist A L vMax vEnd
  let dist2 := A.sub (A.sub distance dist1) dist3
  let (accel, dt1) := g.acceleration A L xStart vStart vMax
  let (const, dt2) := constant A (A.add xStart dist1) dist2 vMax
  let (decel, dt3) := g.acceleration A L (A.sub (A.add xStart distance) dist3) vMax vEnd
  let t1 := dt1
  let t2 := A.add t1 dt2
  let t3 := A.add t2 dt3
  (⟨xStart, vStart, t1, t2, t3, distance, vEnd, accel, const, decel, sign⟩, t3, vEnd)

/-! ## Iterators -/

/-- `straight.rs:478-494` `StraightTrajectory` of kind `Accel`, `spin.rs:43-60` `SpinTrajectory`. -/
structure Journey where
  calculator : Overall
  clock : Clock

/-- An axis at rest at zero. -/
noncomputable def Axis.zero : Axis := ⟨.fin 0, .fin 0, .fin 0, .fin 0⟩

/-- `straight.rs:500-514` `StraightTrajectory::next`. -/
noncomputable def Journey.straight (A : Arith) (s : Journey) : Option Target × Journey :=
  let (o, clock) := s.clock.next A
  (o.map fun t => ⟨s.calculator.calculate A t, .zero, .zero⟩, { s with clock })

/-- `spin.rs:65-75` `SpinTrajectory::next`. -/
noncomputable def Journey.spin (A : Arith) (s : Journey) : Option Target × Journey :=
  let (o, clock) := s.clock.next A
  (o.map fun t => ⟨.zero, .zero, s.calculator.calculate A t⟩, { s with clock })

/-- `straight.rs:429-447` `StraightGenerator::generate_with_terminal_velocity`; `spin.rs:32-40` `SpinGenerator::generate` is the same from
rest to rest. -/
noncomputable def Gen.journey (A : Arith) (L : Lib) (g : Gen) (period distance vStart vEnd : F) : Journey × F :=
  let (c, tEnd, v) := g.generate A L (.fin 0) distance vStart vEnd
  (⟨c, Clock.new tEnd period⟩, v)

/-- `trajectory.rs:84-107` `ShiftTrajectory::shift` by the pose `(px, py, ptheta)`. -/
noncomputable def shift (A : Arith) (L : Lib) (px py ptheta : F) (t : Target) : Target :=
  let sinTh := L.sin ptheta
  let cosTh := L.cos ptheta
  { x := ⟨A.add (A.sub (A.mul t.x.x cosTh) (A.mul t.y.x sinTh)) px, A.sub (A.mul t.x.v cosTh) (A.mul t.y.v sinTh),
      A.sub (A.mul t.x.a cosTh) (A.mul t.y.a sinTh), A.sub (A.mul t.x.j cosTh) (A.mul t.y.j sinTh)⟩
    y := ⟨A.add (A.add (A.mul t.x.x sinTh) (A.mul t.y.x cosTh)) py, A.add (A.mul t.x.v sinTh) (A.mul t.y.v cosTh),
      A.add (A.mul t.x.a sinTh) (A.mul t.y.a cosTh), A.add (A.mul t.x.j sinTh) (A.mul t.y.j cosTh)⟩
    theta := ⟨A.add t.theta.x ptheta, t.theta.v, t.theta.a, t.theta.j⟩ }

end Verif.Single
