import Verif.Model.SingleStraight
import Verif.Model.Slalom
/-!
# `mousecore2/src/trajectory/slalom.rs` in floating point arithmetic

The iterators and generators of `Verif.Model.Slalom` (which have real numbers) once more, for any arithmetic: every operation is rounded, in
the order of the code. Not modelled: `advance_by` (`slalom.rs:286-313`), which is compiled only with a nightly compiler.
-/
namespace Verif.Single
open Verif
open Verif.Run (SlalomKind SlalomDirection)

/-- `straight.rs:472-476` `StraightTrajectoryCalculator`. -/
inductive Piece
  | accel (c : Overall)
  | constant (c : ConstCalc)

/-- `straight.rs:506-509` the target of the calculator. -/
noncomputable def Piece.calculate (A : Arith) : Piece → F → Axis
  | .accel c, t => c.calculate A t
  | .constant c, t => c.calculate A t

/-- `straight.rs:478-494` `StraightTrajectory` of either kind. -/
structure Stretch where
  calculator : Piece
  clock : Clock

/-- `straight.rs:500-514` `StraightTrajectory::next`. -/
noncomputable def Stretch.next (A : Arith) (s : Stretch) : Option Target × Stretch :=
  let (o, clock) := s.clock.next A
  (o.map fun t => ⟨s.calculator.calculate A t, .zero, .zero⟩, { s with clock })

/-- `straight.rs:429-447` `StraightGenerator::generate_with_terminal_velocity`. -/
noncomputable def Gen.stretch (A : Arith) (L : Lib) (g : Gen) (period distance vStart vEnd : F) : Stretch × F :=
  let (c, tEnd, v) := g.generate A L (.fin 0) distance vStart vEnd
  (⟨.accel c, Clock.new tEnd period⟩, v)

/-- `straight.rs:449-458` `StraightGenerator::generate_constant`. -/
noncomputable def constantStretch (A : Arith) (distance v period : F) : Stretch :=
  let (c, tEnd) := constant A (.fin 0) distance v
  ⟨.constant c, Clock.new tEnd period⟩

/-- `slalom.rs:181-189` `CurveTrajectory`. -/
structure Bend where
  calculator : Overall
  clock : Clock
  x : F
  y : F
  v : F

/-- `slalom.rs:236-246` the mean of a function of the heading over the next period, by two nodes. -/
noncomputable def Bend.mean (A : Arith) (f : F → F) (c : Bend) (t : F) : F :=
  let angle (k : ℝ) := (c.calculator.calculate A (A.add t (A.mul (A.rnd k) c.clock.period))).x
  A.add (A.add (.fin 0) (A.mul (.fin 0.5) (f (angle 0.21132487)))) (A.mul (.fin 0.5) (f (angle 0.7886751)))

/-- `slalom.rs:255-283` the target for the time `t`. -/
noncomputable def Bend.target (A : Arith) (L : Lib) (c : Bend) (t : F) : Target :=
  let target := c.calculator.calculate A t
  let sinTheta := L.sin target.x
  let cosTheta := L.cos target.x
  let square := A.mul target.v target.v
  { x := ⟨c.x, A.mul c.v cosTheta, A.mul (A.mul c.v.neg sinTheta) target.v,
      A.mul c.v.neg (A.add (A.mul cosTheta square) (A.mul sinTheta target.a))⟩
    y := ⟨c.y, A.mul c.v sinTheta, A.mul (A.mul c.v cosTheta) target.v,
      A.mul c.v (A.add (A.mul sinTheta.neg square) (A.mul cosTheta target.a))⟩
    theta := target }

/-- `slalom.rs:229-283` `CurveTrajectory::next`. -/
noncomputable def Bend.next (A : Arith) (L : Lib) (c : Bend) : Option Target × Bend :=
  match c.clock.next A with
  | (none, _) => (none, c)
  | (some t, clock) =>
    let step := A.mul c.v c.clock.period
    (some (c.target A L t),
      { c with clock := clock, x := A.add c.x (A.mul step (c.mean A L.cos t)), y := A.add c.y (A.mul step (c.mean A L.sin t)) })

/-- `slalom.rs:53-64` `SlalomParameters`. -/
structure Outline where
  lStart : F
  lEnd : F
  xCurveEnd : F
  yCurveEnd : F
  theta : F
  vRef : F
  dtheta : F
  ddtheta : F
  dddtheta : F

/-- `slalom.rs:165-170` the limits of the rotation on a curve with velocity `v`. -/
noncomputable def Outline.turn (A : Arith) (q : Outline) (v : F) : Gen :=
  let k := A.div v q.vRef
  ⟨A.mul k q.dtheta, A.mul (A.mul k k) q.ddtheta, A.mul (A.mul (A.mul k k) k) q.dddtheta⟩

/-- `slalom.rs:152-178` `generate_curve`, as it is called at `slalom.rs:91-101` and `123-133`. -/
noncomputable def Outline.bend (A : Arith) (L : Lib) (q : Outline) (period v : F) : Bend :=
  let (c, tEnd, _) := (q.turn A v).generate A L (.fin 0) q.theta (.fin 0) (.fin 0)
  ⟨c, Clock.new tEnd period, q.lStart, .fin 0, v⟩

/-- `trajectory.rs:116-118` `ShiftTrajectory::next`. -/
noncomputable def shifted {σ : Type} (A : Arith) (L : Lib) (px py ptheta : F) (next : σ → Option Target × σ) (s : σ) : Option Target × σ :=
  let (o, s) := next s
  (o.map (shift A L px py ptheta), s)

/-- `slalom.rs:81-82` `SlalomTrajectory`: straight, curve, straight shifted to the end of the curve. -/
abbrev SlalomState := Option (Option Stretch × Bend) × Stretch

/-- `next` of the same. -/
noncomputable def Outline.next (A : Arith) (L : Lib) (q : Outline) : SlalomState → Option Target × SlalomState :=
  Slalom.chainNext (Slalom.chainNext (Stretch.next A) (Bend.next A L)) (shifted A L q.xCurveEnd q.yCurveEnd q.theta (Stretch.next A))

/-- `slalom.rs:85-111` `generate_constant_slalom`. -/
noncomputable def Outline.constantSlalom (A : Arith) (L : Lib) (q : Outline) (period v : F) : SlalomState :=
  (some (some (constantStretch A q.lStart v period), q.bend A L period v), constantStretch A q.lEnd v period)

/-- `slalom.rs:113-149` `generate_slalom_with_terminal_velocity`. -/
noncomputable def Outline.slalomWithTerminal (A : Arith) (L : Lib) (q : Outline) (g : Gen) (period vStart vMiddle vEnd : F) : SlalomState × F :=
  let (start, middle) := g.stretch A L period q.lStart vStart vMiddle
  let (finish, terminal) := g.stretch A L period q.lEnd middle vEnd
  ((some (some start, q.bend A L period middle), finish), terminal)

/-! ## Parameters -/

/-- `Angle::new::<degree>`: the library multiplies by the number of radians of a degree. -/
noncomputable def degree (A : Arith) (d : ℝ) : F := A.mul (.fin d) (A.rnd (Real.pi / 180))

/-- `slalom.rs:446-475` `create_params`, with the constants of `slalom.rs:337-353`; `.left` is index 0. -/
noncomputable def createOutline (A : Arith) (lStart lEnd xCurveEnd yCurveEnd vRef : F) (theta : ℝ) (squareWidth : F) (d : SlalomDirection) : Outline :=
  let lStart := A.mul squareWidth lStart
  let lEnd := A.mul squareWidth lEnd
  let xCurveEnd := A.mul squareWidth xCurveEnd
  let yCurveEnd := A.mul squareWidth yCurveEnd
  let vRef := A.mul squareWidth vRef
  let theta := degree A theta
  let pi := A.rnd Real.pi
  let param (y th : F) : Outline := ⟨lStart, lEnd, xCurveEnd, y, th, vRef, A.mul (.fin 3) pi, A.mul (.fin 36) pi, A.mul (.fin 1200) pi⟩
  match d with
  | .left => param yCurveEnd theta
  | .right => param yCurveEnd.neg theta.neg

open Classical in
/-- `slalom.rs:355-444` `SlalomConfig::new` and `477-494` `parameters`. -/
noncomputable def outline (A : Arith) (squareWidth searchFrontOffset : F) (kind : SlalomKind) (d : SlalomDirection) : Outline :=
  let o := A.div searchFrontOffset (A.rnd 0.09)
  let create (lStart lEnd xCurveEnd yCurveEnd vRef theta : ℝ) : Outline :=
    createOutline A (A.rnd lStart) (A.rnd lEnd) (A.rnd xCurveEnd) (A.rnd yCurveEnd) (A.rnd vRef) theta squareWidth d
  match kind with
  | .search90 =>
    if o.le (A.rnd 0.055555556) then
      createOutline A (A.sub (A.rnd 0.055555567) o) (A.add (A.rnd 0.055555556) o) (A.sub (.fin 0.5) o) (A.rnd 0.44444445) (A.rnd 2.6843333) 90 squareWidth d
    else
      createOutline A (.fin 0) (A.add o o) (A.sub (.fin 0.5) o) (A.sub (.fin 0.5) o) (A.mul (A.sub (.fin 0.5) o) (A.rnd 6.03975)) 90 squareWidth d
  | .fastRun45 => create 0.1564414 0.3680321 0.739762 0.239762 3.3333333 45
  | .fastRun45Rev => create 0.3635475 0.1564412 0.9500395 0.2429328 3.3333333 45
  | .fastRun90 => create 0.22222222 0.22222222 1 0.7777778 4.697589 90
  | .fastRun135 => create 0.24291888 0.15713444 0.6111111 0.8888889 3.928989 135
  | .fastRun135Rev => create 0.15713444 0.24291888 0.52532303 0.88889056 3.928989 135
  | .fastRun180 => create 0.26666668 0.26666668 0.26666668 1 4.5803113 180
  | .fastRunDiagonal90 => create 0.17377333 0.17377333 0.70710665 0.53333336 3.2212 90

end Verif.Single
