import Verif.Model.Straight
import Verif.Model.Run
/-!
# Model of `mousecore2/src/trajectory/slalom.rs` and of the poses of `mousecore2/src/wall.rs`

Real numbers, units erased, decimal literals taken exactly. Not modelled: `advance_by` (`slalom.rs:285-314`), which is compiled
only with a nightly compiler.
-/
namespace Verif.Slalom
open Verif Verif.Control Verif.Straight
open Verif.Run (SlalomKind SlalomDirection)

/-- `slalom.rs:181-189` `CurveTrajectory`. -/
structure Curve where
  calculator : Overall
  t : ℝ
  tEnd : F
  period : ℝ
  x : ℝ
  y : ℝ
  v : ℝ

/-- `slalom.rs:236-237` the nodes and the weights of the quadrature. -/
noncomputable def cs : Fin 2 → ℝ := ![0.21132487, 0.7886751]
noncomputable def bs : Fin 2 → ℝ := ![0.5, 0.5]

open Classical in
/-- `slalom.rs:229-283` `CurveTrajectory::next`. -/
noncomputable def Curve.next (T : Trig) (c : Curve) : Option Target × Curve :=
  if c.tEnd.lt (.fin c.t) then (none, c)
  else
    let t := c.t
    let angle i := (c.calculator.calculate (t + cs i * c.period)).x
    let deltaX := 0 + bs 0 * T.cos (angle 0) + bs 1 * T.cos (angle 1)
    let deltaY := 0 + bs 0 * T.sin (angle 0) + bs 1 * T.sin (angle 1)
    let target := c.calculator.calculate t
    let sinTheta := T.sin target.x
    let cosTheta := T.cos target.x
    let vx := c.v * cosTheta
    let ax := -c.v * sinTheta * target.v
    let jx := -c.v * (cosTheta * (target.v * target.v) + sinTheta * target.a)
    let vy := c.v * sinTheta
    let ay := c.v * cosTheta * target.v
    let jy := c.v * (-sinTheta * (target.v * target.v) + cosTheta * target.a)
    (some ⟨⟨c.x, vx, ax, jx⟩, ⟨c.y, vy, ay, jy⟩, target⟩,
      { c with t := t + c.period, x := c.x + c.v * c.period * deltaX, y := c.y + c.v * c.period * deltaY })

/-- `slalom.rs:152-178` `generate_curve`. For `v = 0` or `vRef = 0` the quotients are not faithful. -/
noncomputable def generateCurve (period x y theta thetaDistance v vRef dtheta ddtheta dddtheta : ℝ) : Curve :=
  let k := v / vRef
  let g : Gen := ⟨k * dtheta, k * k * ddtheta, k * k * k * dddtheta⟩
  let (c, tEnd, _) := g.generate theta thetaDistance 0 0
  ⟨c, 0, tEnd, period, x, y, v⟩

/-- `slalom.rs:53-64` `SlalomParameters`. -/
structure Params where
  lStart : ℝ
  lEnd : ℝ
  xCurveEnd : ℝ
  yCurveEnd : ℝ
  theta : ℝ
  vRef : ℝ
  dtheta : ℝ
  ddtheta : ℝ
  dddtheta : ℝ

/-- `core::iter::Chain::next`: the first iterator until it yields nothing, from then on the second. -/
def chainNext {σ τ α : Type} (next1 : σ → Option α × σ) (next2 : τ → Option α × τ) :
    Option σ × τ → Option α × (Option σ × τ)
  | (none, b) => ((next2 b).1, none, (next2 b).2)
  | (some a, b) =>
    match next1 a with
    | (some x, a') => (some x, some a', b)
    | (none, _) => ((next2 b).1, none, (next2 b).2)

/-- `slalom.rs:81-82` `SlalomTrajectory`: straight, curve, straight shifted to the end of the curve. -/
abbrev SlalomState := Option (Option Straight × Curve) × Straight

/-- `next` of the same; `pose` is the pose of the shifted straight. -/
noncomputable def slalomNext (T : Trig) (pose : Detect.Pose) : SlalomState → Option Target × SlalomState :=
  chainNext (chainNext Straight.next (Curve.next T)) (shiftNext T pose Straight.next)

/-- `slalom.rs:103-107`, `138-142` the pose at the end of the curve. -/
def Params.curveEnd (p : Params) : Detect.Pose := ⟨p.xCurveEnd, p.yCurveEnd, p.theta⟩

/-- `slalom.rs:85-111` `generate_constant_slalom`. -/
noncomputable def constantSlalom (period : ℝ) (p : Params) (v : ℝ) : SlalomState :=
  let straight1 := straightConstant p.lStart v period
  let curve := generateCurve period p.lStart 0 0 p.theta v p.vRef p.dtheta p.ddtheta p.dddtheta
  let straight2 := straightConstant p.lEnd v period
  (some (some straight1, curve), straight2)

/-- `slalom.rs:113-149` `generate_slalom_with_terminal_velocity`. -/
noncomputable def slalomWithTerminal (g : Gen) (period : ℝ) (p : Params) (vStart vMiddle vEnd : ℝ) : SlalomState × ℝ :=
  let (start, middle) := straightGenerate g period p.lStart vStart vMiddle
  let curve := generateCurve period p.lStart 0 0 p.theta middle p.vRef p.dtheta p.ddtheta p.dddtheta
  let (finish, terminal) := straightGenerate g period p.lEnd middle vEnd
  ((some (some start, curve), finish), terminal)

/-- `Angle::new::<degree>`. -/
noncomputable def degree (d : ℝ) : ℝ := d * (Real.pi / 180)

/-- `slalom.rs:446-475` `create_params`; `.left` is index 0. -/
noncomputable def createParams (lStart lEnd xCurveEnd yCurveEnd vRef theta squareWidth : ℝ) (d : SlalomDirection) : Params :=
  let lStart := squareWidth * lStart
  let lEnd := squareWidth * lEnd
  let xCurveEnd := squareWidth * xCurveEnd
  let yCurveEnd := squareWidth * yCurveEnd
  let vRef := squareWidth * vRef
  let theta := degree theta
  let param y th : Params := ⟨lStart, lEnd, xCurveEnd, y, th, vRef, 3 * Real.pi, 36 * Real.pi, 1200 * Real.pi⟩
  match d with
  | .left => param yCurveEnd theta
  | .right => param (-yCurveEnd) (-theta)

open Classical in
/-- `slalom.rs:371-444` `SlalomConfig::new` and `477-495` `parameters`. -/
noncomputable def parameters (squareWidth searchFrontOffset : ℝ) (kind : SlalomKind) (d : SlalomDirection) : Params :=
  let o := searchFrontOffset / 0.09
  match kind with
  | .search90 =>
    if o ≤ 0.055555556 then
      createParams (0.055555567 - o) (0.055555556 + o) (0.5 - o) 0.44444445 2.6843333 90 squareWidth d
    else createParams 0 (o + o) (0.5 - o) (0.5 - o) ((0.5 - o) * 6.03975) 90 squareWidth d
  | .fastRun45 => createParams 0.1564414 0.3680321 0.739762 0.239762 3.3333333 45 squareWidth d
  | .fastRun45Rev => createParams 0.3635475 0.1564412 0.9500395 0.2429328 3.3333333 45 squareWidth d
  | .fastRun90 => createParams 0.22222222 0.22222222 1 0.7777778 4.697589 90 squareWidth d
  | .fastRun135 => createParams 0.24291888 0.15713444 0.6111111 0.8888889 3.928989 135 squareWidth d
  | .fastRun135Rev => createParams 0.15713444 0.24291888 0.52532303 0.88889056 3.928989 135 squareWidth d
  | .fastRun180 => createParams 0.26666668 0.26666668 0.26666668 1 4.5803113 180 squareWidth d
  | .fastRunDiagonal90 => createParams 0.17377333 0.17377333 0.70710665 0.53333336 3.2212 90 squareWidth d

/-- `wall.rs:32-55` `Pose::from_search_state`. -/
noncomputable def poseOfSearch (s : Search.SearchState) (squareWidth frontOffset : ℝ) : Detect.Pose :=
  let half := squareWidth / 2
  let x := ((s.coord.x : ℝ) + 1) * half
  let y := ((s.coord.y : ℝ) + 1) * half
  match s.posture with
  | .north => ⟨x, y + frontOffset, degree 90⟩
  | .south => ⟨x, y - frontOffset, degree (-90)⟩
  | .east => ⟨x + frontOffset, y, degree 0⟩
  | .west => ⟨x - frontOffset, y, degree 180⟩

/-- `wall.rs:57-74` `Pose::from_node`. -/
noncomputable def poseOfNode (n : Run.Node) (squareWidth : ℝ) : Detect.Pose where
  x := ((n.x + 1 : Nat) : ℝ) * squareWidth / 2
  y := ((n.y + 1 : Nat) : ℝ) * squareWidth / 2
  theta := degree (match n.posture with
    | .north => 90 | .northEast => 45 | .east => 0 | .southEast => -45
    | .south => -90 | .southWest => -135 | .west => 180 | .northWest => 135)

end Verif.Slalom
