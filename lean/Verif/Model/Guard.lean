import Verif.Model.Single
import Verif.Model.Control
/-!
# The supervisor of `mousecore2/src/control.rs` in floating point arithmetic

`Supervisor` of `Verif.Model.Control` once more, for any arithmetic, in the order of the code. The conversion to millimetres
(of the crate `uom`, not in `/repo`), `atan2` and the largest `usize` are those of the platform at hand.
-/
namespace Verif.Single
open Verif

/-- The library together with what else depends on the platform. -/
structure Platform extends Lib where
  /-- `f32::atan2(y, x)` -/
  atan2 : F → F → F
  /-- `Length::get::<millimeter>()` -/
  mm : F → F
  /-- `usize::MAX` -/
  top : Nat

/-- `control.rs:290-296` `SupervisoryController`. -/
structure Supervisor where
  margin : F
  avoidance : F
  squareWidth : F

/-- `f32 as usize`: towards zero, negative values and what is not a number give 0, large values the largest one. -/
noncomputable def asUsize (top : Nat) : F → Nat
  | .nan => 0
  | .ninf => 0
  | .pinf => top
  | .fin v => min ⌊v⌋₊ top

/-- `control.rs:283-288` `remquof`; a zero divisor panics. -/
noncomputable def remquof (A : Arith) (L : Platform) (value base : F) : R (Int × F) :=
  let iwidth := asUsize L.top (L.mm base)
  let ivalue := asUsize L.top (L.mm value)
  if iwidth = 0 then .error .assert
  else
    let div := ivalue / iwidth
    .ok (Control.wrapI8 div, A.sub value (A.mul base (A.rnd div)))

/-- `control.rs:343-348` the position of a pillar. -/
noncomputable def Supervisor.place (A : Arith) (self : Supervisor) (p : Int × Int) : R (F × F) := do
  let px ← Control.addI8 p.1 1
  let py ← Control.addI8 p.2 1
  return (A.mul (A.rnd px) self.squareWidth, A.mul (A.rnd py) self.squareWidth)

open Classical in
/-- `control.rs:325-349` `nearest_pillars`, with all sums at the start as in `Verif.Model.Control`. -/
noncomputable def Supervisor.nearestPillars (A : Arith) (L : Platform) (self : Supervisor) (x y : F) : R (List (F × F)) := do
  let (dx, rx) ← remquof A L x self.squareWidth
  let (dy, ry) ← remquof A L y self.squareWidth
  let dx1 ← Control.addI8 dx 1
  let dy1 ← Control.addI8 dy 1
  let two ←
    if rx.lt ry then
      if (A.sub self.squareWidth rx).lt ry then do let dy2 ← Control.addI8 dy 2; pure [(dx, dy2), (dx1, dy2)]
      else do let dxm ← Control.addI8 dx (-1); pure [(dxm, dy), (dxm, dy1)]
    else
      if (A.sub self.squareWidth rx).lt ry then do let dx2 ← Control.addI8 dx 2; pure [(dx2, dy), (dx2, dy1)]
      else do let dym ← Control.addI8 dy (-1); pure [(dx, dym), (dx1, dym)]
  ([(dx, dy), (dx1, dy), (dx, dy1), (dx1, dy1)] ++ two).mapM (self.place A)

/-- `control.rs:300-315` the constraint of a pillar: `a1 ux + a2 uy + b ≥ 0`. -/
noncomputable def Supervisor.constraint (A : Arith) (self : Supervisor) (s : State) (p : F × F) : F × F × F :=
  let ex := A.sub s.x.x p.1
  let ey := A.sub s.y.x p.2
  let bPart := A.mul (.fin 2) (A.add (A.mul s.x.v s.x.v) (A.mul s.y.v s.y.v))
  let near := A.mul (A.mul (.fin 4) self.margin) (A.add (A.mul ex s.x.v) (A.mul ey s.y.v))
  let far := A.mul (A.mul self.margin self.margin)
    (A.sub (A.add (A.mul ex ex) (A.mul ey ey)) (A.mul self.avoidance self.avoidance))
  (A.mul (.fin 2) ex, A.mul (.fin 2) ey, A.add (A.add bPart near) far)

/-- `control.rs:317-318` what is compared. -/
noncomputable def key (A : Arith) (i : Input) (c : F × F × F) : F := A.add (A.add (A.mul c.1 i.ux) (A.mul c.2.1 i.uy)) c.2.2

open Classical in
/-- `control.rs:316-321`: `Iterator::min_by` with the comparison of the code, which panics on what is not a number. -/
noncomputable def pick (A : Arith) (i : Input) : List (F × F × F) → R (F × F × F)
  | [] => .error .unwrapNone
  | c :: l => l.foldlM (fun m c => if (key A i m).isNan ∨ (key A i c).isNan then .error .unwrapNone
      else if (key A i c).lt (key A i m) then .ok c else .ok m) c

/-- `control.rs:364-371`, and with the axes exchanged `372-379`: the new acceleration along the first axis and along the second. -/
noncomputable def solve (A : Arith) (a1 a2 b u1 u2 : F) : F × F :=
  let a := A.div a1.neg a2
  let b := A.div b.neg a2
  let c1 := A.add (A.mul a a) (.fin 1)
  let c2 := A.mul (.fin 2) (A.sub (A.sub (A.mul a b) u1) (A.mul a u2))
  let v1 := A.div c2.neg (A.mul (.fin 2) c1)
  let v2 := A.add (A.mul a v1) b
  (v1, v2)

/-- `control.rs:386` `to_polar`. -/
noncomputable def toPolar (A : Arith) (L : Platform) (x y : F) : F × F :=
  (L.sqrt (A.add (A.mul x x) (A.mul y y)), L.atan2 y x)

/-- `control.rs:387-393` the new jerk: the old one turned and scaled as the acceleration. -/
noncomputable def newJerk (A : Arith) (L : Platform) (i : Input) (ux2 uy2 : F) : F × F :=
  let (r, t) := toPolar A L i.ux i.uy
  let (r2, t2) := toPolar A L ux2 uy2
  let (dr, dt) := toPolar A L i.dux i.duy
  let dr2 := A.div (A.mul dr r2) r
  let dt2 := A.sub (A.add dt t2) t
  (A.mul dr2 (L.cos dt2), A.mul dr2 (L.sin dt2))

open Classical in
/-- `control.rs:351-401` `apply_constraints`. -/
noncomputable def applyConstraints (A : Arith) (L : Platform) (i : Input) (a1 a2 b : F) : R Input :=
  if a1.isNan ∨ a2.isNan ∨ b.isNan then .error .assert
  else if (F.fin 0).le (key A i (a1, a2, b)) then .ok i
  else do
    let (ux2, uy2) ←
      if a2 ≠ .fin 0 then pure (solve A a1 a2 b i.ux i.uy)
      else if a1 ≠ .fin 0 then pure (let (uy2, ux2) := solve A a2 a1 b i.uy i.ux; (ux2, uy2))
      else .error .unreachable
    if ux2.isNan ∨ uy2.isNan then .error .assert
    else
      let (dux, duy) := newJerk A L i ux2 uy2
      return ⟨ux2, uy2, dux, duy⟩

/-- `control.rs:299-323` `supervise`. -/
noncomputable def Supervisor.supervise (A : Arith) (L : Platform) (self : Supervisor) (i : Input) (s : State) : R Input := do
  let pillars ← self.nearestPillars A L s.x.x s.y.x
  let (a1, a2, b) ← pick A i (pillars.map (self.constraint A s))
  applyConstraints A L i a1 a2 b

end Verif.Single
