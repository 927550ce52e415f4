import Verif.Model.Convert
import Verif.Model.Single
/-!
# Model of `PoseConverter`, `mousecore2/src/wall.rs:222-470`, in floating point arithmetic

The counterpart of `Verif.Model.Convert`: every operation is rounded, infinities and `nan` take the paths they take in
the source. `wallAt` (integers only) and `Dir` are shared with that model. The code is that of a release build: the two
`debug_assert!` of `wall.rs:353-354` are left out. The angle in revolutions (`uom`, `get::<revolution>`) is taken to be
the angle divided by the nearest number to 2π.
-/
namespace Verif.Single
open Verif Verif.Search Verif.Detect Verif.Convert

/-- `f32 as i32`: towards zero, saturating; `nan` becomes zero. -/
noncomputable def asI32 : F → Int
  | .nan => 0
  | .ninf => -2 ^ 31
  | .pinf => 2 ^ 31 - 1
  | .fin r => toI32 r

/-- `wall.rs:222-233` `PoseConverter` (the field `square_width_half` is never read and left out). -/
structure Finder where
  iSquareWidth : Int
  squareWidth : F
  ignoreRadius : F
  ignoreLength : F
  p1 : F
  p2 : F
  n1 : F
  n2 : F

/-- `wall.rs:268-289` `PoseConverter::new`. -/
noncomputable def Finder.new (A : Arith) (squareWidth wallWidth ignoreRadius ignoreLength : F) : Finder :=
  let p1 := A.sub squareWidth (A.div wallWidth (.fin 2))
  let p2 := A.add p1 squareWidth
  let n1 := A.div wallWidth (.fin 2)
  let n2 := A.sub n1 squareWidth
  { iSquareWidth := asI32 (A.mul squareWidth (.fin 1000)), squareWidth, ignoreRadius, ignoreLength, p1, p2, n1, n2 }

/-- `wall.rs:235-265` `PoseConverter::default`. -/
noncomputable def Finder.default (A : Arith) : Finder :=
  .new A (A.rnd (9 / 100)) (A.rnd (6 / 1000)) (A.rnd (1 / 100)) (A.rnd (8 / 1000))

/-- `wall.rs:292-296` `remquof_with_width` (remainder, quotient). -/
noncomputable def Finder.remquo (A : Arith) (self : Finder) (val : F) : F × Int :=
  let quo := (asI32 (A.mul val (.fin 1000))).tdiv self.iSquareWidth
  (A.sub val (A.mul (A.rnd ((quo * self.iSquareWidth : Int) : ℝ)) (A.rnd (1 / 1000))), quo)

/-- `theta.get::<revolution>().rem_euclid(1.0)`, `wall.rs:301` and `:373`. -/
noncomputable def rotation (A : Arith) (theta : F) : F := remEuclid A (A.div theta (A.rnd (2 * Real.pi))) 1

open Classical in
/-- `wall.rs:302-322` the two pillars looked at. -/
noncomputable def Finder.pillars (self : Finder) (rot : F) : (F × F) × (F × F) :=
  if ¬ ((F.fin (1 / 8)).le rot ∧ rot.le (.fin (7 / 8))) then ((self.squareWidth, .fin 0), (self.squareWidth, self.squareWidth))
  else if rot.lt (.fin (3 / 8)) then ((self.squareWidth, self.squareWidth), (.fin 0, self.squareWidth))
  else if rot.lt (.fin (5 / 8)) then ((.fin 0, self.squareWidth), (.fin 0, .fin 0))
  else ((.fin 0, .fin 0), (self.squareWidth, .fin 0))

open Classical in
/-- `f32::min`: a `nan` is ignored. -/
noncomputable def fmin (m v : F) : F := if v.isNan then m else if m.isNan then v else if v.lt m then v else m

/-- `wall.rs:300-332` `is_near_pillar`. -/
def Finder.isNearPillar (A : Arith) (L : Lib) (self : Finder) (x y theta : F) : Prop :=
  let pillars := self.pillars (rotation A theta)
  let dist := fun (p : F × F) => (A.sub (A.mul (L.sin theta) (A.sub x p.1)) (A.mul (L.cos theta) (A.sub y p.2))).abs
  (fmin (fmin .pinf (dist pillars.1)) (dist pillars.2)).lt self.ignoreRadius

open Classical in
/-- `wall.rs:408-421` distance along the ray to the line at `line`; negative and `nan` become infinity. -/
noncomputable def lineAt (A : Arith) (line rem c : F) : F :=
  let dist := A.div (A.sub line rem) c
  if dist.lt (.fin 0) ∨ dist.isNan then .pinf else dist

open Classical in
/-- `wall.rs:375-423` the four lines and their distances. -/
noncomputable def Finder.axes (A : Arith) (self : Finder) (rot xRem yRem cosTh sinTh : F) : List (Dir × F) :=
  let X := fun line => lineAt A line xRem cosTh
  let Y := fun line => lineAt A line yRem sinTh
  if rot.lt (.fin (1 / 4)) then
    [(.right, X self.p1), (.right, X self.p2), (.top, Y self.p1), (.top, Y self.p2)]
  else if rot.lt (.fin (1 / 2)) then
    [(.left, X self.n1), (.left, X self.n2), (.top, Y self.p1), (.top, Y self.p2)]
  else if rot.lt (.fin (3 / 4)) then
    [(.left, X self.n1), (.left, X self.n2), (.bottom, Y self.n1), (.bottom, Y self.n2)]
  else
    [(.right, X self.p1), (.right, X self.p2), (.bottom, Y self.n1), (.bottom, Y self.n2)]

open Classical in
/-- `wall.rs:336-469` `PoseConverter::convert`; the sort is a parameter, as in `Verif.Convert.Converter.convert`. -/
noncomputable def Finder.convert (A : Arith) (L : Lib) (self : Finder) (W : Nat) (sort : List (Dir × F) → List (Dir × F))
    (x y theta : F) : Option WallInfo :=
  let (xRem, xQuo) := self.remquo A x
  let (yRem, yQuo) := self.remquo A y
  if self.isNearPillar A L xRem yRem theta then none
  else if xRem.le self.n1 ∨ self.p1.le xRem ∨ yRem.le self.n1 ∨ self.p1.le yRem then none
  else
    match sort (self.axes A (rotation A theta) xRem yRem (L.cos theta) (L.sin theta)) with
    | (dir, existing) :: (_, notExisting) :: _ =>
      match wallAt W xQuo yQuo dir with
      | none => none
      | some coord =>
        if existing.le self.ignoreLength then none else some ⟨coord, existing, notExisting⟩
    | _ => none

end Verif.Single
