import Verif.Model.Detect
import Mathlib.Analysis.SpecialFunctions.Trigonometric.Basic
/-!
# Model of `PoseConverter`, `mousecore2/src/wall.rs:222-470`

Exact real arithmetic (the control flow that depends on infinities and `nan` is kept); conversions to integers as in
Rust. Units are erased: metres and radians.
-/
namespace Verif.Convert
open Verif Verif.Search Verif.Detect

/-- `wall.rs:222-233` `PoseConverter` (the field `square_width_half` is never read and left out). -/
structure Converter where
  iSquareWidth : Int
  squareWidth : ℝ
  ignoreRadius : ℝ
  ignoreLength : ℝ
  p1 : ℝ
  p2 : ℝ
  n1 : ℝ
  n2 : ℝ

/-- `f32 as i32`: towards zero, saturating. -/
noncomputable def toI32 (v : ℝ) : Int := max (-2 ^ 31) (min (2 ^ 31 - 1) (if 0 ≤ v then ⌊v⌋ else ⌈v⌉))

/-- `wall.rs:268-289` `PoseConverter::new`. -/
noncomputable def Converter.new (squareWidth wallWidth ignoreRadius ignoreLength : ℝ) : Converter :=
  let p1 := squareWidth - wallWidth / 2
  let p2 := p1 + squareWidth
  let n1 := wallWidth / 2
  let n2 := n1 - squareWidth
  { iSquareWidth := toI32 (squareWidth * 1000), squareWidth, ignoreRadius, ignoreLength, p1, p2, n1, n2 }

/-- `wall.rs:235-265` `PoseConverter::default`. -/
noncomputable def Converter.default : Converter := .new (9 / 100) (6 / 1000) (1 / 100) (8 / 1000)

/-- `wall.rs:292-296` `remquof_with_width` (remainder, quotient). `i32` division is towards zero. -/
noncomputable def Converter.remquo (self : Converter) (val : ℝ) : ℝ × Int :=
  let quo := (toI32 (val * 1000)).tdiv self.iSquareWidth
  (val - ((quo * self.iSquareWidth : Int) : ℝ) * (1 / 1000), quo)

/-- `theta.get::<revolution>().rem_euclid(1.0)`. -/
noncomputable def revolution (theta : ℝ) : ℝ := Int.fract (theta / (2 * Real.pi))

/-- `wall.rs:302-322` the two pillars looked at. -/
noncomputable def Converter.pillars (self : Converter) (rot : ℝ) : (ℝ × ℝ) × (ℝ × ℝ) :=
  open Classical in
  if ¬ (1 / 8 ≤ rot ∧ rot ≤ 7 / 8) then ((self.squareWidth, 0), (self.squareWidth, self.squareWidth))
  else if rot < 3 / 8 then ((self.squareWidth, self.squareWidth), (0, self.squareWidth))
  else if rot < 5 / 8 then ((0, self.squareWidth), (0, 0))
  else ((0, 0), (self.squareWidth, 0))

/-- `wall.rs:300-332` `is_near_pillar`; the minimum starts from infinity. -/
def Converter.isNearPillar (self : Converter) (pose : Pose) : Prop :=
  let pillars := self.pillars (revolution pose.theta)
  let dist := fun (p : ℝ × ℝ) => |Real.sin pose.theta * (pose.x - p.1) - Real.cos pose.theta * (pose.y - p.2)|
  min (dist pillars.1) (dist pillars.2) < self.ignoreRadius

/-- `wall.rs:343-349` `Direction`. -/
inductive Dir where
  | right | left | top | bottom
  deriving DecidableEq, Repr

open Classical in
/-- `wall.rs:411-420` distance along the ray to the line at `line`, for the coordinate `rem` and the component `c` of the
direction; negative and `nan` become infinity. -/
noncomputable def axisDist (line rem c : ℝ) : F :=
  let dist := exact.div (.fin (line - rem)) (.fin c)
  if dist.lt (.fin 0) ∨ dist.isNan then .pinf else dist

open Classical in
/-- `wall.rs:375-423` the four lines and their distances. -/
noncomputable def Converter.axes (self : Converter) (rot xRem yRem cosTh sinTh : ℝ) : List (Dir × F) :=
  let X := fun line => axisDist line xRem cosTh
  let Y := fun line => axisDist line yRem sinTh
  if rot < 1 / 4 then
    [(.right, X self.p1), (.right, X self.p2), (.top, Y self.p1), (.top, Y self.p2)]
  else if rot < 1 / 2 then
    [(.left, X self.n1), (.left, X self.n2), (.top, Y self.p1), (.top, Y self.p2)]
  else if rot < 3 / 4 then
    [(.left, X self.n1), (.left, X self.n2), (.bottom, Y self.n1), (.bottom, Y self.n2)]
  else
    [(.right, X self.p1), (.right, X self.p2), (.bottom, Y self.n1), (.bottom, Y self.n2)]

/-- `i32 as u8`. -/
def asU8 (q : Int) : Nat := (q % 256).toNat

/-- `(q as u8) << 1`. -/
def shl1U8 (q : Int) : Nat := (asU8 q <<< 1) % 256

/-- `wall.rs:430-455` the wall in a direction. -/
def wallAt (W : Nat) (xQuo yQuo : Int) : Dir → Option Coord
  | .right => if xQuo < 0 ∨ yQuo < 0 then none else Coord.new W (shl1U8 xQuo ||| 1) (shl1U8 yQuo)
  | .left => if xQuo < 1 ∨ yQuo < 0 then none else Coord.new W (shl1U8 (xQuo - 1) ||| 1) (shl1U8 yQuo)
  | .top => if xQuo < 0 ∨ yQuo < 0 then none else Coord.new W (shl1U8 xQuo) (shl1U8 yQuo ||| 1)
  | .bottom => if xQuo < 0 ∨ yQuo < 1 then none else Coord.new W (shl1U8 xQuo) (shl1U8 (yQuo - 1) ||| 1)

open Classical in
/-- `wall.rs:336-469` `PoseConverter::convert`. The order in which `sort_unstable_by` leaves equal distances is not
specified, so the sort is a parameter. `axes_distance` always has four elements, so that the last case of the match
does not occur. -/
noncomputable def Converter.convert (self : Converter) (W : Nat) (sort : List (Dir × F) → List (Dir × F)) (pose : Pose) :
    Option WallInfo :=
  let (xRem, xQuo) := self.remquo pose.x
  let (yRem, yQuo) := self.remquo pose.y
  if self.isNearPillar ⟨xRem, yRem, pose.theta⟩ then none
  else if xRem ≤ self.n1 ∨ self.p1 ≤ xRem ∨ yRem ≤ self.n1 ∨ self.p1 ≤ yRem then none
  else
    match sort (self.axes (revolution pose.theta) xRem yRem (Real.cos pose.theta) (Real.sin pose.theta)) with
    | (dir, existing) :: (_, notExisting) :: _ =>
      match wallAt W xQuo yQuo dir with
      | none => none
      | some coord =>
        if existing.le (.fin self.ignoreLength) then none else some ⟨coord, existing, notExisting⟩
    | _ => none

end Verif.Convert
