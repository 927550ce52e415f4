import Verif.Model.Guard
import Verif.Spec.Single
import Verif.Props.Binary32
/-!
# Specification of the supervisor in floating point arithmetic
-/
namespace Verif.Spec
open Verif Verif.Single Verif.Binary32 Verif.Props

/-- A platform whose functions are roughly right: roots to a factor of 2, angles of at most 4, millimetres to a thousandth, and
a `usize` of at least 16 bits. -/
structure SoundPlatform (L : Platform) : Prop extends Fair L.toLib where
  root : ∀ (k : ℤ) (r : ℝ), 0 ≤ r → r ≤ 2 ^ (2 * k) → ∃ s : ℝ, L.sqrt (.fin r) = .fin s ∧ |s| ≤ 2 ^ (k + 1)
  rootLow : ∀ (k : ℤ) (r : ℝ), 2 ^ (2 * k) ≤ r → ∃ s : ℝ, L.sqrt (.fin r) = .fin s ∧ 2 ^ (k - 1) ≤ |s|
  atan2 : ∀ y x : ℝ, Mag 2 (L.atan2 (.fin y) (.fin x))
  mm : ∀ r : ℝ, ∃ m : ℝ, L.mm (.fin r) = .fin m ∧ |m - 1000 * r| ≤ |r|
  top : 2 ^ 16 - 1 ≤ L.top

/-- Settings of the supervisor: squares from 1/32 m to 1/4 m, a margin of at most 256 Hz, an avoidance distance of at most a metre. -/
structure Reasonable (w : ℝ) (g : Supervisor) : Prop where
  width : g.squareWidth = .fin w
  low : 1 / 2 ^ 5 ≤ w
  high : w ≤ 1 / 4
  margin : Mag 8 g.margin
  avoidance : Mag 0 g.avoidance

/-- A coordinate of a robot in the maze: not on the line of the outer border, at most 8 m and at most 100 squares away from it. -/
structure WithinMaze (w x : ℝ) : Prop where
  f32 : IsF32 x
  low : 1 / 2 ^ 6 ≤ x
  high : x ≤ 100 * w
  far : x ≤ 8

/-- A robot in the maze with at most 64 m/s along each axis. -/
structure Stands (w x y : ℝ) (s : State) : Prop where
  atx : s.x.x = .fin x
  aty : s.y.x = .fin y
  inx : WithinMaze w x
  iny : WithinMaze w y
  vx : Mag 6 s.x.v
  vy : Mag 6 s.y.v

/-- What is asked of the supervisor: accelerations below 10^6 m/s², jerks below 6 * 10^7 m/s³. -/
structure Asked (i : Input) : Prop where
  ux : Mag 20 i.ux
  uy : Mag 20 i.uy
  dux : Mag 26 i.dux
  duy : Mag 26 i.duy

/-- The place of a pillar as it is computed. -/
def OnPillar (w x y : ℝ) : Prop := ∃ n m : ℕ, x = round24 (n * w) ∧ y = round24 (m * w)

/-- The real functions as a platform. -/
noncomputable def platformOf (T : Control.Trig) (pi : ℝ) (top : ℕ) : Platform where
  toLib := libOf T pi
  atan2 | .fin y, .fin x => .fin (Complex.arg ⟨x, y⟩) | _, _ => .nan
  mm | .fin r => .fin (r * 1000) | _ => .nan
  top := top

def supervisorOf (g : Control.Supervisor) : Supervisor := ⟨.fin g.margin, .fin g.avoidance, .fin g.squareWidth⟩
def supervisedOf (o : Control.Supervised) : Input := ⟨.fin o.ux, .fin o.uy, o.dux, o.duy⟩

end Verif.Spec
