import Verif.Spec.Single
import Verif.Spec.Straight
import Verif.Spec.Clock
import Verif.Model.SingleStraight
/-!
# Specification of straight trajectories in floating point arithmetic
-/
namespace Verif.Spec
open Verif Verif.Single Verif.Binary32

/-- A library with a square root that is roughly right: never negative, never more than a fifth too large (and a little more for the root
of zero). A correctly rounded root is such, and a rough approximation may be. -/
def Rooted (L : Lib) : Prop := ∀ r : ℝ, 0 ≤ r → ∃ s : ℝ, L.sqrt (.fin r) = .fin s ∧ 0 ≤ s ∧ s ≤ 1.2 * √r + 1 / 2 ^ 40

/-- Roots are not less than half of what they should be. -/
def HalfRooted (L : Lib) : Prop := ∀ r s : ℝ, 0 ≤ r → L.sqrt (.fin r) = .fin s → √r / 2 ≤ s

/-- Limits of velocity, acceleration and jerk of moderate size: the largest velocity is reached within a few seconds. -/
structure Fit (v a j : ℝ) (g : Gen) : Prop where
  vMax : g.vMax = .fin v
  aMax : g.aMax = .fin a
  jMax : g.jMax = .fin j
  f32 : round24 v = v
  vel : 1 / 2 ^ 8 ≤ v ∧ v ≤ 2 ^ 8
  acc : v / 2 ≤ a ∧ a ≤ 2 ^ 14
  jerk : 2 * v ≤ j ∧ j ≤ 2 ^ 18

/-- A velocity that a trajectory can start or end with. -/
structure Pace (v u : ℝ) : Prop where
  f32 : round24 u = u
  low : 0 ≤ u
  high : u ≤ v

/-- A finite number of at most `c`. -/
def Bd (c : ℝ) (x : F) : Prop := ∃ r : ℝ, x = .fin r ∧ |r| ≤ c

/-- An axis of bounded size. -/
structure BdAxis (x v a j : ℝ) (t : Axis) : Prop where
  x : Bd x t.x
  v : Bd v t.v
  a : Bd a t.a
  j : Bd j t.j

/-- What a trajectory of one axis hands out: nothing but targets of the times of the clock, one for each of the first `N`. -/
def HandsOut (A : Arith) (next : Journey → Option Target × Journey) (s : Journey) (p : F) (N : ℕ) (target : F → Target) : Prop :=
  ∀ n, outputs next n s = (List.range n).map fun k => if k < N then some (target (ticks A p k)) else none

/-- A target of a straight or spin trajectory with limits like those of a mouse (at most 5 m/s, 300 m/s², 29000 m/s³ over at most 100 m; at
most 36 rad/s over at most 8 rad), shifted to a pose within 250 m and 250 rad. -/
inductive Steered (A : Arith) (L : Lib) : Target → Prop
  | straight {v a j x y D px py pt t : ℝ} {g : Gen} (limits : Fit v a j g) (v5 : v ≤ 5) (a300 : a ≤ 300) (j29 : j ≤ 29000)
      (first : Pace v x) (last : Pace v y) (short : v / 2 ^ 14 ≤ |D|) (long : |D| ≤ 100) (hx : |px| ≤ 250) (hy : |py| ≤ 250) (ht : |pt| ≤ 250) :
      Steered A L (shift A L (.fin px) (.fin py) (.fin pt)
        ⟨(g.generate A L (.fin 0) (.fin D) (.fin x) (.fin y)).1.calculate A (.fin t), .zero, .zero⟩)
  | spin {v a j D px py pt t : ℝ} {g : Gen} (limits : Fit v a j g) (v36 : v ≤ 36)
      (short : v / 2 ^ 14 ≤ |D|) (long : |D| ≤ 8) (hx : |px| ≤ 250) (hy : |py| ≤ 250) (ht : |pt| ≤ 250) :
      Steered A L (shift A L (.fin px) (.fin py) (.fin pt)
        ⟨.zero, .zero, (g.generate A L (.fin 0) (.fin D) (.fin 0) (.fin 0)).1.calculate A (.fin t)⟩)

/-! ## Real numbers as floating point numbers -/

def genOf (g : Straight.Gen) : Single.Gen := ⟨.fin g.vMax, .fin g.aMax, .fin g.jMax⟩

def accOf (c : Straight.AccCalc) : Single.AccCalc :=
  ⟨.fin c.xStart, .fin c.vStart, .fin c.xEnd, .fin c.vEnd, .fin c.aM, .fin c.jM, .fin c.t1, .fin c.t2, .fin c.t3⟩

def constOf (c : Straight.ConstCalc) : Single.ConstCalc := ⟨c.tEnd, .fin c.xStart, .fin c.v⟩

def overallOf (c : Straight.Overall) : Single.Overall :=
  ⟨.fin c.xStart, .fin c.vStart, .fin c.t1, c.t2, c.t3, .fin c.distance, .fin c.vEnd, accOf c.accel, constOf c.const, accOf c.decel, .fin c.sign⟩

end Verif.Spec
