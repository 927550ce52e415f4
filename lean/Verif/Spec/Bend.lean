import Verif.Spec.Journey
import Verif.Spec.Slalom
import Verif.Model.SingleSlalom
/-!
# Specification of slaloms in floating point arithmetic
-/
namespace Verif.Spec
open Verif Verif.Single Verif.Binary32

/-- A library whose sines and cosines of numbers are numbers and hardly beyond one. -/
structure Circular (L : Lib) : Prop where
  sin : ∀ r : ℝ, Bd 1.01 (L.sin (.fin r))
  cos : ∀ r : ℝ, Bd 1.01 (L.cos (.fin r))

/-- A period from half a millisecond to a second. -/
structure Brief (p : ℝ) : Prop where
  low : 1 / 2 ^ 11 ≤ p
  high : p ≤ 1

/-- Limits of a rotation that a curve can be driven with: from 1 to 36 rad/s, at most 1700 rad/s². -/
structure Swings (V a j : ℝ) (g : Gen) : Prop where
  fit : Fit V a j g
  low : 1 ≤ V
  high : V ≤ 36
  acc : a ≤ 1700

/-- A target of moderate size: within 300 m, at most 16 m/s, and so on. -/
structure Tame (t : Target) : Prop where
  x : BdAxis 300 16 490 27200 t.x
  y : BdAxis 300 16 490 27200 t.y
  theta : BdAxis 740 102 2600 300000 t.theta

/-- The parameters of a slalom: the rotation of `slalom.rs:337-353` (up to rounding), a turn from half a radian to four, lengths within ten
metres. -/
structure Formed (vRef : ℝ) (q : Outline) : Prop where
  vRef : q.vRef = .fin vRef
  dtheta : ∃ r : ℝ, q.dtheta = .fin r ∧ 9.4 ≤ r ∧ r ≤ 9.45
  ddtheta : ∃ r : ℝ, q.ddtheta = .fin r ∧ 113 ≤ r ∧ r ≤ 113.2
  dddtheta : ∃ r : ℝ, q.dddtheta = .fin r ∧ 3769 ≤ r ∧ r ≤ 3771
  theta : ∃ r : ℝ, q.theta = .fin r ∧ 0.5 ≤ |r| ∧ |r| ≤ 4
  lStart : ∃ r : ℝ, q.lStart = .fin r ∧ 0 ≤ r ∧ r ≤ 10
  lEnd : ∃ r : ℝ, q.lEnd = .fin r ∧ 0 ≤ r ∧ r ≤ 10
  xCurveEnd : Bd 10 q.xCurveEnd
  yCurveEnd : Bd 10 q.yCurveEnd

/-- A speed for its curve: at most 2 m/s and from 13 % to 379 % of the speed the curve was designed for. -/
structure Suitable (vRef v : ℝ) : Prop where
  ref : 0 < vRef
  low : 1 / 2 ^ 6 ≤ v
  high : v ≤ 2
  slow : 0.13 * vRef ≤ v
  fast : v ≤ 3.79 * vRef

/-- Two positions that are finite and at most `d` apart. -/
def Close (d : ℝ) (x y : F) : Prop := ∃ a b : ℝ, x = .fin a ∧ y = .fin b ∧ |b - a| ≤ d

/-- The targets of a curve with the headings of `c`, driven from `(x, y)` with speed `w`: the first one is where the curve starts; the
heading of each is that of `c` at its time; none is faster than the speed, up to 3 %; from one to the next the position changes by no more than the
speed allows, up to 6 % and a rounding; all are of moderate size. -/
structure Curving (A : Arith) (c : Overall) (x y : F) (w p : ℝ) (l : List Target) : Prop where
  first : ∃ t, l[0]? = some t ∧ t.x.x = x ∧ t.y.x = y
  heading : ∀ (k : ℕ) (t : Target), l[k]? = some t → t.theta = c.calculate A (ticks A (.fin p) k)
  speed : ∀ t ∈ l, Bd (1.03 * |w| + 0.002) t.x.v ∧ Bd (1.03 * |w| + 0.002) t.y.v
  steps : ∀ (k : ℕ) (t t' : Target), l[k]? = some t → l[k + 1]? = some t' →
    Close ((1.06 * |w| + 0.04) * p) t.x.x t'.x.x ∧ Close ((1.06 * |w| + 0.04) * p) t.y.x t'.y.x
  tame : ∀ t ∈ l, Tame t

/-- Limits of the straight parts of a slalom: at most 5 m/s, 300 m/s² and 20000 m/s³. -/
structure Paced (v a j : ℝ) (g : Gen) : Prop where
  fit : Fit v a j g
  vel : v ≤ 5
  acc : a ≤ 300
  jerk : j ≤ 20000

/-- The targets of a straight along the axis `x`: they neither turn nor leave the axis, and are of moderate size. -/
structure Aligned (l : List Target) : Prop where
  axis : ∀ t ∈ l, t.y = .zero ∧ t.theta = .zero
  size : ∀ t ∈ l, BdAxis 240 14.4 466 22100 t.x

/-! ## Real numbers as floating point numbers -/

def bendOf (c : Slalom.Curve) : Bend := ⟨overallOf c.calculator, ⟨.fin c.t, c.tEnd, .fin c.period⟩, .fin c.x, .fin c.y, .fin c.v⟩

def shapeOf (q : Slalom.Params) : Outline :=
  ⟨.fin q.lStart, .fin q.lEnd, .fin q.xCurveEnd, .fin q.yCurveEnd, .fin q.theta, .fin q.vRef, .fin q.dtheta, .fin q.ddtheta, .fin q.dddtheta⟩

end Verif.Spec
