import Verif.Model.Convert
/-!
# Specification of the pose converter: rays in a grid of rooms
-/
namespace Verif.Spec
open Verif Verif.Search Verif.Detect Verif.Convert

/-- The point at distance `t` along the ray of a pose. -/
noncomputable def ray (p : Pose) (t : ℝ) : ℝ × ℝ := (p.x + t * Real.cos p.theta, p.y + t * Real.sin p.theta)

structure Box where
  x0 : ℝ
  x1 : ℝ
  y0 : ℝ
  y1 : ℝ

def Box.inside (b : Box) (q : ℝ × ℝ) : Prop := (b.x0 < q.1 ∧ q.1 < b.x1) ∧ (b.y0 < q.2 ∧ q.2 < b.y1)

/-- The ray of `p` leaves the box at distance `a`. -/
def LeavesAt (b : Box) (p : Pose) (a : ℝ) : Prop :=
  0 ≤ a ∧ (∀ t, 0 ≤ t → t < a → b.inside (ray p t)) ∧ ¬ b.inside (ray p a)

/-- The free space of the cell `(i, j)`: the cell without the halves of the walls around it. -/
noncomputable def room (sw ww : ℝ) (i j : Int) : Box := ⟨i * sw + ww / 2, (i + 1) * sw - ww / 2, j * sw + ww / 2, (j + 1) * sw - ww / 2⟩

/-- The box extended by one cell beyond one of its sides. -/
def Box.extend (b : Box) (sw : ℝ) : Dir → Box
  | .right => { b with x1 := b.x1 + sw }
  | .left => { b with x0 := b.x0 - sw }
  | .top => { b with y1 := b.y1 + sw }
  | .bottom => { b with y0 := b.y0 - sw }

/-- The point lies on this side of the box. -/
def Box.onSide (b : Box) (q : ℝ × ℝ) : Dir → Prop
  | .right => q.1 = b.x1 ∧ b.y0 ≤ q.2 ∧ q.2 ≤ b.y1
  | .left => q.1 = b.x0 ∧ b.y0 ≤ q.2 ∧ q.2 ≤ b.y1
  | .top => q.2 = b.y1 ∧ b.x0 ≤ q.1 ∧ q.1 ≤ b.x1
  | .bottom => q.2 = b.y0 ∧ b.x0 ≤ q.1 ∧ q.1 ≤ b.x1

/-- Coordinates, on the doubled grid, of the wall on a side of the cell `(i, j)`. -/
def sideOf (i j : Int) : Dir → Int × Int
  | .right => (2 * i + 1, 2 * j)
  | .left => (2 * i - 1, 2 * j)
  | .top => (2 * i, 2 * j + 1)
  | .bottom => (2 * i, 2 * j - 1)

/-- Any way of sorting by distance. -/
def Sorts (sort : List (Dir × F) → List (Dir × F)) : Prop :=
  ∀ l, (∀ e ∈ l, e.2 ≠ .nan) → (sort l).Perm l ∧ (sort l).Pairwise (fun a b => a.2.le b.2)

/-- The position `v` lies in the cell number `i` along one axis. -/
def InCell (sw v : ℝ) (i : Int) : Prop := i * sw ≤ v ∧ v < (i + 1) * sw

/-- Distance of the line through the ray of `p` from a point. -/
noncomputable def lineDist (p : Pose) (q : ℝ × ℝ) : ℝ :=
  |Real.sin p.theta * (p.x - q.1) - Real.cos p.theta * (p.y - q.2)|

/-- The robot looks towards a side, less than 45 degrees away from its normal. -/
def Looks (p : Pose) : Dir → Prop
  | .right => |Real.sin p.theta| < Real.cos p.theta
  | .left => |Real.sin p.theta| < -Real.cos p.theta
  | .top => |Real.cos p.theta| < Real.sin p.theta
  | .bottom => |Real.cos p.theta| < -Real.sin p.theta

/-- The two pillars at the ends of a side of the cell `(i, j)`. -/
def pillarsAt (sw : ℝ) (i j : Int) : Dir → ℝ × ℝ → Prop
  | .right, q => q.1 = (i + 1) * sw ∧ (q.2 = j * sw ∨ q.2 = (j + 1) * sw)
  | .left, q => q.1 = i * sw ∧ (q.2 = j * sw ∨ q.2 = (j + 1) * sw)
  | .top, q => q.2 = (j + 1) * sw ∧ (q.1 = i * sw ∨ q.1 = (i + 1) * sw)
  | .bottom, q => q.2 = j * sw ∧ (q.1 = i * sw ∨ q.1 = (i + 1) * sw)

/-- The width of a cell is `k` millimetres, at most a kilometre. -/
def Width (sw : ℝ) (k : Int) : Prop := sw = k / 1000 ∧ 0 < k ∧ k ≤ 1000000

end Verif.Spec
