import Verif.Spec.Convert
import Verif.Model.SingleConvert
/-!
# Specification of the pose converter in single precision: rays in a grid of rooms, up to a tolerance
-/
namespace Verif.Spec
open Verif Verif.Convert Verif.Single

/-- The point lies on this side of the box, up to `τ`. -/
def Box.nearSide (b : Box) (τ : ℝ) (q : ℝ × ℝ) : Dir → Prop
  | .right => |q.1 - b.x1| ≤ τ ∧ b.y0 - τ ≤ q.2 ∧ q.2 ≤ b.y1 + τ
  | .left => |q.1 - b.x0| ≤ τ ∧ b.y0 - τ ≤ q.2 ∧ q.2 ≤ b.y1 + τ
  | .top => |q.2 - b.y1| ≤ τ ∧ b.x0 - τ ≤ q.1 ∧ q.1 ≤ b.x1 + τ
  | .bottom => |q.2 - b.y0| ≤ τ ∧ b.x0 - τ ≤ q.1 ∧ q.1 ≤ b.x1 + τ

/-- The box with all sides moved outwards by `τ`. -/
def Box.grow (b : Box) (τ : ℝ) : Box := ⟨b.x0 - τ, b.x1 + τ, b.y0 - τ, b.y1 + τ⟩

/-- The sine and the cosine of the library at the angle `θ` are right up to `ε`. -/
def TrigNear (L : Lib) (ε θ : ℝ) : Prop :=
  ∃ s c, L.sin (.fin θ) = .fin s ∧ L.cos (.fin θ) = .fin c ∧ |s - Real.sin θ| ≤ ε ∧ |c - Real.cos θ| ≤ ε

/-- The robot looks towards a side, clearly less than 45 degrees away from its normal. -/
def LooksWell (p : Detect.Pose) : Dir → Prop
  | .right => |Real.sin p.theta| + 1 / 10000 < Real.cos p.theta
  | .left => |Real.sin p.theta| + 1 / 10000 < -Real.cos p.theta
  | .top => |Real.cos p.theta| + 1 / 10000 < Real.sin p.theta
  | .bottom => |Real.cos p.theta| + 1 / 10000 < -Real.sin p.theta

end Verif.Spec
