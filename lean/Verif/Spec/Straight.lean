import Verif.Model.Straight
/-!
# Specification of straight trajectories
-/
namespace Verif.Spec
open Verif Verif.Control Verif.Straight

/-- Positive limits and velocities within them. -/
structure Request (g : Gen) (vStart vEnd : ℝ) : Prop where
  v : 0 < g.vMax
  a : 0 < g.aMax
  j : 0 < g.jMax
  start0 : 0 ≤ vStart
  start1 : vStart ≤ g.vMax
  end0 : 0 ≤ vEnd
  end1 : vEnd ≤ g.vMax

open Classical in
/-- Time for changing the speed by `dv` with acceleration up to `a` and jerk up to `j`, both zero acceleration at the ends. -/
noncomputable def rampTime (a j dv : ℝ) : ℝ := if a ^ 2 / j ≤ dv then dv / a + a / j else 2 * Real.sqrt (dv / j)

/-- Distance covered in the meantime: mean speed times time. -/
noncomputable def rampDist (g : Gen) (v v' : ℝ) : ℝ := (v + v') / 2 * rampTime g.aMax g.jMax |v' - v|

/-- Resolution of the search for the velocity. -/
noncomputable def resolution (width : ℝ) : ℝ := width / 2 ^ 25

/-- Direction of a request. -/
noncomputable def direction (distance : ℝ) : ℝ := open Classical in if distance < 0 then -1 else 1

/-- What the first `n` calls of an iterator return. -/
def outputs {σ α : Type} (next : σ → Option α × σ) : Nat → σ → List (Option α)
  | 0, _ => []
  | n + 1, s => (next s).1 :: outputs next n (next s).2

/-! ## Rigid motions -/

/-- A vector turned by an angle. -/
noncomputable def rotate (θ : ℝ) (u : ℝ × ℝ) : ℝ × ℝ :=
  (u.1 * Real.cos θ - u.2 * Real.sin θ, u.1 * Real.sin θ + u.2 * Real.cos θ)

/-- A point given in the frame of a pose. -/
noncomputable def place (q : Detect.Pose) (u : ℝ × ℝ) : ℝ × ℝ :=
  ((rotate q.theta u).1 + q.x, (rotate q.theta u).2 + q.y)

/-- A pose given in the frame of another. -/
noncomputable def compose (q r : Detect.Pose) : Detect.Pose :=
  ⟨(place q (r.x, r.y)).1, (place q (r.x, r.y)).2, q.theta + r.theta⟩

end Verif.Spec
