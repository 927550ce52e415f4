import Verif.Spec.Slalom
import Verif.Proof.RunTraj
import Mathlib.Analysis.SpecialFunctions.Trigonometric.Basic
import Mathlib.Tactic.FieldSimp
import Mathlib.Tactic.LinearCombination
import Mathlib.Tactic.NormNum
import Mathlib.Tactic.FinCases
/-!
# Lemmas about the slalom tables
-/
namespace Verif.SlalomP
open Verif Verif.Control Verif.Straight Verif.Slalom Verif.Spec
open Verif.Run (SlalomKind SlalomDirection EdgeKind Node)

/-! ## Trigonometry -/

theorem deg0 : degree 0 = 0 := by unfold degree; ring
theorem deg90 : degree 90 = Real.pi / 2 := by unfold degree; ring
theorem deg45 : degree 45 = Real.pi / 4 := by unfold degree; ring
theorem deg180 : degree 180 = Real.pi := by unfold degree; ring
theorem deg135 : degree 135 = Real.pi - Real.pi / 4 := by unfold degree; ring
theorem degN (d : ℝ) : degree (-d) = -degree d := by unfold degree; ring

theorem cos135 : Real.cos (Real.pi - Real.pi / 4) = -(Real.sqrt 2 / 2) := by rw [Real.cos_pi_sub, Real.cos_pi_div_four]
theorem sin135 : Real.sin (Real.pi - Real.pi / 4) = Real.sqrt 2 / 2 := by rw [Real.sin_pi_sub, Real.sin_pi_div_four]

theorem sqrt2_lo : 1.41421356 ≤ Real.sqrt 2 := Real.le_sqrt_of_sq_le (by norm_num)
theorem sqrt2_hi : Real.sqrt 2 ≤ 1.41421357 := by
  rw [Real.sqrt_le_left (by norm_num)]; norm_num
theorem sqrt2_sq : Real.sqrt 2 * Real.sqrt 2 = 2 := Real.mul_self_sqrt (by norm_num)

/-! ## Where the slaloms ought to end -/

/-- Sign of the turn. -/
def sd : SlalomDirection → ℝ
  | .left => 1
  | .right => -1

/-- The end of a slalom to the left, in square widths. -/
noncomputable def ideal : SlalomKind → ℝ × ℝ
  | .search90 => (0, 0)
  | .fastRun45 => (1, 1 / 2)
  | .fastRun45Rev => (3 * Real.sqrt 2 / 4, Real.sqrt 2 / 4)
  | .fastRun90 => (1, 1)
  | .fastRun135 => (1 / 2, 1)
  | .fastRun135Rev => (Real.sqrt 2 / 4, 3 * Real.sqrt 2 / 4)
  | .fastRun180 => (0, 1)
  | .fastRunDiagonal90 => (Real.sqrt 2 / 2, Real.sqrt 2 / 2)

/-- Its turn, in degrees. -/
def turnOf : SlalomKind → ℝ
  | .search90 => 90
  | .fastRun45 => 45
  | .fastRun45Rev => 45
  | .fastRun90 => 90
  | .fastRun135 => 135
  | .fastRun135Rev => 135
  | .fastRun180 => 180
  | .fastRunDiagonal90 => 90

/-- How well the table meets the end. -/
noncomputable def tol : SlalomKind → ℝ
  | .fastRun45Rev | .fastRun135Rev | .fastRunDiagonal90 => 2e-7
  | _ => 3e-7

theorem theta_eq (sw fo : ℝ) (kind : SlalomKind) (d : SlalomDirection) :
    (parameters sw fo kind d).theta = sd d * degree (turnOf kind) := by
  cases kind <;> cases d <;> simp only [parameters, createParams, sd, turnOf] <;> (try split) <;> simp

private theorem scale {sw E e : ℝ} (h : 0 ≤ sw) (hE : |E| ≤ e) : |sw * E| ≤ sw * e := by
  rw [abs_mul, abs_of_nonneg h]; exact mul_le_mul_of_nonneg_left hE h

theorem end_close (sw fo : ℝ) (hsw : 0 ≤ sw) (kind : SlalomKind) (hk : kind ≠ .search90) (d : SlalomDirection) :
    |(slalomEnd (parameters sw fo kind d)).x - sw * (ideal kind).1| ≤ sw * tol kind ∧
    |(slalomEnd (parameters sw fo kind d)).y - sd d * (sw * (ideal kind).2)| ≤ sw * tol kind := by
  have lo := sqrt2_lo
  have hi := sqrt2_hi
  cases kind <;> first | exact absurd rfl hk | skip
  all_goals
    cases d <;>
    simp only [slalomEnd, compose, place, rotate, Slalom.Params.curveEnd, parameters, createParams, ideal, sd, tol, deg45, deg90, deg135, deg180,
      Real.cos_neg, Real.sin_neg, Real.cos_pi_div_four, Real.sin_pi_div_four, Real.cos_pi_div_two, Real.sin_pi_div_two, cos135, sin135,
      Real.cos_pi, Real.sin_pi] <;>
    (rw [abs_le, abs_le]; refine ⟨⟨?_, ?_⟩, ?_, ?_⟩) <;>
    nlinarith [mul_le_mul_of_nonneg_left lo hsw, mul_le_mul_of_nonneg_left hi hsw]

/-! ## Postures -/

/-- Cosine and sine of the heading of a node. -/
theorem cos_node (n : Node) (sw : ℝ) : Real.cos (poseOfNode n sw).theta = match n.posture with
    | .north => 0 | .northEast => Real.sqrt 2 / 2 | .east => 1 | .southEast => Real.sqrt 2 / 2
    | .south => 0 | .southWest => -(Real.sqrt 2 / 2) | .west => -1 | .northWest => -(Real.sqrt 2 / 2) := by
  unfold poseOfNode
  cases n.posture <;>
    simp only [deg0, deg45, deg90, deg135, deg180, degN, Real.cos_neg, Real.cos_pi_div_four, Real.cos_pi_div_two, cos135, Real.cos_pi, Real.cos_zero]

theorem sin_node (n : Node) (sw : ℝ) : Real.sin (poseOfNode n sw).theta = match n.posture with
    | .north => 1 | .northEast => Real.sqrt 2 / 2 | .east => 0 | .southEast => -(Real.sqrt 2 / 2)
    | .south => -1 | .southWest => -(Real.sqrt 2 / 2) | .west => 0 | .northWest => Real.sqrt 2 / 2 := by
  unfold poseOfNode
  cases n.posture <;>
    simp only [deg0, deg45, deg90, deg135, deg180, degN, Real.sin_neg, Real.sin_pi_div_four, Real.sin_pi_div_two, sin135, Real.sin_pi, Real.sin_zero, neg_zero]

/-- The exact end in the maze. -/
theorem exact_pose {W : Nat} {n m : Node} {k : EdgeKind} {kind : SlalomKind} {d : SlalomDirection} (sw : ℝ) (hn : Legal W n)
    (hL : Leads n k m (.slalom kind d)) :
    kind ≠ .search90 ∧
    place (poseOfNode n sw) (sw * (ideal kind).1, sd d * (sw * (ideal kind).2)) = ((poseOfNode m sw).x, (poseOfNode m sw).y) ∧
    ∃ z : ℤ, (poseOfNode n sw).theta + sd d * degree (turnOf kind) = (poseOfNode m sw).theta + 2 * Real.pi * z := by
  obtain ⟨nx, ny, np⟩ := n
  obtain ⟨mx, my, mp⟩ := m
  obtain ⟨f, s, fin, head, cr, hF, hS, hx, hy, hh, ht⟩ := hL
  have hx' : (mx : ℝ) = nx + (((inFrame f s fin).1 : ℤ) : ℝ) := by exact_mod_cast hx
  have hy' : (my : ℝ) = ny + (((inFrame f s fin).2 : ℤ) : ℝ) := by exact_mod_cast hy
  clear hx hy
  obtain ⟨-, -, ⟨px, py, hp⟩ | ⟨pxy, hp⟩⟩ := hn
  · simp only [Frame, Shape, px, py, and_self, if_true] at hF hS ht
    simp only [List.mem_cons, List.not_mem_nil, or_false] at hp
    obtain ⟨rfl, hs⟩ := hF
    rcases hs with rfl | rfl <;> rcases hp with rfl | rfl | rfl | rfl <;> cases hS <;>
      simp [heading, inFrame, cross, trajOf, -Nat.cast_inj] at hx' hy' hh ht <;>
      cases mp <;> simp at hh <;>
      (obtain ⟨rfl, rfl⟩ := ht
       refine ⟨by decide, Prod.ext ?_ ?_, ?_⟩
       · simp only [place, rotate, cos_node, sin_node, ideal, sd]
         simp only [poseOfNode]
         push_cast
         rw [hx']; ring_nf; try (rw [Real.sq_sqrt (by norm_num)]; ring_nf)
       · simp only [place, rotate, cos_node, sin_node, ideal, sd]
         simp only [poseOfNode]
         push_cast
         rw [hy']; ring_nf; try (rw [Real.sq_sqrt (by norm_num)]; ring_nf)
       · simp only [poseOfNode, degree, sd, turnOf]
         first
           | exact ⟨0, by push_cast; ring1⟩
           | exact ⟨1, by push_cast; ring1⟩
           | exact ⟨-1, by push_cast; ring1⟩)
  · have hc : ¬ (nx % 2 = 0 ∧ ny % 2 = 0) := by dsimp only at pxy; omega
    simp only [Frame, Shape, hc, if_false] at hF hS ht
    simp only [List.mem_cons, List.not_mem_nil, or_false] at hp
    split at hF <;> obtain ⟨rfl, rfl⟩ := hF <;> rcases hp with rfl | rfl | rfl | rfl <;> cases hS <;>
      simp [heading, inFrame, cross, trajOf, -Nat.cast_inj] at hx' hy' hh ht <;>
      cases mp <;> simp at hh <;>
      (obtain ⟨rfl, rfl⟩ := ht
       refine ⟨by decide, Prod.ext ?_ ?_, ?_⟩
       · simp only [place, rotate, cos_node, sin_node, ideal, sd]
         simp only [poseOfNode]
         push_cast
         rw [hx']; ring_nf; try (rw [Real.sq_sqrt (by norm_num)]; ring_nf)
       · simp only [place, rotate, cos_node, sin_node, ideal, sd]
         simp only [poseOfNode]
         push_cast
         rw [hy']; ring_nf; try (rw [Real.sq_sqrt (by norm_num)]; ring_nf)
       · simp only [poseOfNode, degree, sd, turnOf]
         first
           | exact ⟨0, by push_cast; ring1⟩
           | exact ⟨1, by push_cast; ring1⟩
           | exact ⟨-1, by push_cast; ring1⟩)

/-- The straight moves end exactly. -/
theorem exact_straight {W : Nat} {n m : Node} {k : EdgeKind} (sw : ℝ) (hn : Legal W n) {c : ℕ} {t : Run.TrajectoryKind}
    (ht' : t = .straight c ∨ t = .straightDiagonal c) (hL : Leads n k m t) :
    place (poseOfNode n sw) ((runMove sw 0 t).x, 0) = ((poseOfNode m sw).x, (poseOfNode m sw).y) ∧
    (poseOfNode n sw).theta = (poseOfNode m sw).theta := by
  obtain ⟨nx, ny, np⟩ := n
  obtain ⟨mx, my, mp⟩ := m
  obtain ⟨f, s, fin, head, cr, hF, hS, hx, hy, hh, ht⟩ := hL
  have hx' : (mx : ℝ) = nx + (((inFrame f s fin).1 : ℤ) : ℝ) := by exact_mod_cast hx
  have hy' : (my : ℝ) = ny + (((inFrame f s fin).2 : ℤ) : ℝ) := by exact_mod_cast hy
  clear hx hy
  have h2 : Real.sqrt 2 ≠ 0 := by have := sqrt2_lo; linarith
  have hq (u : ℝ) : u / Real.sqrt 2 * (Real.sqrt 2 / 2) = u / 2 := by field_simp
  obtain ⟨-, -, ⟨px, py, hp⟩ | ⟨pxy, hp⟩⟩ := hn
  · simp only [Frame, Shape, px, py, and_self, if_true] at hF hS ht
    simp only [List.mem_cons, List.not_mem_nil, or_false] at hp
    obtain ⟨rfl, hs⟩ := hF
    rcases ht' with rfl | rfl <;> rcases hs with rfl | rfl <;> rcases hp with rfl | rfl | rfl | rfl <;> cases hS <;>
      simp [heading, inFrame, cross, trajOf, -Nat.cast_inj] at hx' hy' hh ht <;>
      cases mp <;> simp at hh <;>
      (subst ht
       refine ⟨Prod.ext ?_ ?_, rfl⟩
       · simp only [place, rotate, cos_node, sin_node, runMove]
         simp only [poseOfNode]
         push_cast
         rw [hx']; ring_nf
       · simp only [place, rotate, cos_node, sin_node, runMove]
         simp only [poseOfNode]
         push_cast
         rw [hy']; ring_nf)
  · have hc : ¬ (nx % 2 = 0 ∧ ny % 2 = 0) := by dsimp only at pxy; omega
    simp only [Frame, Shape, hc, if_false] at hF hS ht
    simp only [List.mem_cons, List.not_mem_nil, or_false] at hp
    rcases ht' with rfl | rfl <;> split at hF <;> obtain ⟨rfl, rfl⟩ := hF <;> rcases hp with rfl | rfl | rfl | rfl <;> cases hS <;>
      simp [heading, inFrame, cross, trajOf, -Nat.cast_inj] at hx' hy' hh ht <;>
      cases mp <;> simp at hh <;>
      (subst ht
       refine ⟨Prod.ext ?_ ?_, rfl⟩
       · simp only [place, rotate, cos_node, sin_node, runMove, mul_neg, hq]
         simp only [poseOfNode]
         push_cast
         rw [hx']; ring_nf
       · simp only [place, rotate, cos_node, sin_node, runMove, mul_neg, hq]
         simp only [poseOfNode]
         push_cast
         rw [hy']; ring_nf)

/-- Errors in the frame of a pose become errors in the maze. -/
theorem place_err (q : Detect.Pose) (a b a' b' e : ℝ) (ha : |a - a'| ≤ e) (hb : |b - b'| ≤ e) :
    |(place q (a, b)).1 - (place q (a', b')).1| ≤ (|Real.cos q.theta| + |Real.sin q.theta|) * e ∧
    |(place q (a, b)).2 - (place q (a', b')).2| ≤ (|Real.cos q.theta| + |Real.sin q.theta|) * e := by
  simp only [place, rotate]
  have h1 : |(a - a') * Real.cos q.theta| ≤ |Real.cos q.theta| * e := by
    rw [abs_mul, mul_comm]; exact mul_le_mul_of_nonneg_left ha (abs_nonneg _)
  have h2 : |(b - b') * Real.sin q.theta| ≤ |Real.sin q.theta| * e := by
    rw [abs_mul, mul_comm]; exact mul_le_mul_of_nonneg_left hb (abs_nonneg _)
  have h3 : |(a - a') * Real.sin q.theta| ≤ |Real.sin q.theta| * e := by
    rw [abs_mul, mul_comm]; exact mul_le_mul_of_nonneg_left ha (abs_nonneg _)
  have h4 : |(b - b') * Real.cos q.theta| ≤ |Real.cos q.theta| * e := by
    rw [abs_mul, mul_comm]; exact mul_le_mul_of_nonneg_left hb (abs_nonneg _)
  rw [abs_le] at h1 h2 h3 h4
  constructor <;> rw [abs_le] <;> constructor <;> linarith

theorem end_theta (sw fo : ℝ) (kind : SlalomKind) (d : SlalomDirection) :
    (slalomEnd (parameters sw fo kind d)).theta = sd d * degree (turnOf kind) := by
  simp only [slalomEnd, compose, Slalom.Params.curveEnd, add_zero, theta_eq]

/-- The factor by which errors grow. -/
theorem factor {W : Nat} {n m : Node} {k : EdgeKind} {kind : SlalomKind} {d : SlalomDirection} (sw : ℝ) (hn : Legal W n)
    (hL : Leads n k m (.slalom kind d)) :
    (|Real.cos (poseOfNode n sw).theta| + |Real.sin (poseOfNode n sw).theta|) * tol kind ≤ 3e-7 := by
  obtain ⟨f, s, fin, head, cr, hF, hS, hx, hy, hh, ht⟩ := hL
  clear hx hy hh hF
  have hi := sqrt2_hi
  have lo := sqrt2_lo
  have ha : |Real.sqrt 2 / 2| = Real.sqrt 2 / 2 := abs_of_nonneg (by positivity)
  rw [cos_node, sin_node]
  obtain ⟨-, -, ⟨px, py, hp⟩ | ⟨pxy, hp⟩⟩ := hn
  · simp only [px, py, and_self, if_true] at ht
    have ht : tol kind = 3e-7 := by
      cases k <;> simp [trajOf] at ht <;> simp [← ht.1, tol]
    simp only [List.mem_cons, List.not_mem_nil, or_false] at hp
    rw [ht]
    rcases hp with h | h | h | h <;> rw [h] <;> norm_num
  · have hc : ¬ (n.x % 2 = 0 ∧ n.y % 2 = 0) := by omega
    simp only [hc, if_false] at ht
    have ht : tol kind = 2e-7 := by
      cases k <;> simp [trajOf] at ht <;> simp [← ht.1, tol]
    simp only [List.mem_cons, List.not_mem_nil, or_false] at hp
    rw [ht]
    rcases hp with h | h | h | h <;> rw [h] <;> simp only [abs_neg, ha] <;> linarith

end Verif.SlalomP
