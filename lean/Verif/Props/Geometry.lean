import Verif.Proof.Slalom
import Verif.Props.Run
import Verif.Props.Robot
/-!
# C32, C33: the moves lead from pose to pose
-/
namespace Verif.Props
open Verif Verif.Control Verif.Straight Verif.Slalom Verif.Spec Verif.SlalomP
open Verif.Run (SlalomKind SlalomDirection EdgeKind Node)

/-! ## C32 -/

/-- **C32.** The trajectory between two poses of the planner starts at the pose of the first and ends at the pose of the second: straights
exactly, slaloms within 3e-7 of the square width per axis. -/
theorem C32_trajectory_ends_at_node (W : Nat) (hW : W ≤ 64) (n m : Node) (hn : Legal W n) (hm : Legal W m) (t : Run.TrajectoryKind)
    (h : n.trajectoryKind m = .ok (some t)) (sw fo : ℝ) (hsw : 0 ≤ sw) :
    Near (moveSlack sw t) (compose (poseOfNode n sw) (runMove sw fo t)) (poseOfNode m sw) := by
  obtain ⟨o, ho, hiff⟩ := C28_trajectory_exact W hW n m hn hm
  rw [h] at ho
  cases ho
  obtain ⟨k, hL⟩ := (hiff t).1 rfl
  have hs (c : ℕ) (ht : t = .straight c ∨ t = .straightDiagonal c) :
      Near 0 (compose (poseOfNode n sw) (runMove sw fo t)) (poseOfNode m sw) := by
    obtain ⟨h1, h2⟩ := exact_straight sw hn ht hL
    have h3 : runMove sw fo t = ⟨(runMove sw 0 t).x, 0, 0⟩ := by rcases ht with rfl | rfl <;> rfl
    rw [h3]
    refine ⟨?_, ?_, 0, ?_⟩
    · simp only [compose, h1, sub_self, abs_zero, le_refl]
    · simp only [compose, h1, sub_self, abs_zero, le_refl]
    · simp only [compose, h2]; simp
  match t with
  | .straight c => exact hs c (Or.inl rfl)
  | .straightDiagonal c => exact hs c (Or.inr rfl)
  | .slalom kind d =>
    obtain ⟨hk, h1, z, hz⟩ := exact_pose sw hn hL
    obtain ⟨e1, e2⟩ := end_close sw fo hsw kind hk d
    have hf := factor sw hn hL
    obtain ⟨g1, g2⟩ := place_err (poseOfNode n sw) _ _ _ _ _ e1 e2
    rw [h1] at g1 g2
    have hle : (|Real.cos (poseOfNode n sw).theta| + |Real.sin (poseOfNode n sw).theta|) * (sw * tol kind) ≤ 3e-7 * sw := by nlinarith
    refine ⟨le_trans g1 hle, le_trans g2 hle, z, ?_⟩
    show (poseOfNode n sw).theta + (slalomEnd (parameters sw fo kind d)).theta = _
    rw [end_theta, hz]

/-- **C32, for the planner.** Every move considered by the planner is driven by a trajectory that ends at the pose planned. -/
theorem C32_planned_move (W : Nat) (hW : Supported W) (isWall : Search.Coord → Bool) (n m : Node) (k : EdgeKind)
    (l : List (Node × EdgeKind)) (hn : Legal W n) (hl : n.successors W isWall = .ok l) (h : (m, k) ∈ l) (sw fo : ℝ) (hsw : 0 ≤ sw) :
    ∃ t, n.trajectoryKind m = .ok (some t) ∧
      Near (3e-7 * sw) (compose (poseOfNode n sw) (runMove sw fo t)) (poseOfNode m sw) := by
  obtain ⟨t, ht, -⟩ := C28_move_has_trajectory W hW isWall n m k l hn hl h
  obtain ⟨l', h1, -, -, h4⟩ := C27_successors W hW isWall n hn
  rw [hl] at h1
  cases h1
  refine ⟨t, ht, ?_⟩
  obtain ⟨a, b, c⟩ := C32_trajectory_ends_at_node W (by have := hW.le; omega) n m hn (h4 m k h) t ht sw fo hsw
  have : moveSlack sw t ≤ 3e-7 * sw := by cases t <;> simp only [moveSlack] <;> linarith
  exact ⟨a.trans this, b.trans this, c⟩

/-- A diagonal slalom that leads from a wall to a wall. -/
example : ((Node.trajectoryKind ⟨3, 4, .northWest⟩ ⟨3, 6, .northEast⟩).toOption = some (some (.slalom .fastRunDiagonal90 .right)) ∧
    Legal 8 ⟨3, 4, .northWest⟩ ∧ Legal 8 ⟨3, 6, .northEast⟩) ∧ (0 : ℝ) ≤ 0.09 := ⟨by decide, by norm_num⟩

/-! ## C33 -/

theorem search_end (sw fo : ℝ) (hsw : 0 ≤ sw) (d : SlalomDirection) :
    let e := slalomEnd (parameters sw fo .search90 d)
    e.x = sw / 2 - fo * (sw / 0.09) ∧ |e.y - sd d * (sw / 2 + fo * (sw / 0.09))| ≤ 6e-9 * sw ∧ e.theta = sd d * (Real.pi / 2) := by
  intro e
  refine ⟨?_, ?_, ?_⟩
  · simp only [e]
    cases d <;> simp only [slalomEnd, parameters] <;> split <;>
      simp only [compose, place, rotate, Slalom.Params.curveEnd, createParams, deg90, Real.cos_neg, Real.cos_pi_div_two] <;> ring
  · simp only [e]
    cases d <;> simp only [slalomEnd, parameters] <;> split <;>
      simp only [compose, place, rotate, Slalom.Params.curveEnd, createParams, deg90, sd, Real.sin_neg, Real.sin_pi_div_two] <;>
      rw [abs_le] <;> constructor <;> ring_nf <;> linarith
  · simp only [e, end_theta, turnOf, deg90]

/-- **C33.** The move for a change of the search state leads from the pose of the old state to the pose of the new one, up to 6e-9 of the square
width, if the square width is the 0.09 m for which the offset of the 90 degree slalom is scaled, or if there is no offset; in general up to the
error of that scaling. -/
theorem C33_search_move (W : Nat) (hW : Supported W) (s s' : Search.SearchState) (next : Search.Coord) (k : Search.TrajectoryKind)
    (hs : Valid W s.coord) (hf : Faces s.coord s.posture) (hn : Valid W next) (h : s.update next = .ok (s', some k))
    (sw fo : ℝ) (hsw : 0 ≤ sw) :
    Near (6e-9 * sw + |fo * (sw / 0.09 - 1)|) (compose (poseOfSearch s sw fo) (searchMove sw fo k)) (poseOfSearch s' sw fo) := by
  obtain ⟨u1, u2, u3, u4⟩ := C21_update hW hs hf hn
  obtain ⟨⟨cx, cy⟩, p⟩ := s
  obtain ⟨nx, ny⟩ := next
  have b1 := le_abs_self (fo * (sw / 0.09 - 1))
  have b2 := neg_abs_le (fo * (sw / 0.09 - 1))
  obtain ⟨lx, ly, lt⟩ := search_end sw fo hsw .left
  obtain ⟨rx, ry, rt⟩ := search_end sw fo hsw .right
  rw [abs_le] at ly ry
  simp only [sd] at ly ry lt rt
  obtain ⟨ly1, ly2⟩ := ly
  obtain ⟨ry1, ry2⟩ := ry
  have b0 := abs_nonneg (fo * (sw / 0.09 - 1))
  generalize |fo * (sw / 0.09 - 1)| = B at *
  by_cases ha : Adjacent W ⟨cx, cy⟩ ⟨nx, ny⟩
  · rcases u4.1 ha with ⟨q, hq, hq'⟩ | ⟨q, hq, hq'⟩
    · have e := (u1 q hq hq').1
      rw [h] at e
      obtain ⟨rfl, rfl⟩ : s' = ⟨⟨nx, ny⟩, q⟩ ∧ k = Spec.turn p q := by simpa using e
      obtain ⟨hx, hy⟩ := hq'
      have hx' : (nx : ℝ) = cx + (((vec p).1 : ℤ) : ℝ) + (((vec q).1 : ℤ) : ℝ) := by exact_mod_cast hx
      have hy' : (ny : ℝ) = cy + (((vec p).2 : ℤ) : ℝ) + (((vec q).2 : ℤ) : ℝ) := by exact_mod_cast hy
      clear hx hy u1 u2 u3 u4 e h
      cases p <;> cases q <;> simp [opposite, cw] at hq <;>
        simp [Spec.turn, cw, opposite, vec, -Nat.cast_inj] at hx' hy' ⊢ <;>
        (simp only [Near, compose, place, rotate, poseOfSearch, searchMove, deg0, deg90, deg180, degN, Real.cos_zero, Real.sin_zero,
          Real.cos_pi, Real.sin_pi, Real.cos_neg, Real.sin_neg, Real.cos_pi_div_two, Real.sin_pi_div_two, lx, rx, lt, rt, hx', hy']
         refine ⟨?_, ?_, ?_⟩
         · rw [abs_le]; constructor <;> linarith
         · rw [abs_le]; constructor <;> linarith
         · first
             | exact ⟨0, by push_cast; ring1⟩
             | exact ⟨1, by push_cast; ring1⟩
             | exact ⟨-1, by push_cast; ring1⟩)
    · have e := (u2 q hq hq').1
      rw [h] at e
      obtain ⟨rfl, rfl⟩ : s' = ⟨⟨cx, cy⟩, opposite p⟩ ∧ k = .back := by simpa using e
      clear u1 u2 u3 u4 e h
      cases p <;> simp only [opposite, cw] <;>
        (simp only [Near, compose, place, rotate, poseOfSearch, searchMove, deg0, deg90, deg180, degN, Real.cos_zero, Real.sin_zero,
          Real.cos_pi, Real.sin_pi, Real.cos_neg, Real.sin_neg, Real.cos_pi_div_two, Real.sin_pi_div_two]
         refine ⟨?_, ?_, ?_⟩
         · rw [abs_le]; constructor <;> linarith
         · rw [abs_le]; constructor <;> linarith
         · first
             | exact ⟨0, by push_cast; ring1⟩
             | exact ⟨1, by push_cast; ring1⟩
             | exact ⟨-1, by push_cast; ring1⟩)
  · rw [u3 ha] at h
    simp at h

/-- **C33, for the square width of the tables.** -/
theorem C33_nominal (W : Nat) (hW : Supported W) (s s' : Search.SearchState) (next : Search.Coord) (k : Search.TrajectoryKind)
    (hs : Valid W s.coord) (hf : Faces s.coord s.posture) (hn : Valid W next) (h : s.update next = .ok (s', some k))
    (sw fo : ℝ) (hsw : 0 ≤ sw) (hnom : sw = 0.09 ∨ fo = 0) :
    Near (6e-9 * sw) (compose (poseOfSearch s sw fo) (searchMove sw fo k)) (poseOfSearch s' sw fo) := by
  have := C33_search_move W hW s s' next k hs hf hn h sw fo hsw
  have e : fo * (sw / 0.09 - 1) = 0 := by rcases hnom with rfl | rfl <;> norm_num
  rwa [e, abs_zero, add_zero] at this

/-- **C33, otherwise.** With another square width and an offset every turn misses the pose of the new state by `fo (sw / 0.09 - 1)`, at
least along the old heading. -/
theorem C33_offset_missed (W : Nat) (hW : Supported W) (s s' : Search.SearchState) (next : Search.Coord) (k : Search.TrajectoryKind)
    (hs : Valid W s.coord) (hf : Faces s.coord s.posture) (hn : Valid W next) (h : s.update next = .ok (s', some k))
    (hk : k = .left ∨ k = .right) (sw fo : ℝ) (hsw : 0 ≤ sw) :
    let q := poseOfSearch s sw fo
    let e := compose q (searchMove sw fo k)
    ((poseOfSearch s' sw fo).x - e.x) * Real.cos q.theta + ((poseOfSearch s' sw fo).y - e.y) * Real.sin q.theta =
      fo * (sw / 0.09 - 1) := by
  obtain ⟨u1, u2, u3, u4⟩ := C21_update hW hs hf hn
  obtain ⟨⟨cx, cy⟩, p⟩ := s
  obtain ⟨nx, ny⟩ := next
  obtain ⟨lx, ly, lt⟩ := search_end sw fo hsw .left
  obtain ⟨rx, ry, rt⟩ := search_end sw fo hsw .right
  by_cases ha : Adjacent W ⟨cx, cy⟩ ⟨nx, ny⟩
  · rcases u4.1 ha with ⟨q, hq, hq'⟩ | ⟨q, hq, hq'⟩
    · have e := (u1 q hq hq').1
      rw [h] at e
      obtain ⟨rfl, rfl⟩ : s' = ⟨⟨nx, ny⟩, q⟩ ∧ k = Spec.turn p q := by simpa using e
      obtain ⟨hx, hy⟩ := hq'
      have hx' : (nx : ℝ) = cx + (((vec p).1 : ℤ) : ℝ) + (((vec q).1 : ℤ) : ℝ) := by exact_mod_cast hx
      have hy' : (ny : ℝ) = cy + (((vec p).2 : ℤ) : ℝ) + (((vec q).2 : ℤ) : ℝ) := by exact_mod_cast hy
      clear hx hy u1 u2 u3 u4 e h
      cases p <;> cases q <;> simp [opposite, cw] at hq <;> simp [Spec.turn, cw, opposite] at hk <;>
        simp [Spec.turn, cw, opposite, vec, -Nat.cast_inj] at hx' hy' ⊢ <;>
        (simp only [compose, place, rotate, poseOfSearch, searchMove, deg0, deg90, deg180, degN, Real.cos_zero, Real.sin_zero,
          Real.cos_pi, Real.sin_pi, Real.cos_neg, Real.sin_neg, Real.cos_pi_div_two, Real.sin_pi_div_two, lx, rx, lt, rt, hx', hy']
         ring1)
    · have e := (u2 q hq hq').1
      rw [h] at e
      obtain ⟨-, rfl⟩ : s' = ⟨⟨cx, cy⟩, opposite p⟩ ∧ k = .back := by simpa using e
      simp at hk
  · rw [u3 ha] at h
    simp at h

/-- A turn to the right out of the start, with an offset of 10 mm in a maze of wider squares. -/
example : (Search.SearchState.update ⟨⟨0, 1⟩, .north⟩ ⟨1, 2⟩ = .ok (⟨⟨1, 2⟩, .east⟩, some .right) ∧
    Supported 4 ∧ Valid 4 ⟨0, 1⟩ ∧ Faces ⟨0, 1⟩ .north ∧ Valid 4 ⟨1, 2⟩) ∧ (0.01 : ℝ) * (0.18 / 0.09 - 1) = 0.01 :=
  ⟨⟨rfl, ⟨2, by decide, rfl⟩, by unfold Valid; decide, by unfold Faces; decide, by unfold Valid; decide⟩, by norm_num⟩

end Verif.Props
