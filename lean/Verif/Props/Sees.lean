import Verif.Props.Pillars
import Verif.Props.Geometry
import Verif.Spec.Robot
import Verif.Model.Trial
import Mathlib.Analysis.SpecialFunctions.Trigonometric.Bounds
/-!
# C115: what the three distance sensors of the tests see near the end of a move
-/
namespace Verif.Props
open Verif Verif.Search Verif.Detect Verif.Spec Verif.Convert Verif.Slalom

variable {W : Nat} {sort : List (Dir × F) → List (Dir × F)}

/-- How the ray of a sensor goes on: `a` is how far it has come across the square, `b` along the wall that it looks at, `u` and `v` are its direction;
no pillar of that wall is near. -/
structure Clear (a b u v : ℝ) : Prop where
  a0 : 0.003 < a
  a1 : a < 0.0787
  b0 : 0.003 < b
  b1 : b < 0.087
  u0 : 1 / 2 < u
  u1 : u ≤ 1
  steep : |v| ≤ u / 10
  near : 0.01 ≤ u * b + v * (0.09 - a)
  far : 0.01 ≤ u * (0.09 - b) - v * (0.09 - a)

theorem Clear.exit {a b u v : ℝ} (h : Clear a b u v) : ∃ e, 8 / 1000 < e ∧ e * u = 0.087 - a ∧ 0.003 < b + e * v ∧ b + e * v < 0.087 ∧
    ∀ t, 0 ≤ t → t < e → 0.003 < a + t * u ∧ a + t * u < 0.087 ∧ 0.003 < b + t * v ∧ b + t * v < 0.087 := by
  obtain ⟨a0, a1, b0, b1, hu, c1, hs1, h1, h2⟩ := h
  obtain ⟨v0, v1⟩ := abs_le.1 hs1
  have u0 : 0 < u := by linarith
  have e0 : 0 < (0.087 - a) / u := div_pos (by linarith) u0
  have eu : (0.087 - a) / u * u = 0.087 - a := div_mul_cancel₀ _ u0.ne'
  generalize (0.087 - a) / u = e at *
  have hw : 0.0087 < u * b + v * (0.087 - a) := by nlinarith
  have hw' : 0.0087 < u * (0.09 - b) - v * (0.087 - a) := by nlinarith
  have y0 : 0.003 < b + e * v := by
    have : u * 0.003 < u * (b + e * v) := by
      have : u * (b + e * v) = u * b + v * (e * u) := by ring
      rw [this, eu]; nlinarith
    exact lt_of_mul_lt_mul_left this u0.le
  have y1 : b + e * v < 0.087 := by
    have : u * (b + e * v) < u * 0.087 := by
      have : u * (b + e * v) = u * b + v * (e * u) := by ring
      rw [this, eu]; nlinarith
    exact lt_of_mul_lt_mul_left this u0.le
  refine ⟨e, ?_, eu, y0, y1, fun t t0 t1 => ?_⟩
  · have : u * e ≤ 1 * e := mul_le_mul_of_nonneg_right c1 e0.le
    linarith [mul_comm u e]
  have tu : t * u < 0.087 - a := by rw [← eu]; exact mul_lt_mul_of_pos_right t1 u0
  have tu0 : 0 ≤ t * u := mul_nonneg t0 u0.le
  have k0 : 0.003 < b + t * v := by
    rcases le_total 0 v with h | h
    · have := mul_nonneg t0 h; linarith
    · have := mul_le_mul_of_nonpos_right t1.le h; linarith
  have k1 : b + t * v < 0.087 := by
    rcases le_total 0 v with h | h
    · have := mul_le_mul_of_nonneg_right t1.le h; linarith
    · have := mul_nonpos_of_nonneg_of_nonpos t0 h; linarith
  exact ⟨by linarith, by linarith, k0, k1⟩

theorem sees_right (hW : Supported W) (hs : Sorts sort) {p : Pose} {i j : Int} (hi : 0 ≤ i ∧ i < 128) (hj : 0 ≤ j ∧ j < 128)
    (h : Clear (p.x - i * (9 / 100)) (p.y - j * (9 / 100)) (Real.cos p.theta) (Real.sin p.theta))
    (c : Coord) (hv : Valid W c) (hcs : ((c.x : Int), (c.y : Int)) = sideOf i j .right) :
    ∃ info, Converter.default.convert W sort p = some info ∧ info.coord = c := by
  obtain ⟨e, he, eu, y0, y1, hin⟩ := h.exit
  obtain ⟨-, -, -, -, hu, -, hv1, h1, h2⟩ := h
  have hin' : ∀ t, 0 ≤ t → t < e → (room (9 / 100) (6 / 1000) i j).inside (ray p t) := by
    intro t t0 t1
    obtain ⟨k1, k2, k3, k4⟩ := hin t t0 t1
    refine ⟨⟨?_, ?_⟩, ?_, ?_⟩ <;> simp only [room, ray] <;> linarith
  have hxe : (ray p e).1 = (i + 1) * (9 / 100) - 6 / 1000 / 2 := by simp only [ray]; linarith
  have hye : (ray p e).2 = j * (9 / 100) + (p.y - j * (9 / 100) + e * (Real.sin p.theta)) := by simp only [ray]; ring
  obtain ⟨β, h⟩ := C34_complete_looks default_width (ww := 6 / 1000) (ir := 1 / 100) (il := 8 / 1000) (by norm_num) (by norm_num) hW hs p hi hj
    (by have := hin' 0 le_rfl (by linarith); simpa [ray] using this) (front := .right)
    (show |Real.sin p.theta| < Real.cos p.theta by linarith)
    (by
      intro q hq
      unfold lineDist
      rw [hq.1]
      have k1 := le_abs_self (Real.sin p.theta * (p.x - q.1) - Real.cos p.theta * (p.y - q.2))
      have k2 := neg_le_abs (Real.sin p.theta * (p.x - q.1) - Real.cos p.theta * (p.y - q.2))
      rw [hq.1] at k1 k2
      rcases hq.2 with e | e <;> rw [e] at k1 k2 ⊢ <;> linarith)
    (side := .right) (a := e) ⟨by linarith, hin', fun h => by have := h.1.2; rw [hxe] at this; exact lt_irrefl _ this⟩
    (by
      intro d hd
      cases d <;> simp only [Box.onSide, room] at hd <;> first
        | rfl
        | (exfalso; rw [hxe, hye] at hd; obtain ⟨d1, d2, d3⟩ := hd; linarith))
    he c hv hcs
  exact ⟨_, h, rfl⟩

theorem sees_left (hW : Supported W) (hs : Sorts sort) {p : Pose} {i j : Int} (hi : 0 ≤ i ∧ i < 128) (hj : 0 ≤ j ∧ j < 128)
    (h : Clear ((i + 1) * (9 / 100) - p.x) (p.y - j * (9 / 100)) (-Real.cos p.theta) (Real.sin p.theta))
    (c : Coord) (hv : Valid W c) (hcs : ((c.x : Int), (c.y : Int)) = sideOf i j .left) :
    ∃ info, Converter.default.convert W sort p = some info ∧ info.coord = c := by
  obtain ⟨e, he, eu, y0, y1, hin⟩ := h.exit
  obtain ⟨-, -, -, -, hu, -, hv1, h1, h2⟩ := h
  have hin' : ∀ t, 0 ≤ t → t < e → (room (9 / 100) (6 / 1000) i j).inside (ray p t) := by
    intro t t0 t1
    obtain ⟨k1, k2, k3, k4⟩ := hin t t0 t1
    refine ⟨⟨?_, ?_⟩, ?_, ?_⟩ <;> simp only [room, ray] <;> linarith
  have hxe : (ray p e).1 = i * (9 / 100) + 6 / 1000 / 2 := by simp only [ray]; linarith
  have hye : (ray p e).2 = j * (9 / 100) + (p.y - j * (9 / 100) + e * (Real.sin p.theta)) := by simp only [ray]; ring
  obtain ⟨β, h⟩ := C34_complete_looks default_width (ww := 6 / 1000) (ir := 1 / 100) (il := 8 / 1000) (by norm_num) (by norm_num) hW hs p hi hj
    (by have := hin' 0 le_rfl (by linarith); simpa [ray] using this) (front := .left)
    (show |Real.sin p.theta| < -Real.cos p.theta by linarith)
    (by
      intro q hq
      unfold lineDist
      rw [hq.1]
      have k1 := le_abs_self (Real.sin p.theta * (p.x - q.1) - Real.cos p.theta * (p.y - q.2))
      have k2 := neg_le_abs (Real.sin p.theta * (p.x - q.1) - Real.cos p.theta * (p.y - q.2))
      rw [hq.1] at k1 k2
      rcases hq.2 with e | e <;> rw [e] at k1 k2 ⊢ <;> linarith)
    (side := .left) (a := e) ⟨by linarith, hin', fun h => by have := h.1.1; rw [hxe] at this; exact lt_irrefl _ this⟩
    (by
      intro d hd
      cases d <;> simp only [Box.onSide, room] at hd <;> first
        | rfl
        | (exfalso; rw [hxe, hye] at hd; obtain ⟨d1, d2, d3⟩ := hd; linarith))
    he c hv hcs
  exact ⟨_, h, rfl⟩

theorem sees_top (hW : Supported W) (hs : Sorts sort) {p : Pose} {i j : Int} (hi : 0 ≤ i ∧ i < 128) (hj : 0 ≤ j ∧ j < 128)
    (h : Clear (p.y - j * (9 / 100)) (p.x - i * (9 / 100)) (Real.sin p.theta) (Real.cos p.theta))
    (c : Coord) (hv : Valid W c) (hcs : ((c.x : Int), (c.y : Int)) = sideOf i j .top) :
    ∃ info, Converter.default.convert W sort p = some info ∧ info.coord = c := by
  obtain ⟨e, he, eu, y0, y1, hin⟩ := h.exit
  obtain ⟨-, -, -, -, hu, -, hv1, h1, h2⟩ := h
  have hin' : ∀ t, 0 ≤ t → t < e → (room (9 / 100) (6 / 1000) i j).inside (ray p t) := by
    intro t t0 t1
    obtain ⟨k1, k2, k3, k4⟩ := hin t t0 t1
    refine ⟨⟨?_, ?_⟩, ?_, ?_⟩ <;> simp only [room, ray] <;> linarith
  have hxe : (ray p e).2 = (j + 1) * (9 / 100) - 6 / 1000 / 2 := by simp only [ray]; linarith
  have hye : (ray p e).1 = i * (9 / 100) + (p.x - i * (9 / 100) + e * (Real.cos p.theta)) := by simp only [ray]; ring
  obtain ⟨β, h⟩ := C34_complete_looks default_width (ww := 6 / 1000) (ir := 1 / 100) (il := 8 / 1000) (by norm_num) (by norm_num) hW hs p hi hj
    (by have := hin' 0 le_rfl (by linarith); simpa [ray] using this) (front := .top)
    (show |Real.cos p.theta| < Real.sin p.theta by linarith)
    (by
      intro q hq
      unfold lineDist
      rw [hq.1]
      have k1 := le_abs_self (Real.sin p.theta * (p.x - q.1) - Real.cos p.theta * (p.y - q.2))
      have k2 := neg_le_abs (Real.sin p.theta * (p.x - q.1) - Real.cos p.theta * (p.y - q.2))
      rw [hq.1] at k1 k2
      rcases hq.2 with e | e <;> rw [e] at k1 k2 ⊢ <;> linarith)
    (side := .top) (a := e) ⟨by linarith, hin', fun h => by have := h.2.2; rw [hxe] at this; exact lt_irrefl _ this⟩
    (by
      intro d hd
      cases d <;> simp only [Box.onSide, room] at hd <;> first
        | rfl
        | (exfalso; rw [hxe, hye] at hd; obtain ⟨d1, d2, d3⟩ := hd; linarith))
    he c hv hcs
  exact ⟨_, h, rfl⟩

theorem sees_bottom (hW : Supported W) (hs : Sorts sort) {p : Pose} {i j : Int} (hi : 0 ≤ i ∧ i < 128) (hj : 0 ≤ j ∧ j < 128)
    (h : Clear ((j + 1) * (9 / 100) - p.y) (p.x - i * (9 / 100)) (-Real.sin p.theta) (Real.cos p.theta))
    (c : Coord) (hv : Valid W c) (hcs : ((c.x : Int), (c.y : Int)) = sideOf i j .bottom) :
    ∃ info, Converter.default.convert W sort p = some info ∧ info.coord = c := by
  obtain ⟨e, he, eu, y0, y1, hin⟩ := h.exit
  obtain ⟨-, -, -, -, hu, -, hv1, h1, h2⟩ := h
  have hin' : ∀ t, 0 ≤ t → t < e → (room (9 / 100) (6 / 1000) i j).inside (ray p t) := by
    intro t t0 t1
    obtain ⟨k1, k2, k3, k4⟩ := hin t t0 t1
    refine ⟨⟨?_, ?_⟩, ?_, ?_⟩ <;> simp only [room, ray] <;> linarith
  have hxe : (ray p e).2 = j * (9 / 100) + 6 / 1000 / 2 := by simp only [ray]; linarith
  have hye : (ray p e).1 = i * (9 / 100) + (p.x - i * (9 / 100) + e * (Real.cos p.theta)) := by simp only [ray]; ring
  obtain ⟨β, h⟩ := C34_complete_looks default_width (ww := 6 / 1000) (ir := 1 / 100) (il := 8 / 1000) (by norm_num) (by norm_num) hW hs p hi hj
    (by have := hin' 0 le_rfl (by linarith); simpa [ray] using this) (front := .bottom)
    (show |Real.cos p.theta| < -Real.sin p.theta by linarith)
    (by
      intro q hq
      unfold lineDist
      rw [hq.1]
      have k1 := le_abs_self (Real.sin p.theta * (p.x - q.1) - Real.cos p.theta * (p.y - q.2))
      have k2 := neg_le_abs (Real.sin p.theta * (p.x - q.1) - Real.cos p.theta * (p.y - q.2))
      rw [hq.1] at k1 k2
      rcases hq.2 with e | e <;> rw [e] at k1 k2 ⊢ <;> linarith)
    (side := .bottom) (a := e) ⟨by linarith, hin', fun h => by have := h.2.1; rw [hxe] at this; exact lt_irrefl _ this⟩
    (by
      intro d hd
      cases d <;> simp only [Box.onSide, room] at hd <;> first
        | rfl
        | (exfalso; rw [hxe, hye] at hd; obtain ⟨d1, d2, d3⟩ := hd; linarith))
    he c hv hcs
  exact ⟨_, h, rfl⟩

/-- The direction of a robot that looks nearly along one of the axes. -/
theorem heading_near (θ₀ e : ℝ) (k : ℤ) : Real.cos (θ₀ + e + 2 * Real.pi * k) = Real.cos θ₀ * Real.cos e - Real.sin θ₀ * Real.sin e ∧
    Real.sin (θ₀ + e + 2 * Real.pi * k) = Real.sin θ₀ * Real.cos e + Real.cos θ₀ * Real.sin e := by
  rw [show θ₀ + e + 2 * Real.pi * k = θ₀ + e + k * (2 * Real.pi) by ring, Real.cos_add_int_mul_two_pi, Real.sin_add_int_mul_two_pi, Real.cos_add, Real.sin_add]
  exact ⟨rfl, rfl⟩

theorem small_angle {e : ℝ} (h : |e| ≤ 1 / 40) : 0.9996 ≤ Real.cos e ∧ Real.cos e ≤ 1 ∧ |Real.sin e| ≤ 1 / 40 := by
  refine ⟨?_, Real.cos_le_one e, (Real.abs_sin_le_abs (x := e)).trans h⟩
  have := Real.one_sub_sq_div_two_le_cos (x := e)
  have : e ^ 2 ≤ (1 / 40) ^ 2 := sq_le_sq' (by linarith [(abs_le.1 h).1]) (abs_le.1 h).2
  linarith

theorem deg_zero : degree 0 = 0 := by unfold degree; ring
theorem deg_right : degree 90 = Real.pi / 2 := by unfold degree; ring
theorem deg_right' : degree (-90) = -(Real.pi / 2) := by unfold degree; ring
theorem deg_flat : degree 180 = Real.pi := by unfold degree; ring

theorem prod_small {x y a b : ℝ} (hx : |x| ≤ a) (hy : |y| ≤ b) : -(a * b) ≤ x * y ∧ x * y ≤ a * b := by
  rw [← abs_le, abs_mul]
  exact mul_le_mul hx hy (abs_nonneg _) ((abs_nonneg _).trans hx)

set_option maxHeartbeats 1600000 in
/-- **C115, sees.** A robot that takes itself to be within 1.62 millimetres (along either axis) and 1.4 degrees of the pose at the end of a move of the search: its
front sensor is on the wall ahead of the square that it is entering, its side sensors are on the walls to the left and to the right; all as far as they
belong to the maze. -/
theorem C115_sees (hW : Supported W) (hs : Sorts sort) {s : SearchState} (hc : Valid W s.coord) (hf : Faces s.coord s.posture) {fo : ℝ} (f0 : 0 ≤ fo)
    (f1 : fo ≤ 0.0125) (st : Control.State) (hx : |st.x.x - (poseOfSearch s 0.09 fo).x| ≤ 0.00162) (hy : |st.y.x - (poseOfSearch s 0.09 fo).y| ≤ 0.00162)
    (k : ℤ) (ht : |st.theta.x - (poseOfSearch s 0.09 fo).theta - 2 * Real.pi * k| ≤ 1 / 40) {r : Posture} (hr : r ≠ opposite s.posture) {d : Coord}
    (hd : SideAhead s.coord s.posture r d) (hv : Valid W d) :
    ∃ pose ∈ Trial.poses, ∃ info, Converter.default.convert W sort (Trial.sensorPose .real st pose) = some info ∧ info.coord = d := by
  obtain ⟨x, y, θ⟩ := st
  obtain ⟨x, xv, xa⟩ := x
  obtain ⟨y, yv, ya⟩ := y
  obtain ⟨θ, θv, θa⟩ := θ
  obtain ⟨⟨cx, cy⟩, p⟩ := s
  obtain ⟨dx, dy⟩ := d
  simp only at hx hy ht hr hd hc hf
  obtain ⟨e, he, hθ⟩ : ∃ e, |e| ≤ 1 / 40 ∧ θ = (poseOfSearch ⟨⟨cx, cy⟩, p⟩ 0.09 fo).theta + e + 2 * Real.pi * k := ⟨_, ht, by ring⟩
  obtain ⟨hcos, hsin⟩ := heading_near (poseOfSearch ⟨⟨cx, cy⟩, p⟩ 0.09 fo).theta e k
  rw [← hθ] at hcos hsin
  clear ht hθ
  obtain ⟨c0, c1, s1⟩ := small_angle he
  have sq := Real.sin_sq_add_cos_sq e
  generalize Real.cos e = u at *
  generalize Real.sin e = v at *
  have cos_right : Real.cos (θ + degree 90) = -Real.sin θ := by rw [deg_right, Real.cos_add_pi_div_two]
  have sin_right : Real.sin (θ + degree 90) = Real.cos θ := by rw [deg_right, Real.sin_add_pi_div_two]
  have cos_left : Real.cos (θ + degree (-90)) = Real.sin θ := by rw [deg_right', ← sub_eq_add_neg, Real.cos_sub_pi_div_two]
  have sin_left : Real.sin (θ + degree (-90)) = -Real.cos θ := by rw [deg_right', ← sub_eq_add_neg, Real.sin_sub_pi_div_two]
  have hu1 : |u| ≤ 1 := abs_le.2 ⟨by linarith, c1⟩
  have hfo : |fo| ≤ 0.0125 := abs_le.2 ⟨by linarith, f1⟩
  obtain ⟨q1, q1'⟩ := prod_small s1 hfo
  have q2 : 0 ≤ u * fo := mul_nonneg (by linarith) f0
  have q3 : u * fo ≤ fo := by nlinarith
  have q4 : v * v ≤ 1 / 1600 := by have := prod_small s1 s1; linarith [this.2]
  have q5 : 0 ≤ v * v := mul_self_nonneg v
  obtain ⟨v0, v1⟩ := abs_le.1 s1
  have hvu : |v| ≤ u / 10 := by linarith
  have hvu' : |-v| ≤ u / 10 := by rwa [abs_neg]
  have hle := hW.le
  obtain ⟨hc1, hc2, hc3⟩ := hc
  obtain ⟨hf1, hf2⟩ := hf
  obtain ⟨hd1, hd2⟩ := hd
  dsimp only at hc1 hc2 hc3 hf1 hf2 hd1 hd2
  cases p
  case north =>
    simp only [vec] at hf1 hf2
    obtain ⟨i, j, hi, hj⟩ : ∃ i j : Nat, cx = 2 * i ∧ cy + 1 = 2 * j := ⟨cx / 2, (cy + 1) / 2, by omega, by omega⟩
    have hi' : (cx : ℝ) = 2 * i := by exact_mod_cast hi
    have hj' : (cy : ℝ) + 1 = 2 * j := by exact_mod_cast hj
    simp only [poseOfSearch, deg_right] at hx hy hcos hsin
    simp [Real.cos_pi, Real.sin_pi] at hcos hsin
    obtain ⟨x, rfl⟩ : ∃ δ, x = δ + (i * (9 / 100) + 0.045) := ⟨x - (i * (9 / 100) + 0.045), by ring⟩
    obtain ⟨y, rfl⟩ : ∃ δ, y = δ + (j * (9 / 100) + fo) := ⟨y - (j * (9 / 100) + fo), by ring⟩
    have hx2 : |x| ≤ 0.00162 := by convert hx using 2; linarith
    have hy2 : |y| ≤ 0.00162 := by convert hy using 2; linarith
    obtain ⟨m1, m1'⟩ := prod_small s1 hx2
    obtain ⟨m2, m2'⟩ := prod_small s1 hy2
    obtain ⟨m3, m3'⟩ := prod_small hu1 hx2
    obtain ⟨m4, m4'⟩ := prod_small hu1 hy2
    obtain ⟨x0, x1⟩ := abs_le.1 hx2
    obtain ⟨y0, y1⟩ := abs_le.1 hy2
    cases r
    case north =>
      simp only [vec] at hd1 hd2
      refine ⟨⟨0.023, 0, degree 0⟩, by simp [Trial.poses], sees_top (i := i) (j := j) hW hs (by omega) (by omega) ?_ _ hv
        (by simp only [sideOf, Prod.mk.injEq]; constructor <;> omega)⟩
      simp only [Trial.sensorPose, Control.Trig.real, deg_zero, add_zero, hcos, hsin]
      refine ⟨?_, ?_, ?_, ?_, ?_, ?_, ?_, ?_, ?_⟩ <;> push_cast <;> first | linarith | (ring_nf; linarith) | (convert hvu using 2; ring1) | (convert hvu' using 2; ring1)
    case east =>
      simp only [vec] at hd1 hd2
      refine ⟨⟨0.013, -0.0115, degree (-90)⟩, by simp [Trial.poses], sees_right (i := i) (j := j) hW hs (by omega) (by omega) ?_ _ hv
        (by simp only [sideOf, Prod.mk.injEq]; constructor <;> omega)⟩
      simp only [Trial.sensorPose, Control.Trig.real, cos_left, sin_left, hcos, hsin]
      refine ⟨?_, ?_, ?_, ?_, ?_, ?_, ?_, ?_, ?_⟩ <;> push_cast <;> first | linarith | (ring_nf; linarith) | (convert hvu using 2; ring1) | (convert hvu' using 2; ring1)
    case south => exact absurd rfl hr
    case west =>
      simp only [vec] at hd1 hd2
      refine ⟨⟨0.013, 0.0115, degree 90⟩, by simp [Trial.poses], sees_left (i := i) (j := j) hW hs (by omega) (by omega) ?_ _ hv
        (by simp only [sideOf, Prod.mk.injEq]; constructor <;> omega)⟩
      simp only [Trial.sensorPose, Control.Trig.real, cos_right, sin_right, hcos, hsin]
      refine ⟨?_, ?_, ?_, ?_, ?_, ?_, ?_, ?_, ?_⟩ <;> push_cast <;> first | linarith | (ring_nf; linarith) | (convert hvu using 2; ring1) | (convert hvu' using 2; ring1)
  case east =>
    simp only [vec] at hf1 hf2
    obtain ⟨i, j, hi, hj⟩ : ∃ i j : Nat, cx + 1 = 2 * i ∧ cy = 2 * j := ⟨(cx + 1) / 2, cy / 2, by omega, by omega⟩
    have hi' : (cx : ℝ) + 1 = 2 * i := by exact_mod_cast hi
    have hj' : (cy : ℝ) = 2 * j := by exact_mod_cast hj
    simp only [poseOfSearch, deg_zero] at hx hy hcos hsin
    simp [Real.cos_pi, Real.sin_pi] at hcos hsin
    obtain ⟨x, rfl⟩ : ∃ δ, x = δ + (i * (9 / 100) + fo) := ⟨x - (i * (9 / 100) + fo), by ring⟩
    obtain ⟨y, rfl⟩ : ∃ δ, y = δ + (j * (9 / 100) + 0.045) := ⟨y - (j * (9 / 100) + 0.045), by ring⟩
    have hx2 : |x| ≤ 0.00162 := by convert hx using 2; linarith
    have hy2 : |y| ≤ 0.00162 := by convert hy using 2; linarith
    obtain ⟨m1, m1'⟩ := prod_small s1 hx2
    obtain ⟨m2, m2'⟩ := prod_small s1 hy2
    obtain ⟨m3, m3'⟩ := prod_small hu1 hx2
    obtain ⟨m4, m4'⟩ := prod_small hu1 hy2
    obtain ⟨x0, x1⟩ := abs_le.1 hx2
    obtain ⟨y0, y1⟩ := abs_le.1 hy2
    cases r
    case north =>
      simp only [vec] at hd1 hd2
      refine ⟨⟨0.013, 0.0115, degree 90⟩, by simp [Trial.poses], sees_top (i := i) (j := j) hW hs (by omega) (by omega) ?_ _ hv
        (by simp only [sideOf, Prod.mk.injEq]; constructor <;> omega)⟩
      simp only [Trial.sensorPose, Control.Trig.real, cos_right, sin_right, hcos, hsin]
      refine ⟨?_, ?_, ?_, ?_, ?_, ?_, ?_, ?_, ?_⟩ <;> push_cast <;> first | linarith | (ring_nf; linarith) | (convert hvu using 2; ring1) | (convert hvu' using 2; ring1)
    case east =>
      simp only [vec] at hd1 hd2
      refine ⟨⟨0.023, 0, degree 0⟩, by simp [Trial.poses], sees_right (i := i) (j := j) hW hs (by omega) (by omega) ?_ _ hv
        (by simp only [sideOf, Prod.mk.injEq]; constructor <;> omega)⟩
      simp only [Trial.sensorPose, Control.Trig.real, deg_zero, add_zero, hcos, hsin]
      refine ⟨?_, ?_, ?_, ?_, ?_, ?_, ?_, ?_, ?_⟩ <;> push_cast <;> first | linarith | (ring_nf; linarith) | (convert hvu using 2; ring1) | (convert hvu' using 2; ring1)
    case south =>
      simp only [vec] at hd1 hd2
      refine ⟨⟨0.013, -0.0115, degree (-90)⟩, by simp [Trial.poses], sees_bottom (i := i) (j := j) hW hs (by omega) (by omega) ?_ _ hv
        (by simp only [sideOf, Prod.mk.injEq]; constructor <;> omega)⟩
      simp only [Trial.sensorPose, Control.Trig.real, cos_left, sin_left, hcos, hsin]
      refine ⟨?_, ?_, ?_, ?_, ?_, ?_, ?_, ?_, ?_⟩ <;> push_cast <;> first | linarith | (ring_nf; linarith) | (convert hvu using 2; ring1) | (convert hvu' using 2; ring1)
    case west => exact absurd rfl hr
  case south =>
    simp only [vec] at hf1 hf2
    obtain ⟨i, j, hi, hj⟩ : ∃ i j : Nat, cx = 2 * i ∧ cy = 2 * j + 1 := ⟨cx / 2, (cy - 1) / 2, by omega, by omega⟩
    have hi' : (cx : ℝ) = 2 * i := by exact_mod_cast hi
    have hj' : (cy : ℝ) = 2 * j + 1 := by exact_mod_cast hj
    simp only [poseOfSearch, deg_right'] at hx hy hcos hsin
    simp [Real.cos_pi, Real.sin_pi] at hcos hsin
    obtain ⟨x, rfl⟩ : ∃ δ, x = δ + (i * (9 / 100) + 0.045) := ⟨x - (i * (9 / 100) + 0.045), by ring⟩
    obtain ⟨y, rfl⟩ : ∃ δ, y = δ + ((j + 1) * (9 / 100) - fo) := ⟨y - ((j + 1) * (9 / 100) - fo), by ring⟩
    have hx2 : |x| ≤ 0.00162 := by convert hx using 2; linarith
    have hy2 : |y| ≤ 0.00162 := by convert hy using 2; linarith
    obtain ⟨m1, m1'⟩ := prod_small s1 hx2
    obtain ⟨m2, m2'⟩ := prod_small s1 hy2
    obtain ⟨m3, m3'⟩ := prod_small hu1 hx2
    obtain ⟨m4, m4'⟩ := prod_small hu1 hy2
    obtain ⟨x0, x1⟩ := abs_le.1 hx2
    obtain ⟨y0, y1⟩ := abs_le.1 hy2
    cases r
    case north => exact absurd rfl hr
    case east =>
      simp only [vec] at hd1 hd2
      refine ⟨⟨0.013, 0.0115, degree 90⟩, by simp [Trial.poses], sees_right (i := i) (j := j) hW hs (by omega) (by omega) ?_ _ hv
        (by simp only [sideOf, Prod.mk.injEq]; constructor <;> omega)⟩
      simp only [Trial.sensorPose, Control.Trig.real, cos_right, sin_right, hcos, hsin]
      refine ⟨?_, ?_, ?_, ?_, ?_, ?_, ?_, ?_, ?_⟩ <;> push_cast <;> first | linarith | (ring_nf; linarith) | (convert hvu using 2; ring1) | (convert hvu' using 2; ring1)
    case south =>
      simp only [vec] at hd1 hd2
      refine ⟨⟨0.023, 0, degree 0⟩, by simp [Trial.poses], sees_bottom (i := i) (j := j) hW hs (by omega) (by omega) ?_ _ hv
        (by simp only [sideOf, Prod.mk.injEq]; constructor <;> omega)⟩
      simp only [Trial.sensorPose, Control.Trig.real, deg_zero, add_zero, hcos, hsin]
      refine ⟨?_, ?_, ?_, ?_, ?_, ?_, ?_, ?_, ?_⟩ <;> push_cast <;> first | linarith | (ring_nf; linarith) | (convert hvu using 2; ring1) | (convert hvu' using 2; ring1)
    case west =>
      simp only [vec] at hd1 hd2
      refine ⟨⟨0.013, -0.0115, degree (-90)⟩, by simp [Trial.poses], sees_left (i := i) (j := j) hW hs (by omega) (by omega) ?_ _ hv
        (by simp only [sideOf, Prod.mk.injEq]; constructor <;> omega)⟩
      simp only [Trial.sensorPose, Control.Trig.real, cos_left, sin_left, hcos, hsin]
      refine ⟨?_, ?_, ?_, ?_, ?_, ?_, ?_, ?_, ?_⟩ <;> push_cast <;> first | linarith | (ring_nf; linarith) | (convert hvu using 2; ring1) | (convert hvu' using 2; ring1)
  case west =>
    simp only [vec] at hf1 hf2
    obtain ⟨i, j, hi, hj⟩ : ∃ i j : Nat, cx = 2 * i + 1 ∧ cy = 2 * j := ⟨(cx - 1) / 2, cy / 2, by omega, by omega⟩
    have hi' : (cx : ℝ) = 2 * i + 1 := by exact_mod_cast hi
    have hj' : (cy : ℝ) = 2 * j := by exact_mod_cast hj
    simp only [poseOfSearch, deg_flat] at hx hy hcos hsin
    simp [Real.cos_pi, Real.sin_pi] at hcos hsin
    obtain ⟨x, rfl⟩ : ∃ δ, x = δ + ((i + 1) * (9 / 100) - fo) := ⟨x - ((i + 1) * (9 / 100) - fo), by ring⟩
    obtain ⟨y, rfl⟩ : ∃ δ, y = δ + (j * (9 / 100) + 0.045) := ⟨y - (j * (9 / 100) + 0.045), by ring⟩
    have hx2 : |x| ≤ 0.00162 := by convert hx using 2; linarith
    have hy2 : |y| ≤ 0.00162 := by convert hy using 2; linarith
    obtain ⟨m1, m1'⟩ := prod_small s1 hx2
    obtain ⟨m2, m2'⟩ := prod_small s1 hy2
    obtain ⟨m3, m3'⟩ := prod_small hu1 hx2
    obtain ⟨m4, m4'⟩ := prod_small hu1 hy2
    obtain ⟨x0, x1⟩ := abs_le.1 hx2
    obtain ⟨y0, y1⟩ := abs_le.1 hy2
    cases r
    case north =>
      simp only [vec] at hd1 hd2
      refine ⟨⟨0.013, -0.0115, degree (-90)⟩, by simp [Trial.poses], sees_top (i := i) (j := j) hW hs (by omega) (by omega) ?_ _ hv
        (by simp only [sideOf, Prod.mk.injEq]; constructor <;> omega)⟩
      simp only [Trial.sensorPose, Control.Trig.real, cos_left, sin_left, hcos, hsin]
      refine ⟨?_, ?_, ?_, ?_, ?_, ?_, ?_, ?_, ?_⟩ <;> push_cast <;> first | linarith | (ring_nf; linarith) | (convert hvu using 2; ring1) | (convert hvu' using 2; ring1)
    case east => exact absurd rfl hr
    case south =>
      simp only [vec] at hd1 hd2
      refine ⟨⟨0.013, 0.0115, degree 90⟩, by simp [Trial.poses], sees_bottom (i := i) (j := j) hW hs (by omega) (by omega) ?_ _ hv
        (by simp only [sideOf, Prod.mk.injEq]; constructor <;> omega)⟩
      simp only [Trial.sensorPose, Control.Trig.real, cos_right, sin_right, hcos, hsin]
      refine ⟨?_, ?_, ?_, ?_, ?_, ?_, ?_, ?_, ?_⟩ <;> push_cast <;> first | linarith | (ring_nf; linarith) | (convert hvu using 2; ring1) | (convert hvu' using 2; ring1)
    case west =>
      simp only [vec] at hd1 hd2
      refine ⟨⟨0.023, 0, degree 0⟩, by simp [Trial.poses], sees_left (i := i) (j := j) hW hs (by omega) (by omega) ?_ _ hv
        (by simp only [sideOf, Prod.mk.injEq]; constructor <;> omega)⟩
      simp only [Trial.sensorPose, Control.Trig.real, deg_zero, add_zero, hcos, hsin]
      refine ⟨?_, ?_, ?_, ?_, ?_, ?_, ?_, ?_, ?_⟩ <;> push_cast <;> first | linarith | (ring_nf; linarith) | (convert hvu using 2; ring1) | (convert hvu' using 2; ring1)

end Verif.Props
