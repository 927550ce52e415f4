import Verif.Props.Convert
/-!
# C34: the pillars that hide a wall
-/
namespace Verif.Props
open Verif Verif.Spec Verif.Detect Verif.Convert Verif.Search Verif.Proof

/-! ## Directions -/

theorem cos2_sq (θ : ℝ) : Real.cos (2 * θ) = Real.cos θ ^ 2 - Real.sin θ ^ 2 := by
  rw [Real.cos_two_mul']

theorem cos2_rev (θ : ℝ) : Real.cos (2 * θ) = Real.cos (4 * Real.pi * revolution θ) := by
  rw [cos2_sq, cos_rev, sin_rev, ← cos2_sq]
  congr 1
  ring

/-- Less than an eighth of a turn away from the nearest half turn. -/
theorem side_x {θ : ℝ} (h : Real.sin θ ^ 2 < Real.cos θ ^ 2) :
    revolution θ < 1 / 8 ∨ (3 / 8 < revolution θ ∧ revolution θ < 5 / 8) ∨ 7 / 8 < revolution θ := by
  have hc : 0 < Real.cos (2 * θ) := by rw [cos2_sq]; linarith
  rw [cos2_rev] at hc
  obtain ⟨h0, h1⟩ := revolution_range θ
  have hpi := Real.pi_pos
  by_contra hn
  simp only [not_or, not_and, not_lt] at hn
  obtain ⟨n1, n2, n3⟩ := hn
  by_cases hm : revolution θ ≤ 3 / 8
  · have := Real.cos_nonpos_of_pi_div_two_le_of_le (x := 4 * Real.pi * revolution θ) (by nlinarith) (by nlinarith)
    linarith
  · have h5 := n2 (not_le.mp hm)
    have e : Real.cos (4 * Real.pi * revolution θ) = Real.cos (4 * Real.pi * revolution θ - 2 * Real.pi) := by
      rw [Real.cos_sub_two_pi]
    rw [e] at hc
    have := Real.cos_nonpos_of_pi_div_two_le_of_le (x := 4 * Real.pi * revolution θ - 2 * Real.pi) (by nlinarith) (by nlinarith)
    linarith

theorem side_y {θ : ℝ} (h : Real.cos θ ^ 2 < Real.sin θ ^ 2) :
    (1 / 8 < revolution θ ∧ revolution θ < 3 / 8) ∨ (5 / 8 < revolution θ ∧ revolution θ < 7 / 8) := by
  have hc : Real.cos (2 * θ) < 0 := by rw [cos2_sq]; linarith
  rw [cos2_rev] at hc
  obtain ⟨h0, h1⟩ := revolution_range θ
  have hpi := Real.pi_pos
  have pos : ∀ k : ℤ, ¬ (-(Real.pi / 2) ≤ 4 * Real.pi * revolution θ - k * (2 * Real.pi) ∧
      4 * Real.pi * revolution θ - k * (2 * Real.pi) ≤ Real.pi / 2) := by
    intro k hk
    have := Real.cos_nonneg_of_mem_Icc (x := 4 * Real.pi * revolution θ - k * (2 * Real.pi)) ⟨by linarith [hk.1], hk.2⟩
    rw [Real.cos_sub_int_mul_two_pi] at this
    linarith
  by_contra hn
  simp only [not_or, not_and, not_lt] at hn
  obtain ⟨n1, n2⟩ := hn
  by_cases a : revolution θ ≤ 1 / 8
  · exact pos 0 ⟨by push_cast; nlinarith, by push_cast; nlinarith⟩
  · have a' := n1 (not_le.mp a)
    by_cases b : revolution θ ≤ 5 / 8
    · exact pos 1 ⟨by push_cast; nlinarith, by push_cast; nlinarith⟩
    · have b' := n2 (not_le.mp b)
      exact pos 2 ⟨by push_cast; nlinarith, by push_cast; nlinarith⟩

theorem looks_right {p : Pose} (h : Looks p .right) : ¬ (1 / 8 ≤ revolution p.theta ∧ revolution p.theta ≤ 7 / 8) := by
  have h' : |Real.sin p.theta| < Real.cos p.theta := h
  have h0 := (abs_nonneg (Real.sin p.theta)).trans_lt h'
  intro ⟨h1, h2⟩
  rcases side_x (θ := p.theta) (by rw [sq_lt_sq, abs_of_pos h0]; exact h') with g | g | g
  · linarith
  · rcases lt_or_ge (revolution p.theta) (1 / 2) with k | k
    · linarith [(quad2 k (by linarith [g.1])).1]
    · linarith [(quad3 (by linarith [g.2]) k).1]
  · linarith

theorem looks_left {p : Pose} (h : Looks p .left) : 3 / 8 < revolution p.theta ∧ revolution p.theta < 5 / 8 := by
  have h' : |Real.sin p.theta| < -Real.cos p.theta := h
  have h0 := (abs_nonneg (Real.sin p.theta)).trans_lt h'
  rcases side_x (θ := p.theta) (by rw [sq_lt_sq, abs_of_neg (a := Real.cos p.theta) (by linarith)]; exact h') with g | g | g
  · linarith [(quad1 (θ := p.theta) (by linarith)).1]
  · exact g
  · linarith [(quad4 (θ := p.theta) (by linarith)).1]

theorem looks_top {p : Pose} (h : Looks p .top) : 1 / 8 < revolution p.theta ∧ revolution p.theta < 3 / 8 := by
  have h' : |Real.cos p.theta| < Real.sin p.theta := h
  have h0 := (abs_nonneg (Real.cos p.theta)).trans_lt h'
  rcases side_y (θ := p.theta) (by rw [sq_lt_sq, abs_of_pos h0]; exact h') with g | g
  · exact g
  · rcases lt_or_ge (revolution p.theta) (3 / 4) with k | k
    · linarith [(quad3 k (by linarith [g.1])).2]
    · linarith [(quad4 k).2]

theorem looks_bottom {p : Pose} (h : Looks p .bottom) : 5 / 8 < revolution p.theta ∧ revolution p.theta < 7 / 8 := by
  have h' : |Real.cos p.theta| < -Real.sin p.theta := h
  have h0 := (abs_nonneg (Real.cos p.theta)).trans_lt h'
  rcases side_y (θ := p.theta) (by rw [sq_lt_sq, abs_of_neg (a := Real.sin p.theta) (by linarith)]; exact h') with g | g
  · rcases lt_or_ge (revolution p.theta) (1 / 4) with k | k
    · linarith [(quad1 k).2]
    · linarith [(quad2 (by linarith [g.2]) k).2]
  · exact g

/-- The test of the code is about the pillars of the side looked at. -/
theorem near_iff {sw ww ir il : ℝ} {p : Pose} {i j : Int} {side : Dir} (hl : Looks p side) :
    (Converter.new sw ww ir il).isNearPillar ⟨p.x - i * sw, p.y - j * sw, p.theta⟩ ↔
      ∃ q, pillarsAt sw i j side q ∧ lineDist p q < ir := by
  have key : ∀ q0 q : ℝ × ℝ, q.1 = i * sw + q0.1 → q.2 = j * sw + q0.2 →
      |Real.sin p.theta * (p.x - i * sw - q0.1) - Real.cos p.theta * (p.y - j * sw - q0.2)| = lineDist p q := by
    intro q0 q h1 h2
    unfold lineDist
    rw [h1, h2]
    congr 1
    ring
  have two : ∀ q1 q2 : ℝ × ℝ, (∀ q, pillarsAt sw i j side q ↔ q = (i * sw + q1.1, j * sw + q1.2) ∨ q = (i * sw + q2.1, j * sw + q2.2)) →
      (Converter.new sw ww ir il).pillars (revolution p.theta) = (q1, q2) →
      ((Converter.new sw ww ir il).isNearPillar ⟨p.x - i * sw, p.y - j * sw, p.theta⟩ ↔
        ∃ q, pillarsAt sw i j side q ∧ lineDist p q < ir) := by
    intro q1 q2 hq he
    unfold Converter.isNearPillar
    dsimp only
    rw [he, key q1 (i * sw + q1.1, j * sw + q1.2) rfl rfl, key q2 (i * sw + q2.1, j * sw + q2.2) rfl rfl, min_lt_iff]
    constructor
    · rintro (h | h)
      · exact ⟨_, (hq _).mpr (.inl rfl), h⟩
      · exact ⟨_, (hq _).mpr (.inr rfl), h⟩
    · rintro ⟨q, h1, h2⟩
      rcases (hq q).mp h1 with rfl | rfl
      · exact .inl h2
      · exact .inr h2
  have e1 : ∀ m : ℝ, m * sw + sw = (m + 1) * sw := fun m => by ring
  cases side with
  | right =>
    refine two (sw, 0) (sw, sw) ?_ ?_
    · rintro ⟨a, b⟩
      simp only [pillarsAt, Prod.mk.injEq, e1, add_zero]
      tauto
    · unfold Converter.pillars
      rw [if_pos (looks_right hl)]
      rfl
  | left =>
    obtain ⟨g1, g2⟩ := looks_left hl
    refine two (0, sw) (0, 0) ?_ ?_
    · rintro ⟨a, b⟩
      simp only [pillarsAt, Prod.mk.injEq, e1, add_zero]
      tauto
    · unfold Converter.pillars
      rw [if_neg (by intro h; exact h ⟨by linarith, by linarith⟩), if_neg (by linarith), if_pos (by linarith)]
      rfl
  | top =>
    obtain ⟨g1, g2⟩ := looks_top hl
    refine two (sw, sw) (0, sw) ?_ ?_
    · rintro ⟨a, b⟩
      simp only [pillarsAt, Prod.mk.injEq, e1, add_zero]
      tauto
    · unfold Converter.pillars
      rw [if_neg (by intro h; exact h ⟨by linarith, by linarith⟩), if_pos (by linarith)]
      rfl
  | bottom =>
    obtain ⟨g1, g2⟩ := looks_bottom hl
    refine two (0, 0) (sw, 0) ?_ ?_
    · rintro ⟨a, b⟩
      simp only [pillarsAt, Prod.mk.injEq, e1, add_zero]
      tauto
    · unfold Converter.pillars
      rw [if_neg (by intro h; exact h ⟨by linarith, by linarith⟩), if_neg (by linarith), if_neg (by linarith)]
      rfl

/-- **C34.** A wall is only returned if the line of the ray keeps the ignored radius from both pillars at the ends of the
side the robot looks at (which need not be the side that the ray hits). -/
theorem C34_pillars {sw ww ir il : ℝ} {k : Int} (hk : Width sw k) (hww : 0 < ww) (hsw : ww < sw) {W : Nat}
    {sort : List (Dir × F) → List (Dir × F)} (hs : Sorts sort) (pose : Pose) {i j : Int} (hi : 0 ≤ i ∧ i < 128)
    (hj : 0 ≤ j ∧ j < 128) (hx : InCell sw pose.x i) (hy : InCell sw pose.y j) (info : WallInfo)
    (h : (Converter.new sw ww ir il).convert W sort pose = some info) {side : Dir} (hl : Looks pose side) (q : ℝ × ℝ)
    (hq : pillarsAt sw i j side q) : ir ≤ lineDist pose q := by
  obtain ⟨hn, -⟩ := convert_some hww hsw hs (remquo_eq hk ww ir il hi.1 (by omega) hx)
    (remquo_eq hk ww ir il hj.1 (by omega) hy) h
  by_contra hc
  exact hn ((near_iff hl).mpr ⟨q, hq, not_le.mp hc⟩)

/-- **C34**, the converse, with these two pillars only: a wall of the maze at which the ray leaves the room, not in a
corner, further than the ignored length, is returned if no pillar at the ends of the side looked at is near the line of
the ray. -/
theorem C34_complete_looks {sw ww ir il : ℝ} {k : Int} (hk : Width sw k) (hww : 0 < ww) (hsw : ww < sw)
    {W : Nat} (hW : Supported W) {sort : List (Dir × F) → List (Dir × F)} (hs : Sorts sort) (pose : Pose) {i j : Int}
    (hi : 0 ≤ i ∧ i < 128) (hj : 0 ≤ j ∧ j < 128) (hin : (room sw ww i j).inside (pose.x, pose.y)) {front : Dir}
    (hl : Looks pose front) (hp : ∀ q, pillarsAt sw i j front q → ir ≤ lineDist pose q) {side : Dir} {a : ℝ}
    (ha : LeavesAt (room sw ww i j) pose a) (hside : ∀ d, (room sw ww i j).onSide (ray pose a) d → d = side) (hil : il < a)
    (c : Coord) (hc : Valid W c) (hcs : ((c.x : Int), (c.y : Int)) = sideOf i j side) :
    ∃ b, (Converter.new sw ww ir il).convert W sort pose = some ⟨c, .fin a, .fin b⟩ := by
  have hpos := width_pos hk
  obtain ⟨⟨hx1, hx2⟩, hy1, hy2⟩ := hin
  simp only [room] at hx1 hx2 hy1 hy2
  have hx : InCell sw pose.x i := ⟨by linarith, by linarith⟩
  have hy : InCell sw pose.y j := ⟨by linarith, by linarith⟩
  have hn : ¬ (Converter.new sw ww ir il).isNearPillar ⟨pose.x - i * sw, pose.y - j * sw, pose.theta⟩ := by
    intro h
    obtain ⟨q, h1, h2⟩ := (near_iff hl).mp h
    linarith [hp q h1]
  obtain ⟨u, α, β, he, hconv⟩ := convert_of (W := W) hww hsw hs (remquo_eq hk ww ir il hi.1 (by omega) hx)
    (remquo_eq hk ww ir il hj.1 (by omega) hy) hn ⟨by linarith, by linarith, by linarith, by linarith⟩
  have hα : α = a := leaves_unique ((leaves_shift _ _ _ _ _ _).mpr he.leaves) ha
  subst hα
  have hus := hside u ((onSide_shift sw ww i j pose α u).mpr he.side)
  exact ⟨β, hconv c ((wallAt_eq hW hi.1 hi.2 hj.1 hj.2).mpr ⟨hc, hus ▸ hcs⟩) hil⟩

/-- Close to the left wall, looking to the right: the pillars behind, on the left, do not matter. -/
example : Looks (centre 3) .right ∧ ∀ q, pillarsAt (9 / 100) 3 0 .right q → (45 / 1000 : ℝ) ≤ lineDist (centre 3) q := by
  refine ⟨?_, fun q hq => centre_far 3 q ⟨.inr hq.1, hq.2⟩⟩
  simp [Looks, centre]

/-- Looking to the right along the line of the upper pillars nothing is returned. -/
example (W : Nat) : Converter.default.convert W demoSort ⟨45 / 1000, 80001 / 1000000, 0⟩ = none := by
  match hc : Converter.default.convert W demoSort ⟨45 / 1000, 80001 / 1000000, 0⟩ with
  | none => rfl
  | some info =>
    exfalso
    have := C34_pillars default_width (by norm_num) (by norm_num) demoSort_sorts _ (i := 0) (j := 0) (by decide) (by decide)
      (by unfold InCell; norm_num) (by unfold InCell; norm_num) info hc (side := .right) (by simp [Looks]) (9 / 100, 9 / 100)
      (by simp [pillarsAt])
    simp only [lineDist, Real.sin_zero, Real.cos_zero] at this
    norm_num [abs_of_neg] at this

end Verif.Props
