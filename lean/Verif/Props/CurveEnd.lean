import Verif.Proof.Chord
import Verif.Props.Scale
/-!
# C70: where the curves of the table really end
-/
namespace Verif.Props
open Verif Verif.Control Verif.Straight Verif.Slalom Verif.Spec Verif.StraightP Verif.SlalomP Verif.ChordP
open Verif.Run (SlalomKind SlalomDirection)

/-- The curve of the table at the reference speed, as if the square had unit width. -/
noncomputable def refCurve (dist : ℝ) : Curve := generateCurve 1 0 0 0 dist 1 1 (3 * Real.pi) (36 * Real.pi) (1200 * Real.pi)

theorem refRequest : CurveRequest 1 1 (3 * Real.pi) (36 * Real.pi) (1200 * Real.pi) 1 := by
  have := Real.pi_pos
  constructor <;> positivity

theorem refGen : curveGen 1 1 (3 * Real.pi) (36 * Real.pi) (1200 * Real.pi) = g0 := by simp [curveGen, g0]

theorem ref_heading (q : ℚ) (s : ℝ) : curveHeading (refCurve (Real.pi * q)) s = heading q s := by
  unfold refCurve
  rw [curve_eq, refGen]
  rfl

theorem ref_heading_neg (q : ℚ) (hq : good q) (s : ℝ) : curveHeading (refCurve (-(Real.pi * q))) s = -heading q s := by
  have r1 : (1 / 4 : ℝ) ≤ q := by simpa using cast_le' hq.1
  have hd : 0 < Real.pi * q := by have := Real.pi_pos; positivity
  unfold refCurve
  rw [curve_eq, refGen]
  show ((g0.generate 0 (-(Real.pi * q)) 0 0).1.calculate s).x = -((g0.generate 0 (Real.pi * q) 0 0).1.calculate s).x
  rw [calc_eq g0_req, calc_eq g0_req]
  obtain ⟨v, p, rest, tA, tC, tD, P⟩ := plan g0_req (Real.pi * q)
  have P' : Plan g0 0 0 |-(Real.pi * q)| v p rest tA tC tD := by rw [abs_neg]; exact P
  have d1 : direction (Real.pi * q) = 1 := by unfold direction; rw [if_neg (not_lt.2 hd.le)]
  have d2 : direction (-(Real.pi * q)) = -1 := by unfold direction; rw [if_pos (by linarith)]
  rw [d1, d2]
  rcases p0 P with hp | hp
  · dsimp only
    rw [((stuck P hp 0).2.2.2.2 s).1, ((stuck P' hp 0).2.2.2.2 s).1]; simp
  · dsimp only
    rw [(finite P hp 0).2, (finite P' hp 0).2, abs_neg]; ring

/-- Sign of the turn. -/
def side : SlalomDirection → ℝ
  | .left => 1
  | .right => -1

/-- How long the curve of a slalom of the table takes. -/
theorem curve_duration (p : Slalom.Params) (q : ℚ) (hq : good q) (d : SlalomDirection) (hth : p.theta = side d * (Real.pi * q))
    (h1 : p.dtheta = 3 * Real.pi) (h2 : p.ddtheta = 36 * Real.pi) (h3 : p.dddtheta = 1200 * Real.pi)
    {v period r : ℝ} (hv : 0 < v) (hp : 0 < period) (hR : 0 < p.vRef) (hr : (slalomCurve p v period).tEnd = .fin r) :
    v / p.vRef / (1 / 1) * r = 2 * tRamp q + tMid q := by
  have hs : side d = 1 ∨ side d = -1 := by cases d <;> simp [side]
  have R : CurveRequest v p.vRef (3 * Real.pi) (36 * Real.pi) (1200 * Real.pi) period :=
    ⟨hv, hR, refRequest.dtheta, refRequest.ddtheta, refRequest.dddtheta, hp⟩
  unfold slalomCurve at hr
  rw [h1, h2, h3] at hr
  have hdur := (C69_duration R refRequest _ _ 0 0 _ _ r).1 hr
  have hT : (refCurve p.theta).tEnd = .fin (2 * tRamp q + tMid q : ℝ) := by
    unfold refCurve
    rw [curve_eq, refGen]
    show (g0.generate 0 p.theta 0 0).2.1 = _
    have hT := (shape hq).1
    rcases hs with e | e
    · rw [hth, e, one_mul]; exact hT
    · rw [hth, e, neg_one_mul]
      obtain ⟨v, p, rest, tA, tC, tD, P⟩ := plan g0_req (Real.pi * q)
      have P' : Plan g0 0 0 |-(Real.pi * q)| v p rest tA tC tD := by rw [abs_neg]; exact P
      rcases p0 P with hp | hp
      · exfalso
        rw [congrArg Prod.fst (stuck P hp 0).2.2.2.1] at hT
        dsimp only [F.infOf] at hT
        rw [if_neg (not_lt.2 (abs_nonneg _) : ¬ |Real.pi * (q : ℝ)| < 0)] at hT
        split at hT <;> cases hT
      · rw [← hT, congrArg Prod.fst (finite P hp 0).1, congrArg Prod.fst (finite P' hp 0).1]
  have := hdur.symm.trans hT
  simpa using this

/-- The curve of a slalom of the table ends at a known distance from its start, on the bisector of its turn. -/
theorem curve_end (p : Slalom.Params) (q : ℚ) (hq : good q) (d : SlalomDirection) (hth : p.theta = side d * (Real.pi * q))
    (h1 : p.dtheta = 3 * Real.pi) (h2 : p.ddtheta = 36 * Real.pi) (h3 : p.dddtheta = 1200 * Real.pi)
    {v period r : ℝ} (hv : 0 < v) (hp : 0 < period) (hR : 0 < p.vRef)
    (hr : (slalomCurve p v period).tEnd = .fin r) (X Y : ℝ → ℝ)
    (hF : Follows v (curveHeading (slalomCurve p v period)) X Y) :
    ∃ C : ℝ, |C - 2 * (halfChord q : ℚ)| ≤ 3e-10 * (2 * tRamp q + tMid q) ∧
      X r = X 0 + p.vRef * (C * Real.cos (Real.pi * q / 2)) ∧ Y r = Y 0 + side d * (p.vRef * (C * Real.sin (Real.pi * q / 2))) := by
  have hs : side d = 1 ∨ side d = -1 := by cases d <;> simp [side]
  have R : CurveRequest v p.vRef (3 * Real.pi) (36 * Real.pi) (1200 * Real.pi) period :=
    ⟨hv, hR, refRequest.dtheta, refRequest.ddtheta, refRequest.dddtheta, hp⟩
  have hr0 := hr
  unfold slalomCurve at hr hF
  rw [h1, h2, h3] at hr hF
  obtain ⟨X', Y', hF', -, -⟩ := C47_path_exists refRequest 0 0 0 p.theta
  have hpath := C69_path R refRequest _ _ 0 0 _ _ X Y X' Y' hF hF' r
  have hdur := (C69_duration R refRequest _ _ 0 0 _ _ r).1 hr
  have hk := curve_duration p q hq d hth h1 h2 h3 hv hp hR hr0
  have hb := C67_bisector refRequest 0 0 0 p.theta _ hdur X' Y' hF'
  rw [hk] at hb hpath
  generalize hTT : (2 * tRamp q + tMid q : ℝ) = T at *
  have hch : |(X' T - X' 0) * Real.cos (Real.pi * q / 2) + side d * (Y' T - Y' 0) * Real.sin (Real.pi * q / 2)
      - 2 * (halfChord q : ℚ)| ≤ 3e-10 * T := by
    rw [← hTT]
    rcases hs with e | e
    · rw [e, one_mul]
      refine chord hq fun s => ?_
      have := hF' s
      rw [hth, e, one_mul (Real.pi * (q : ℝ))] at this
      have hh := ref_heading q s
      unfold refCurve at hh
      rwa [hh] at this
    · have := chord hq (X := X') (Y := fun s => -Y' s) fun s => by
        have := hF' s
        rw [hth, e, neg_one_mul] at this
        have hh := ref_heading_neg q hq s
        unfold refCurve at hh
        rw [hh, Real.cos_neg, Real.sin_neg] at this
        exact ⟨this.1, this.2.neg.congr_deriv (by ring)⟩
      rw [e]
      rw [show -1 * (Y' (2 * tRamp q + tMid q) - Y' 0) = -Y' (2 * tRamp q + tMid q) - -Y' 0 by ring]
      exact this
  refine ⟨_, hch, ?_, ?_⟩
  all_goals
    have hsc := Real.sin_sq_add_cos_sq (Real.pi * q / 2)
    have hb' : (X' T - X' 0) * Real.sin (Real.pi * q / 2) = side d * (Y' T - Y' 0) * Real.cos (Real.pi * q / 2) := by
      rw [hth, zero_add] at hb
      rcases hs with e | e
      · rw [e, one_mul] at hb
        rw [e, one_mul]; exact hb
      · rw [e, neg_one_mul, neg_div, Real.sin_neg, Real.cos_neg] at hb
        rw [e]; linarith
    have hss : side d * side d = 1 := by rcases hs with e | e <;> rw [e] <;> norm_num
  · have := hpath.1
    rw [div_one] at this
    have hx : ((X' T - X' 0) * Real.cos (Real.pi * q / 2) + side d * (Y' T - Y' 0) * Real.sin (Real.pi * q / 2)) * Real.cos (Real.pi * q / 2) =
        X' T - X' 0 := by
      linear_combination (X' T - X' 0) * hsc - Real.sin (Real.pi * q / 2) * hb'
    rw [hx]; linarith
  · have := hpath.2
    rw [div_one] at this
    have hy : side d * (((X' T - X' 0) * Real.cos (Real.pi * q / 2) + side d * (Y' T - Y' 0) * Real.sin (Real.pi * q / 2)) * Real.sin (Real.pi * q / 2)) =
        Y' T - Y' 0 := by
      linear_combination (Y' T - Y' 0) * hsc + side d * Real.cos (Real.pi * q / 2) * hb' + (Y' T - Y' 0) * Real.sin (Real.pi * q / 2) ^ 2 * hss +
        (Y' T - Y' 0) * Real.cos (Real.pi * q / 2) ^ 2 * hss
    rw [show side d * (p.vRef * (((X' T - X' 0) * Real.cos (Real.pi * q / 2) + side d * (Y' T - Y' 0) * Real.sin (Real.pi * q / 2)) *
      Real.sin (Real.pi * q / 2))) = p.vRef * (side d * (((X' T - X' 0) * Real.cos (Real.pi * q / 2) + side d * (Y' T - Y' 0) *
      Real.sin (Real.pi * q / 2)) * Real.sin (Real.pi * q / 2))) by ring, hy]
    linarith

theorem cos_pi8 : Real.cos (Real.pi * ((1 / 4 : ℚ) : ℝ) / 2) = Real.cos (Real.pi / 8) := by congr 1; push_cast; ring
theorem sin_pi8 : Real.sin (Real.pi * ((1 / 4 : ℚ) : ℝ) / 2) = Real.sin (Real.pi / 8) := by congr 1; push_cast; ring
theorem cos_pi4 : Real.cos (Real.pi * ((1 / 2 : ℚ) : ℝ) / 2) = Real.sqrt 2 / 2 := by
  rw [← Real.cos_pi_div_four]; congr 1; push_cast; ring
theorem sin_pi4 : Real.sin (Real.pi * ((1 / 2 : ℚ) : ℝ) / 2) = Real.sqrt 2 / 2 := by
  rw [← Real.sin_pi_div_four]; congr 1; push_cast; ring
theorem cos_3pi8 : Real.cos (Real.pi * ((3 / 4 : ℚ) : ℝ) / 2) = Real.sin (Real.pi / 8) := by
  rw [← Real.cos_pi_div_two_sub]; congr 1; push_cast; ring
theorem sin_3pi8 : Real.sin (Real.pi * ((3 / 4 : ℚ) : ℝ) / 2) = Real.cos (Real.pi / 8) := by
  rw [← Real.sin_pi_div_two_sub]; congr 1; push_cast; ring
theorem cos_pi2 : Real.cos (Real.pi * ((1 : ℚ) : ℝ) / 2) = 0 := by rw [← Real.cos_pi_div_two]; congr 1; push_cast; ring
theorem sin_pi2 : Real.sin (Real.pi * ((1 : ℚ) : ℝ) / 2) = 1 := by rw [← Real.sin_pi_div_two]; congr 1; push_cast; ring

theorem bounds_of {C lo hi : ℝ} {q lo' hi' : ℚ} (h : |C - 2 * (halfChord q : ℚ)| ≤ 3e-10 * (2 * tRamp q + tMid q)) (ht : 2 * tRamp q + tMid q ≤ 1 / 2)
    (hb : lo' ≤ 2 * halfChord q ∧ 2 * halfChord q ≤ hi') (h1 : lo + 3e-10 ≤ lo') (h2 : (hi' : ℝ) ≤ hi - 3e-10) : lo ≤ C ∧ C ≤ hi := by
  have t := cast_le' ht
  have a := cast_le' hb.1
  have b := cast_le' hb.2
  push_cast at t a b
  rw [abs_le] at h
  obtain ⟨x, y⟩ := h
  constructor <;> linarith

/-- Distance between the ends of the curves at unit reference speed. -/
theorem chords {C : ℝ} {q : ℚ} (h : |C - 2 * (halfChord q : ℚ)| ≤ 3e-10 * (2 * tRamp q + tMid q)) :
    (q = 1 / 4 → 0.19044406 ≤ C ∧ C ≤ 0.190444065) ∧ (q = 1 / 2 → 0.234150925 ≤ C ∧ C ≤ 0.23415093) ∧
    (q = 3 / 4 → 0.24487892 ≤ C ∧ C ≤ 0.24487893) ∧ (q = 1 → 0.21832632 ≤ C ∧ C ≤ 0.21832633) := by
  obtain ⟨t1, t2, t3, t4⟩ := time_table
  obtain ⟨c1, c2, c3, c4⟩ := chord_table
  refine ⟨?_, ?_, ?_, ?_⟩ <;> rintro rfl
  · exact bounds_of h t1 c1 (by norm_num) (by norm_num)
  · exact bounds_of h t2 c2 (by norm_num) (by norm_num)
  · exact bounds_of h t3 c3 (by norm_num) (by norm_num)
  · exact bounds_of h t4 c4 (by norm_num) (by norm_num)

/-- The turn of a slalom kind, in half turns. -/
def turnQ : SlalomKind → ℚ
  | .fastRun45 | .fastRun45Rev => 1 / 4
  | .search90 | .fastRun90 | .fastRunDiagonal90 => 1 / 2
  | .fastRun135 | .fastRun135Rev => 3 / 4
  | .fastRun180 => 1

theorem turnQ_good (kind : SlalomKind) : good (turnQ kind) := by
  obtain ⟨a, b, c, d⟩ := good_table
  cases kind <;> assumption

theorem table_theta (sw fo : ℝ) (kind : SlalomKind) (d : SlalomDirection) :
    (parameters sw fo kind d).theta = side d * (Real.pi * turnQ kind) := by
  cases kind <;> cases d <;> simp only [parameters] <;> (try split) <;> simp only [createParams, side, turnQ, degree] <;> push_cast <;> ring

section
variable {sw fo v period r : ℝ} {X Y : ℝ → ℝ} {kind : SlalomKind} {d : SlalomDirection}

theorem table_end (hv : 0 < v) (hp : 0 < period) (hR : 0 < (parameters sw fo kind d).vRef)
    (hr : (slalomCurve (parameters sw fo kind d) v period).tEnd = .fin r)
    (hF : Follows v (curveHeading (slalomCurve (parameters sw fo kind d) v period)) X Y) :
    ∃ C : ℝ, ((turnQ kind = 1 / 4 → 0.19044406 ≤ C ∧ C ≤ 0.190444065) ∧ (turnQ kind = 1 / 2 → 0.234150925 ≤ C ∧ C ≤ 0.23415093) ∧
      (turnQ kind = 3 / 4 → 0.24487892 ≤ C ∧ C ≤ 0.24487893) ∧ (turnQ kind = 1 → 0.21832632 ≤ C ∧ C ≤ 0.21832633)) ∧
      X r = X 0 + (parameters sw fo kind d).vRef * (C * Real.cos (Real.pi * turnQ kind / 2)) ∧
      Y r = Y 0 + side d * ((parameters sw fo kind d).vRef * (C * Real.sin (Real.pi * turnQ kind / 2))) := by
  obtain ⟨a, b, c, -⟩ := table_limits sw fo kind d
  obtain ⟨C, h1, h2, h3⟩ := curve_end _ _ (turnQ_good kind) d (table_theta sw fo kind d) a b c hv hp hR hr X Y hF
  exact ⟨C, chords h1, h2, h3⟩

/-- C70: no curve of the table is longer than half its reference speed times one second. -/
theorem C70_length (hv : 0 < v) (hp : 0 < period) (hR : 0 < (parameters sw fo kind d).vRef)
    (hr : (slalomCurve (parameters sw fo kind d) v period).tEnd = .fin r) : v * r ≤ (parameters sw fo kind d).vRef / 2 := by
  obtain ⟨a, b, c, -⟩ := table_limits sw fo kind d
  have h := curve_duration _ _ (turnQ_good kind) d (table_theta sw fo kind d) a b c hv hp hR hr
  obtain ⟨t1, t2, t3, t4⟩ := time_table
  have ht : 2 * tRamp (turnQ kind) + tMid (turnQ kind) ≤ 1 / 2 := by cases kind <;> assumption
  have ht' : (2 * tRamp (turnQ kind) + tMid (turnQ kind) : ℝ) ≤ 1 / 2 := by simpa using cast_le' ht
  rw [← h, one_div_one, div_one, div_mul_eq_mul_div, div_le_iff₀ hR] at ht'
  linarith

set_option maxHeartbeats 1000000 in
/-- C70: all curves of the table but one lead to where the table says, within 3e-6 of the square width, at every speed. -/
theorem C70_ends (hsw : 0 < sw) (hv : 0 < v) (hp : 0 < period) (hR : 0 < (parameters sw fo kind d).vRef) (hk : kind ≠ .fastRun45)
    (hr : (slalomCurve (parameters sw fo kind d) v period).tEnd = .fin r)
    (hF : Follows v (curveHeading (slalomCurve (parameters sw fo kind d) v period)) X Y)
    (hX : X 0 = (parameters sw fo kind d).lStart) (hY : Y 0 = 0) :
    |X r - (parameters sw fo kind d).xCurveEnd| ≤ 3e-6 * sw ∧ |Y r - (parameters sw fo kind d).yCurveEnd| ≤ 3e-6 * sw := by
  obtain ⟨C, ⟨c1, c2, c3, c4⟩, ex, ey⟩ := table_end hv hp hR hr hF
  rw [ex, ey, hX, hY, zero_add]
  clear ex ey hX hY hF hr
  have lo := sqrt2_lo
  have hi := sqrt2_hi
  obtain ⟨s1, s2⟩ := sin8
  obtain ⟨c1', c2'⟩ := cos8
  have q1 : (0.70710678 : ℝ) ≤ Real.sqrt 2 / 2 := by linarith
  have q2 : Real.sqrt 2 / 2 ≤ 0.7071068 := by linarith
  have key (t e : ℝ) {a b C s s1 s2 : ℝ} (ht : 0 ≤ t) (hC : a ≤ C ∧ C ≤ b) (hs1 : s1 ≤ s) (hs2 : s ≤ s2) (ha : 0 ≤ a) (hs0 : 0 ≤ s1)
      (he1 : e - 3e-6 ≤ t * (a * s1)) (he2 : t * (b * s2) ≤ e + 3e-6) :
      |sw * t * (C * s) - sw * e| ≤ 3e-6 * sw := by
    obtain ⟨h1, h2⟩ := hC
    have g1 : a * s1 ≤ C * s := mul_le_mul h1 hs1 hs0 (ha.trans h1)
    have g2 : C * s ≤ b * s2 := mul_le_mul h2 hs2 (hs0.trans hs1) (ha.trans (h1.trans h2))
    have g3 := mul_le_mul_of_nonneg_left g1 ht
    have g4 := mul_le_mul_of_nonneg_left g2 ht
    have f1 : e - 3e-6 ≤ t * (C * s) := by linarith
    have f2 : t * (C * s) ≤ e + 3e-6 := by linarith
    rw [show sw * t * (C * s) - sw * e = sw * (t * (C * s) - e) by ring, abs_mul, abs_of_pos hsw, mul_comm]
    refine mul_le_mul_of_nonneg_right ?_ hsw.le
    rw [abs_le]; constructor <;> linarith
  have xx {ls x t u : ℝ} (h : |sw * t * u - sw * (x - ls)| ≤ 3e-6 * sw) : |sw * ls + sw * t * u - sw * x| ≤ 3e-6 * sw := by
    rwa [show sw * ls + sw * t * u - sw * x = sw * t * u - sw * (x - ls) by ring]
  have yy {y t u : ℝ} (h : |sw * t * u - sw * y| ≤ 3e-6 * sw) (d : SlalomDirection) :
      |side d * (sw * t * u) - side d * (sw * y)| ≤ 3e-6 * sw := by
    cases d
    · simpa [side] using h
    · simp only [side]
      rwa [show -1 * (sw * t * u) - -1 * (sw * y) = -(sw * t * u - sw * y) by ring, abs_neg]
  have fields (ls le x y vr th : ℝ) : (createParams ls le x y vr th sw d).lStart = sw * ls ∧ (createParams ls le x y vr th sw d).vRef = sw * vr ∧
      (createParams ls le x y vr th sw d).xCurveEnd = sw * x ∧ (createParams ls le x y vr th sw d).yCurveEnd = side d * (sw * y) := by
    cases d <;> simp [createParams, side]
  cases kind
  case fastRun45 => exact absurd rfl hk
  case search90 =>
    simp only [parameters] at hR ⊢
    generalize fo / 0.09 = o at *
    rw [show turnQ .search90 = 1 / 2 from rfl, cos_pi4, sin_pi4]
    by_cases h : o ≤ 0.055555556
    · rw [if_pos h] at hR ⊢
      obtain ⟨f1, f2, f3, f4⟩ := fields (0.055555567 - o) (0.055555556 + o) (0.5 - o) 0.44444445 2.6843333 90
      rw [f1, f2, f3, f4]
      refine ⟨xx (key _ _ (by norm_num) (c2 rfl) q1 q2 (by norm_num) (by norm_num) ?_ ?_), yy (key _ _ (by norm_num) (c2 rfl) q1 q2 (by norm_num)
        (by norm_num) ?_ ?_) d⟩ <;> norm_num <;> linarith
    · rw [if_neg h] at hR ⊢
      obtain ⟨f1, f2, f3, f4⟩ := fields 0 (o + o) (0.5 - o) (0.5 - o) ((0.5 - o) * 6.03975) 90
      rw [f2] at hR
      rw [f1, f2, f3, f4]
      have w0 : 0 < 0.5 - o := by
        have := (mul_pos_iff_of_pos_left hsw).1 hR
        linarith
      have w1 : 0.5 - o ≤ 1 / 2 := by linarith
      generalize 0.5 - o = w at *
      obtain ⟨k1, k2⟩ := c2 rfl
      refine ⟨xx (key _ _ (by linarith) (c2 rfl) q1 q2 (by norm_num) (by norm_num) ?_ ?_), yy (key _ _ (by linarith) (c2 rfl) q1 q2 (by norm_num)
        (by norm_num) ?_ ?_) d⟩ <;> norm_num <;> linarith
  case fastRun45Rev =>
    simp only [parameters]
    rw [show turnQ .fastRun45Rev = 1 / 4 from rfl, cos_pi8, sin_pi8]
    obtain ⟨f1, f2, f3, f4⟩ := fields 0.3635475 0.1564412 0.9500395 0.2429328 3.3333333 45
    rw [f1, f2, f3, f4]
    refine ⟨xx (key _ _ (by norm_num) (c1 rfl) c1' c2' (by norm_num) (by norm_num) ?_ ?_), yy (key _ _ (by norm_num) (c1 rfl) s1 s2 (by norm_num)
        (by norm_num) ?_ ?_) d⟩ <;> norm_num
  case fastRun90 =>
    simp only [parameters]
    rw [show turnQ .fastRun90 = 1 / 2 from rfl, cos_pi4, sin_pi4]
    obtain ⟨f1, f2, f3, f4⟩ := fields 0.22222222 0.22222222 1 0.7777778 4.697589 90
    rw [f1, f2, f3, f4]
    refine ⟨xx (key _ _ (by norm_num) (c2 rfl) q1 q2 (by norm_num) (by norm_num) ?_ ?_), yy (key _ _ (by norm_num) (c2 rfl) q1 q2 (by norm_num)
        (by norm_num) ?_ ?_) d⟩ <;> norm_num
  case fastRun135 =>
    simp only [parameters]
    rw [show turnQ .fastRun135 = 3 / 4 from rfl, cos_3pi8, sin_3pi8]
    obtain ⟨f1, f2, f3, f4⟩ := fields 0.24291888 0.15713444 0.6111111 0.8888889 3.928989 135
    rw [f1, f2, f3, f4]
    refine ⟨xx (key _ _ (by norm_num) (c3 rfl) s1 s2 (by norm_num) (by norm_num) ?_ ?_), yy (key _ _ (by norm_num) (c3 rfl) c1' c2' (by norm_num)
        (by norm_num) ?_ ?_) d⟩ <;> norm_num
  case fastRun135Rev =>
    simp only [parameters]
    rw [show turnQ .fastRun135Rev = 3 / 4 from rfl, cos_3pi8, sin_3pi8]
    obtain ⟨f1, f2, f3, f4⟩ := fields 0.15713444 0.24291888 0.52532303 0.88889056 3.928989 135
    rw [f1, f2, f3, f4]
    refine ⟨xx (key _ _ (by norm_num) (c3 rfl) s1 s2 (by norm_num) (by norm_num) ?_ ?_), yy (key _ _ (by norm_num) (c3 rfl) c1' c2' (by norm_num)
        (by norm_num) ?_ ?_) d⟩ <;> norm_num
  case fastRun180 =>
    simp only [parameters]
    rw [show turnQ .fastRun180 = 1 from rfl, cos_pi2, sin_pi2]
    obtain ⟨f1, f2, f3, f4⟩ := fields 0.26666668 0.26666668 0.26666668 1 4.5803113 180
    rw [f1, f2, f3, f4]
    refine ⟨xx (key (s1 := 0) (s2 := 0) _ _ (by norm_num) (c4 rfl) le_rfl le_rfl (by norm_num) (by norm_num) ?_ ?_), yy (key (s1 := 1) (s2 := 1) _ _ (by norm_num) (c4 rfl)
        le_rfl le_rfl (by norm_num) (by norm_num) ?_ ?_) d⟩ <;> norm_num
  case fastRunDiagonal90 =>
    simp only [parameters]
    rw [show turnQ .fastRunDiagonal90 = 1 / 2 from rfl, cos_pi4, sin_pi4]
    obtain ⟨f1, f2, f3, f4⟩ := fields 0.17377333 0.17377333 0.70710665 0.53333336 3.2212 90
    rw [f1, f2, f3, f4]
    refine ⟨xx (key _ _ (by norm_num) (c2 rfl) q1 q2 (by norm_num) (by norm_num) ?_ ?_), yy (key _ _ (by norm_num) (c2 rfl) q1 q2 (by norm_num)
        (by norm_num) ?_ ?_) d⟩ <;> norm_num

/-- C70: the curve of the 45 degree slalom leads too far, by 0.0031706 square widths in either direction; that is where the straight
that follows does not start. -/
theorem C70_wrong (hsw : 0 < sw) (hv : 0 < v) (hp : 0 < period)
    (hr : (slalomCurve (parameters sw fo .fastRun45 d) v period).tEnd = .fin r)
    (hF : Follows v (curveHeading (slalomCurve (parameters sw fo .fastRun45 d) v period)) X Y)
    (hX : X 0 = (parameters sw fo .fastRun45 d).lStart) (hY : Y 0 = 0) :
    (0.0031705 * sw ≤ X r - (parameters sw fo .fastRun45 d).xCurveEnd ∧ X r - (parameters sw fo .fastRun45 d).xCurveEnd ≤ 0.0031707 * sw) ∧
    (0.0031705 * sw ≤ side d * (Y r - (parameters sw fo .fastRun45 d).yCurveEnd) ∧
      side d * (Y r - (parameters sw fo .fastRun45 d).yCurveEnd) ≤ 0.0031707 * sw) := by
  have hR : 0 < (parameters sw fo .fastRun45 d).vRef := by cases d <;> simp only [parameters, createParams] <;> positivity
  obtain ⟨C, ⟨c1, -⟩, ex, ey⟩ := table_end hv hp hR hr hF
  rw [ex, ey, hX, hY, zero_add]
  clear ex ey hX hY hF hr
  obtain ⟨s1, s2⟩ := sin8
  obtain ⟨c1', c2'⟩ := cos8
  obtain ⟨k1, k2⟩ := c1 rfl
  have fields (ls le x y vr th : ℝ) : (createParams ls le x y vr th sw d).lStart = sw * ls ∧ (createParams ls le x y vr th sw d).vRef = sw * vr ∧
      (createParams ls le x y vr th sw d).xCurveEnd = sw * x ∧ (createParams ls le x y vr th sw d).yCurveEnd = side d * (sw * y) := by
    cases d <;> simp [createParams, side]
  simp only [parameters]
  rw [show turnQ .fastRun45 = 1 / 4 from rfl, cos_pi8, sin_pi8]
  obtain ⟨f1, f2, f3, f4⟩ := fields 0.1564414 0.3680321 0.739762 0.239762 3.3333333 45
  rw [f1, f2, f3, f4, ← mul_sub]
  have hs : side d * side d = 1 := by cases d <;> simp [side]
  have g1 : 0.19044406 * 0.92387953 ≤ C * Real.cos (Real.pi / 8) := mul_le_mul k1 c1' (by norm_num) (by linarith)
  have g2 : C * Real.cos (Real.pi / 8) ≤ 0.190444065 * 0.92387954 := mul_le_mul k2 c2' (by linarith) (by norm_num)
  have g3 : 0.19044406 * 0.38268343 ≤ C * Real.sin (Real.pi / 8) := mul_le_mul k1 s1 (by norm_num) (by linarith)
  have g4 : C * Real.sin (Real.pi / 8) ≤ 0.190444065 * 0.38268344 := mul_le_mul k2 s2 (by linarith) (by norm_num)
  generalize C * Real.cos (Real.pi / 8) = a at *
  generalize C * Real.sin (Real.pi / 8) = b at *
  have hb : 0 ≤ b := by linarith
  rw [← mul_assoc (side d), hs, one_mul]
  refine ⟨⟨?_, ?_⟩, ?_, ?_⟩ <;> nlinarith [mul_le_mul_of_nonneg_left g1 hsw.le, mul_le_mul_of_nonneg_left g2 hsw.le,
    mul_le_mul_of_nonneg_left g3 hsw.le, mul_le_mul_of_nonneg_left g4 hsw.le]

end

/-- C70: the 90 degree curve of a run at 1 m/s in 90 mm squares ends within 0.3 micrometres of its listed end. -/
example : ∃ r, (slalomCurve (parameters 0.09 0 .fastRun90 .right) 1 0.001).tEnd = .fin r ∧ ∃ X Y,
    Follows 1 (curveHeading (slalomCurve (parameters 0.09 0 .fastRun90 .right) 1 0.001)) X Y ∧
    X 0 = (parameters 0.09 0 .fastRun90 .right).lStart ∧ Y 0 = 0 ∧ |X r - 0.09| ≤ 3e-7 ∧ |Y r + 0.07| ≤ 3e-7 := by
  have hR : 0 < (parameters 0.09 0 .fastRun90 .right).vRef := by norm_num [parameters, createParams]
  obtain ⟨r, hr⟩ := C69_table_ends 0.09 0 .fastRun90 .right (v := 1) (period := 0.001) (by norm_num) (by norm_num) hR
  obtain ⟨X, Y, hF, hX, hY⟩ := C47_path_exists (table_request 0.09 0 .fastRun90 .right (v := 1) (period := 0.001) (by norm_num) (by norm_num) hR)
    (parameters 0.09 0 .fastRun90 .right).lStart 0 0 (parameters 0.09 0 .fastRun90 .right).theta
  refine ⟨r, hr, X, Y, hF, hX, hY, ?_⟩
  obtain ⟨a, b⟩ := C70_ends (by norm_num) (by norm_num) (by norm_num) hR (by decide) hr hF hX hY
  simp only [abs_le, parameters, createParams] at a b ⊢
  norm_num at a b ⊢
  refine ⟨⟨?_, ?_⟩, ?_, ?_⟩ <;> linarith [a.1, a.2, b.1, b.2]

/-- C70: the 45 degree curve ends more than 0.28 mm too far in either direction. -/
example : ∃ r, (slalomCurve (parameters 0.09 0 .fastRun45 .left) 1 0.001).tEnd = .fin r ∧ ∃ X Y,
    Follows 1 (curveHeading (slalomCurve (parameters 0.09 0 .fastRun45 .left) 1 0.001)) X Y ∧
    X 0 = (parameters 0.09 0 .fastRun45 .left).lStart ∧ Y 0 = 0 ∧
    0.00028 ≤ X r - (parameters 0.09 0 .fastRun45 .left).xCurveEnd ∧ 0.00028 ≤ Y r - (parameters 0.09 0 .fastRun45 .left).yCurveEnd := by
  have hR : 0 < (parameters 0.09 0 .fastRun45 .left).vRef := by norm_num [parameters, createParams]
  obtain ⟨r, hr⟩ := C69_table_ends 0.09 0 .fastRun45 .left (v := 1) (period := 0.001) (by norm_num) (by norm_num) hR
  obtain ⟨X, Y, hF, hX, hY⟩ := C47_path_exists (table_request 0.09 0 .fastRun45 .left (v := 1) (period := 0.001) (by norm_num) (by norm_num) hR)
    (parameters 0.09 0 .fastRun45 .left).lStart 0 0 (parameters 0.09 0 .fastRun45 .left).theta
  refine ⟨r, hr, X, Y, hF, hX, hY, ?_⟩
  obtain ⟨⟨a, -⟩, b, -⟩ := C70_wrong (by norm_num) (by norm_num) (by norm_num) hr hF hX hY
  rw [side, one_mul] at b
  constructor <;> linarith

end Verif.Props
