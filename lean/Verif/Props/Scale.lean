import Verif.Proof.Scale
import Verif.Props.Slalom
/-!
# C69: the shape of a curve does not depend on the speed
-/
namespace Verif.Props
open Verif Verif.Control Verif.Straight Verif.Slalom Verif.Spec Verif.StraightP Verif.SlalomP Verif.ScaleP
open Verif.Run (SlalomKind SlalomDirection)

/-- C69: with the limits and the velocities scaled the profile is run through `k` times faster; all searches for velocities scale as well. -/
theorem C69_profile {k : ℝ} (hk : 0 < k) (g : Gen) (xs dist vs ve t : ℝ) :
    ((Gen.mk (k * g.vMax) (k ^ 2 * g.aMax) (k ^ 3 * g.jMax)).generate xs dist (k * vs) (k * ve)).1.calculate t =
      ⟨((g.generate xs dist vs ve).1.calculate (k * t)).x, k * ((g.generate xs dist vs ve).1.calculate (k * t)).v,
        k ^ 2 * ((g.generate xs dist vs ve).1.calculate (k * t)).a, k ^ 3 * ((g.generate xs dist vs ve).1.calculate (k * t)).j⟩ := by
  have e : Gen.mk (k * g.vMax) (k ^ 2 * g.aMax) (k ^ 3 * g.jMax) = scaled k g := by
    simp only [scaled, Gen.mk.injEq, true_and]; constructor <;> ring
  rw [e, generate_scale hk, calc_overall hk]
  simp only [fast, Axis.mk.injEq, true_and]
  constructor <;> ring

/-- C69: so does the end time, and the velocity reached at the end is scaled. -/
theorem C69_end {k : ℝ} (hk : 0 < k) (g : Gen) (xs dist vs ve : ℝ) :
    (∀ r, ((Gen.mk (k * g.vMax) (k ^ 2 * g.aMax) (k ^ 3 * g.jMax)).generate xs dist (k * vs) (k * ve)).2.1 = .fin r ↔
      (g.generate xs dist vs ve).2.1 = .fin (k * r)) ∧
    ((Gen.mk (k * g.vMax) (k ^ 2 * g.aMax) (k ^ 3 * g.jMax)).generate xs dist (k * vs) (k * ve)).2.2 = k * (g.generate xs dist vs ve).2.2 := by
  have e : Gen.mk (k * g.vMax) (k ^ 2 * g.aMax) (k ^ 3 * g.jMax) = scaled k g := by
    simp only [scaled, Gen.mk.injEq, true_and]; constructor <;> ring
  rw [e, generate_scale hk]
  refine ⟨fun r => ?_, rfl⟩
  dsimp only
  cases (g.generate xs dist vs ve).2.1 <;> simp only [faster, reduceCtorEq, F.fin.injEq]
  rw [div_eq_iff hk.ne', mul_comm]

example : ((Gen.mk 2 40 800).generate 0 1 0 0).1.calculate 0.25 = ⟨((Gen.mk 1 10 100).generate 0 1 0 0).1.calculate 0.5 |>.x,
    2 * (((Gen.mk 1 10 100).generate 0 1 0 0).1.calculate 0.5).v, 4 * (((Gen.mk 1 10 100).generate 0 1 0 0).1.calculate 0.5).a,
    8 * (((Gen.mk 1 10 100).generate 0 1 0 0).1.calculate 0.5).j⟩ := by
  have := C69_profile (k := 2) (by norm_num) ⟨1, 10, 100⟩ 0 1 0 0 0.25
  norm_num at this ⊢
  exact this

section
variable {v vRef v' vRef' d1 d2 d3 h h' : ℝ}

/-- C69: the heading depends on speed and reference speed only through the time scale. -/
theorem C69_heading (R : CurveRequest v vRef d1 d2 d3 h) (R' : CurveRequest v' vRef' d1 d2 d3 h') (x y x' y' th dist s : ℝ) :
    curveHeading (generateCurve h x y th dist v vRef d1 d2 d3) s =
      curveHeading (generateCurve h' x' y' th dist v' vRef' d1 d2 d3) (v / vRef / (v' / vRef') * s) := by
  have hk : 0 < v / vRef / (v' / vRef') := div_pos (div_pos R.v R.vRef) (div_pos R'.v R'.vRef)
  have key := C69_profile hk (curveGen v' vRef' d1 d2 d3) th dist 0 0 s
  have e : Gen.mk (v / vRef / (v' / vRef') * (curveGen v' vRef' d1 d2 d3).vMax) ((v / vRef / (v' / vRef')) ^ 2 * (curveGen v' vRef' d1 d2 d3).aMax)
      ((v / vRef / (v' / vRef')) ^ 3 * (curveGen v' vRef' d1 d2 d3).jMax) = curveGen v vRef d1 d2 d3 := by
    have := R'.v.ne'; have := R'.vRef.ne'; have := R.vRef.ne'
    simp only [curveGen, Gen.mk.injEq]
    refine ⟨?_, ?_, ?_⟩ <;> field_simp
  rw [e, mul_zero] at key
  have := congrArg Axis.x key
  exact this

/-- C69: and the end time likewise. -/
theorem C69_duration (R : CurveRequest v vRef d1 d2 d3 h) (R' : CurveRequest v' vRef' d1 d2 d3 h') (x y x' y' th dist r : ℝ) :
    (generateCurve h x y th dist v vRef d1 d2 d3).tEnd = .fin r ↔
      (generateCurve h' x' y' th dist v' vRef' d1 d2 d3).tEnd = .fin (v / vRef / (v' / vRef') * r) := by
  have hk : 0 < v / vRef / (v' / vRef') := div_pos (div_pos R.v R.vRef) (div_pos R'.v R'.vRef)
  have key := (C69_end hk (curveGen v' vRef' d1 d2 d3) th dist 0 0).1 r
  have e : Gen.mk (v / vRef / (v' / vRef') * (curveGen v' vRef' d1 d2 d3).vMax) ((v / vRef / (v' / vRef')) ^ 2 * (curveGen v' vRef' d1 d2 d3).aMax)
      ((v / vRef / (v' / vRef')) ^ 3 * (curveGen v' vRef' d1 d2 d3).jMax) = curveGen v vRef d1 d2 d3 := by
    have := R'.v.ne'; have := R'.vRef.ne'; have := R.vRef.ne'
    simp only [curveGen, Gen.mk.injEq]
    refine ⟨?_, ?_, ?_⟩ <;> field_simp
  rw [e, mul_zero] at key
  exact key

/-- C69: the paths of two speeds are the same curve, run through at different rates, and scaled as the reference speeds. -/
theorem C69_path (R : CurveRequest v vRef d1 d2 d3 h) (R' : CurveRequest v' vRef' d1 d2 d3 h') (x y x' y' th dist : ℝ) (X Y X' Y' : ℝ → ℝ)
    (hF : Follows v (curveHeading (generateCurve h x y th dist v vRef d1 d2 d3)) X Y)
    (hF' : Follows v' (curveHeading (generateCurve h' x' y' th dist v' vRef' d1 d2 d3)) X' Y') (s : ℝ) :
    X s - X 0 = vRef / vRef' * (X' (v / vRef / (v' / vRef') * s) - X' 0) ∧
    Y s - Y 0 = vRef / vRef' * (Y' (v / vRef / (v' / vRef') * s) - Y' 0) := by
  have e := C69_heading R R' x y x' y' th dist
  have h1 := R'.v.ne'
  have h2 := R'.vRef.ne'
  have h3 := R.vRef.ne'
  have hid (s : ℝ) : HasDerivAt (fun s => v / vRef / (v' / vRef') * s) (v / vRef / (v' / vRef')) s := by
    simpa using (hasDerivAt_id s).const_mul (v / vRef / (v' / vRef'))
  constructor
  · have key := const_of_deriv (f := fun s => X s - vRef / vRef' * X' (v / vRef / (v' / vRef') * s)) (fun s => by
      refine ((hF s).1.sub ((((hF' _).1.comp s (hid s))).const_mul (vRef / vRef'))).congr_deriv ?_
      rw [e s]; field_simp; ring) s 0
    rw [mul_zero] at key
    linarith
  · have key := const_of_deriv (f := fun s => Y s - vRef / vRef' * Y' (v / vRef / (v' / vRef') * s)) (fun s => by
      refine ((hF s).2.sub ((((hF' _).2.comp s (hid s))).const_mul (vRef / vRef'))).congr_deriv ?_
      rw [e s]; field_simp; ring) s 0
    rw [mul_zero] at key
    linarith

end

/-- C69: the limits of every slalom of the table; they depend on neither kind nor direction. -/
theorem table_limits (sw fo : ℝ) (kind : SlalomKind) (d : SlalomDirection) :
    (parameters sw fo kind d).dtheta = 3 * Real.pi ∧ (parameters sw fo kind d).ddtheta = 36 * Real.pi ∧
    (parameters sw fo kind d).dddtheta = 1200 * Real.pi ∧ Real.pi / 4 ≤ |(parameters sw fo kind d).theta| := by
  have := Real.pi_pos
  have h (x : ℝ) (hx : 45 ≤ x) : Real.pi / 4 ≤ |degree x| := by
    unfold degree
    rw [abs_of_nonneg (by positivity)]
    nlinarith
  cases kind <;> cases d <;> simp only [parameters] <;> (try split) <;>
    refine ⟨rfl, rfl, rfl, ?_⟩ <;> simp only [createParams, abs_neg] <;> exact h _ (by norm_num)

theorem table_request (sw fo : ℝ) (kind : SlalomKind) (d : SlalomDirection) {v period : ℝ} (hv : 0 < v) (hp : 0 < period)
    (hR : 0 < (parameters sw fo kind d).vRef) :
    CurveRequest v (parameters sw fo kind d).vRef (parameters sw fo kind d).dtheta (parameters sw fo kind d).ddtheta
      (parameters sw fo kind d).dddtheta period := by
  obtain ⟨a, b, c, -⟩ := table_limits sw fo kind d
  have := Real.pi_pos
  rw [a, b, c]
  exact ⟨hv, hR, by positivity, by positivity, by positivity, hp⟩

/-- C69: the curves of the table end after finite time, for every speed. -/
theorem C69_table_ends (sw fo : ℝ) (kind : SlalomKind) (d : SlalomDirection) {v period : ℝ} (hv : 0 < v) (hp : 0 < period)
    (hR : 0 < (parameters sw fo kind d).vRef) : ∃ r, (slalomCurve (parameters sw fo kind d) v period).tEnd = .fin r := by
  have R := table_request sw fo kind d hv hp hR
  obtain ⟨a, b, c, hth⟩ := table_limits sw fo kind d
  have hpi := Real.pi_pos
  have R1 : CurveRequest 1 1 (parameters sw fo kind d).dtheta (parameters sw fo kind d).ddtheta (parameters sw fo kind d).dddtheta period :=
    ⟨one_pos, one_pos, R.dtheta, R.ddtheta, R.dddtheta, hp⟩
  obtain ⟨r, hr⟩ : ∃ r, (generateCurve period 0 0 0 (parameters sw fo kind d).theta 1 1 (parameters sw fo kind d).dtheta
      (parameters sw fo kind d).ddtheta (parameters sw fo kind d).dddtheta).tEnd = .fin r := by
    refine (C45_ends_iff (curve_request R1) 0 _).2 (.inr (.inr (le_trans ?_ hth)))
    rw [a, b, c]
    have hg : curveGen 1 1 (3 * Real.pi) (36 * Real.pi) (1200 * Real.pi) = ⟨3 * Real.pi, 36 * Real.pi, 1200 * Real.pi⟩ := by
      simp [curveGen]
    rw [hg]
    unfold rampDist resolution rampTime
    dsimp only
    rw [sub_zero, abs_of_pos (by positivity), if_neg, zero_add]
    · have h1 : Real.sqrt (3 * Real.pi / 2 ^ 25 / (1200 * Real.pi)) ≤ 1 := by
        rw [Real.sqrt_le_left one_pos.le, one_pow, div_le_one (by positivity)]; linarith
      nlinarith [mul_le_mul_of_nonneg_left h1 hpi.le]
    · rw [not_le, lt_div_iff₀ (by positivity)]
      nlinarith [mul_pos hpi hpi]
  have hk : 0 < v / (parameters sw fo kind d).vRef := div_pos hv hR
  refine ⟨r / (v / (parameters sw fo kind d).vRef), ?_⟩
  refine (C69_duration R R1 _ _ 0 0 _ _ _).2 ?_
  rw [hr]
  congr 1
  field_simp

/-! ## Concrete cases: the slaloms of the table, with 90 mm squares at 1 m/s and 1 kHz -/

/-- The request of C47 and C69 is met. -/
example : CurveRequest 1 (parameters 0.09 0 .fastRun45 .left).vRef (parameters 0.09 0 .fastRun45 .left).dtheta
    (parameters 0.09 0 .fastRun45 .left).ddtheta (parameters 0.09 0 .fastRun45 .left).dddtheta 0.001 :=
  table_request _ _ _ _ (by norm_num) (by norm_num) (by norm_num [parameters, createParams])

/-- C67: the jump of the 45 degree slalom is more than 0.15 mm. -/
example : ∃ r, (slalomCurve (parameters 0.09 0 .fastRun45 .left) 1 0.001).tEnd = .fin r ∧ ∃ X Y,
    Follows 1 (curveHeading (slalomCurve (parameters 0.09 0 .fastRun45 .left) 1 0.001)) X Y ∧
    X 0 = (parameters 0.09 0 .fastRun45 .left).lStart ∧ Y 0 = 0 ∧
    (0.00015 : ℝ) ^ 2 ≤ (X r - (parameters 0.09 0 .fastRun45 .left).xCurveEnd) ^ 2 + (Y r - (parameters 0.09 0 .fastRun45 .left).yCurveEnd) ^ 2 := by
  have hR : 0 < (parameters 0.09 0 .fastRun45 .left).vRef := by norm_num [parameters, createParams]
  obtain ⟨r, hr⟩ := C69_table_ends 0.09 0 .fastRun45 .left (v := 1) (period := 0.001) (by norm_num) (by norm_num) hR
  obtain ⟨X, Y, hF, hX, hY⟩ := C47_path_exists (table_request 0.09 0 .fastRun45 .left (v := 1) (period := 0.001) (by norm_num) (by norm_num) hR)
    (parameters 0.09 0 .fastRun45 .left).lStart 0 0 (parameters 0.09 0 .fastRun45 .left).theta
  refine ⟨r, hr, X, Y, hF, hX, hY, ?_⟩
  refine le_trans ?_ (C67_jump 0.09 0 (by norm_num) .left 1 0.001 r (by norm_num) (by norm_num) hr X Y hF hX hY)
  norm_num

/-- C68: the right turn of the search. -/
example : ∃ n1 n2 n3, ∃ first last1 first2 first3 last : Target,
    Yields (slalomNext .real (parameters 0.09 0 .search90 .right).curveEnd) (constantSlalom 0.001 (parameters 0.09 0 .search90 .right) 0.3) 0 first ∧
    Yields (slalomNext .real (parameters 0.09 0 .search90 .right).curveEnd) (constantSlalom 0.001 (parameters 0.09 0 .search90 .right) 0.3) n1 last1 ∧
    Yields (slalomNext .real (parameters 0.09 0 .search90 .right).curveEnd) (constantSlalom 0.001 (parameters 0.09 0 .search90 .right) 0.3) (n1 + 1) first2 ∧
    Yields (slalomNext .real (parameters 0.09 0 .search90 .right).curveEnd) (constantSlalom 0.001 (parameters 0.09 0 .search90 .right) 0.3) (n1 + n2 + 2) first3 ∧
    Yields (slalomNext .real (parameters 0.09 0 .search90 .right).curveEnd) (constantSlalom 0.001 (parameters 0.09 0 .search90 .right) 0.3) (n1 + n2 + n3 + 2) last := by
  have hR : 0 < (parameters 0.09 0 .search90 .right).vRef := by norm_num [parameters, createParams]
  obtain ⟨r, hr⟩ := C69_table_ends 0.09 0 .search90 .right (v := 0.3) (period := 0.001) (by norm_num) (by norm_num) hR
  obtain ⟨n1, n2, n3, a, b, c, d, e, ha, hb, hc, hd, he, -⟩ := C68_joints (parameters 0.09 0 .search90 .right) 0.3 0.001 r
    (table_request _ _ _ _ (by norm_num) (by norm_num) hR) (by norm_num [parameters, createParams]) (by norm_num [parameters, createParams]) hr
  exact ⟨n1, n2, n3, a, b, c, d, e, ha, hb, hc, hd, he⟩

end Verif.Props
