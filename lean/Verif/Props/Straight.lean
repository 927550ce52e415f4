import Verif.Proof.Profile
import Mathlib.Analysis.Calculus.Deriv.MeanValue
/-!
# Properties of straight and spin trajectories
-/
namespace Verif.Props
open Verif Verif.Control Verif.Straight Verif.Spec Verif.StraightP

variable {g : Gen} {vs ve : ℝ}

/-- C41: at every time the speed is between zero and the limit, in the direction of the request, and acceleration and
jerk are within their limits. -/
theorem C41_limits (h : Request g vs ve) (xs dist t : ℝ) :
    (0 ≤ direction dist * ((g.generate xs dist vs ve).1.calculate t).v ∧
      direction dist * ((g.generate xs dist vs ve).1.calculate t).v ≤ g.vMax) ∧
    |((g.generate xs dist vs ve).1.calculate t).a| ≤ g.aMax ∧ |((g.generate xs dist vs ve).1.calculate t).j| ≤ g.jMax := by
  obtain ⟨v, p, rest, tA, tC, tD, P⟩ := plan h dist
  rw [calc_eq h]
  dsimp only
  rw [abs_mul, abs_mul, dir_abs, mul_one, mul_one, mul_comm, mul_assoc, dir_sq, mul_one]
  rcases p0 P with hp | hp
  · obtain ⟨-, -, -, -, hu⟩ := stuck P hp xs
    obtain ⟨-, u2, u3, -, u5⟩ := hu t
    rw [u2, u3]
    exact ⟨⟨le_rfl, h.v.le⟩, by simpa using h.a.le, u5⟩
  · rw [(finite P hp xs).2 t]
    exact U_bounds P xs t

/-- A request that is neither trivial nor at a limit. -/
private theorem exReq : Request ⟨1, 10, 100⟩ (1 / 4) (1 / 2) := by constructor <;> norm_num

example (t : ℝ) : |((Gen.generate ⟨1, 10, 100⟩ 0 (-3) (1 / 4) (1 / 2)).1.calculate t).a| ≤ 10 :=
  (C41_limits exReq 0 (-3) t).2.1

/-! ## C42: the end -/

/-- C42: from the end time on the target is the requested distance from the start, with the reported terminal velocity in
the direction of the request and no acceleration. -/
theorem C42_end (h : Request g vs ve) (xs dist t : ℝ) (ht : (g.generate xs dist vs ve).2.1.le (.fin t)) :
    ((g.generate xs dist vs ve).1.calculate t).x = xs + dist ∧
    ((g.generate xs dist vs ve).1.calculate t).v = direction dist * (g.generate xs dist vs ve).2.2 ∧
    ((g.generate xs dist vs ve).1.calculate t).a = 0 := by
  obtain ⟨v, p, rest, tA, tC, tD, P⟩ := plan h dist
  rw [calc_eq h]
  dsimp only
  rcases p0 P with hp | hp
  · obtain ⟨-, -, -, he, -⟩ := stuck P hp xs
    exfalso
    rw [he] at ht
    unfold F.infOf at ht
    rw [if_neg (not_lt.2 (abs_nonneg _) : ¬ |dist| < 0)] at ht
    split at ht <;> exact ht
  · obtain ⟨he, hu⟩ := finite P hp xs
    rw [he] at ht ⊢
    rw [hu]
    obtain ⟨u1, u2, u3⟩ := U_end P hp xs t ht
    rw [u1, u2, u3, add_sub_cancel_left, dir_mul, zero_mul]
    exact ⟨add_comm _ _, mul_comm _ _, rfl⟩

/-- C42: after the end time the jerk is zero as well. -/
theorem C42_after (h : Request g vs ve) (xs dist t : ℝ) (ht : (g.generate xs dist vs ve).2.1.lt (.fin t)) :
    (g.generate xs dist vs ve).1.calculate t = ⟨xs + dist, direction dist * (g.generate xs dist vs ve).2.2, 0, 0⟩ := by
  obtain ⟨v, p, rest, tA, tC, tD, P⟩ := plan h dist
  rw [calc_eq h]
  rcases p0 P with hp | hp
  · obtain ⟨-, -, -, he, -⟩ := stuck P hp xs
    exfalso
    rw [he] at ht
    unfold F.infOf at ht
    rw [if_neg (not_lt.2 (abs_nonneg _) : ¬ |dist| < 0)] at ht
    split at ht <;> exact ht
  · obtain ⟨he, hu⟩ := finite P hp xs
    rw [he] at ht ⊢
    rw [hu]
    have ht : tA + tC + tD < t := ht
    have a0 := tA0 P
    have c0 := tC0 P
    have d0 := tD0 P
    unfold U
    rw [if_neg (by linarith), if_neg (by linarith), if_neg (by linarith), if_neg (by linarith)]
    dsimp only
    rw [add_sub_cancel_left, dir_mul, zero_mul, add_comm, mul_comm]

/-- C42: at the start the target is the start. -/
theorem C42_start (h : Request g vs ve) (xs dist : ℝ) :
    ((g.generate xs dist vs ve).1.calculate 0).x = xs ∧
    ((g.generate xs dist vs ve).1.calculate 0).v = direction dist * vs ∧
    ((g.generate xs dist vs ve).1.calculate 0).a = 0 := by
  obtain ⟨v, p, rest, tA, tC, tD, P⟩ := plan h dist
  rw [calc_eq h]
  dsimp only
  rcases p0 P with hp | hp
  · obtain ⟨e1, -, -, -, hu⟩ := stuck P hp xs
    obtain ⟨u1, u2, u3, -⟩ := hu 0
    rw [u1, u2, u3, e1]; simp
  · rw [(finite P hp xs).2]
    obtain ⟨k, k2, k3, k4, k5, k6⟩ := accA P xs
    have ka := acc_zero k
    unfold U
    rw [if_neg (lt_irrefl _), if_pos (tA0 P), ka.1, ka.2.1, ka.2.2, k3, k5]
    simp [mul_comm]

/-- C42: speeding up, the terminal velocity is at most the requested one, is reached within the distance, and either is the
requested one or is the largest reachable one up to the resolution of the search. -/
theorem C42_terminal_up (h : Request g vs ve) (hlt : vs < ve) (xs dist : ℝ) :
    vs ≤ (g.generate xs dist vs ve).2.2 ∧ (g.generate xs dist vs ve).2.2 ≤ ve ∧
    rampDist g vs (g.generate xs dist vs ve).2.2 ≤ |dist| ∧
    ((g.generate xs dist vs ve).2.2 = ve ∨
      |dist| ≤ rampDist g vs ((g.generate xs dist vs ve).2.2 + resolution (g.vMax - vs)) ∨
      (g.generate xs dist vs ve).2.2 + resolution (g.vMax - vs) = g.vMax) := by
  obtain ⟨v, p, rest, tA, tC, tD, P⟩ := plan h dist
  have e : (g.generate xs dist vs ve).2.2 = g.aim vs ve |dist| := by rw [generate_eq P]; exact P.hv
  rw [e]
  exact aim_up h hlt (abs_nonneg _)

/-- C42: slowing down or keeping the speed, the terminal velocity is between the requested one and the start velocity, and
either is the requested one or needs at least the distance, while a velocity one step of the search larger needs less. -/
theorem C42_terminal_down (h : Request g vs ve) (hle : ve ≤ vs) (xs dist : ℝ) :
    ve ≤ (g.generate xs dist vs ve).2.2 ∧ (g.generate xs dist vs ve).2.2 ≤ vs ∧
    ((g.generate xs dist vs ve).2.2 = ve ∨
      (|dist| ≤ rampDist g vs (g.generate xs dist vs ve).2.2 ∧
        (rampDist g vs ((g.generate xs dist vs ve).2.2 + resolution vs) < |dist| ∨
          (g.generate xs dist vs ve).2.2 + resolution vs = vs))) := by
  obtain ⟨v, p, rest, tA, tC, tD, P⟩ := plan h dist
  have e : (g.generate xs dist vs ve).2.2 = g.aim vs ve |dist| := by rw [generate_eq P]; exact P.hv
  rw [e]
  exact aim_down h hle

/-- C42: speeding up, a velocity that is reachable with one step of the search to spare is reached exactly. -/
theorem C42_exact_up (h : Request g vs ve) (hlt : vs < ve) (xs dist : ℝ) (h1 : ve + resolution (g.vMax - vs) ≤ g.vMax)
    (h2 : rampDist g vs (ve + resolution (g.vMax - vs)) < |dist|) : (g.generate xs dist vs ve).2.2 = ve := by
  obtain ⟨a1, a2, a3, a4⟩ := C42_terminal_up h hlt xs dist
  have hw := resolution_nonneg (sub_nonneg.2 h.start1)
  rcases a4 with a4 | a4 | a4
  · exact a4
  · have := rampDist_mono h.a h.j h.start0 (by linarith)
      (by linarith : (g.generate xs dist vs ve).2.2 + resolution (g.vMax - vs) ≤ ve + resolution (g.vMax - vs))
    linarith
  · linarith

/-- C42: slowing down, a velocity is reached exactly when it and all velocities between need less than the distance. -/
theorem C42_exact_down (h : Request g vs ve) (hle : ve ≤ vs) (xs dist : ℝ)
    (h1 : ∀ u, ve ≤ u → u < vs → rampDist g vs u < |dist|) : (g.generate xs dist vs ve).2.2 = ve := by
  obtain ⟨a1, a2, a3⟩ := C42_terminal_down h hle xs dist
  rcases a3 with a3 | ⟨a3, -⟩
  · exact a3
  · rcases a2.lt_or_eq with a2 | a2
    · exact absurd (h1 _ a1 a2) (not_lt.2 a3)
    · rcases hle.lt_or_eq with hlt | heq
      · have := h1 ve le_rfl hlt
        rw [a2, rampDist_self h.a h.j] at a3
        have := rampDist_nonneg h.a h.j h.start0 h.end0
        linarith
      · rw [a2, heq]

/-- C42: in particular it is when there is room for driving the start velocity for as long as the ramp takes. -/
theorem C42_roomy (h : Request g vs ve) (hle : ve ≤ vs) (xs dist : ℝ)
    (h1 : vs * rampTime g.aMax g.jMax (vs - ve) < |dist|) : (g.generate xs dist vs ve).2.2 = ve := by
  refine C42_exact_down h hle xs dist fun u hu hu' => lt_of_le_of_lt ?_ h1
  unfold rampDist
  rw [abs_sub_comm, abs_of_nonneg (by linarith)]
  exact mul_le_mul (by linarith) (rampTime_mono h.a h.j (by linarith)) (rampTime_nonneg h.a h.j (by linarith)) h.start0

example : (Gen.generate ⟨1, 10, 100⟩ 0 (-3) (1 / 4) (1 / 2)).2.2 = 1 / 2 := by
  refine C42_exact_up exReq (by norm_num) 0 (-3) (by norm_num [resolution]) ?_
  have hw : resolution ((1:ℝ) - 1 / 4) ≤ 1 / 4 := by norm_num [resolution]
  refine lt_of_le_of_lt (rampDist_mono exReq.a exReq.j exReq.start0 (y := 1)
    (by have := resolution_nonneg (w := (1:ℝ) - 1/4) (by norm_num); dsimp only at *; linarith) (by dsimp only at *; linarith)) ?_
  unfold rampDist
  rw [show |(1:ℝ) - 1 / 4| = 3 / 4 by rw [abs_of_pos] <;> norm_num]
  have : rampTime 10 100 (3 / 4) ≤ rampTime 10 100 1 := rampTime_mono (by norm_num) (by norm_num) (by norm_num)
  have e : rampTime 10 100 1 = 2 / 10 := by unfold rampTime; rw [if_pos (by norm_num)]; norm_num
  have e3 : |(-3:ℝ)| = 3 := by rw [abs_of_neg] <;> norm_num
  rw [e3]
  dsimp only
  linarith

/-- The distance needed to slow down is not monotone, so that the search misses velocities that are reachable: asked to
stop within exactly its stopping distance, a robot slower than `a_max² / j_max` is sent along at half its speed or more. -/
theorem C42_missed_stop (h : Request g vs 0) (hvs : 0 < vs) (hlow : vs ≤ g.aMax ^ 2 / g.jMax) (xs : ℝ) :
    vs / 2 ≤ (g.generate xs (rampDist g vs 0) vs 0).2.2 := by
  obtain ⟨v, p, rest, tA, tC, tD, P⟩ := plan h (rampDist g vs 0)
  have e : (g.generate xs (rampDist g vs 0) vs 0).2.2 = g.aim vs 0 |rampDist g vs 0| := by rw [generate_eq P]; exact P.hv
  have hd : 0 ≤ rampDist g vs 0 := rampDist_nonneg h.a h.j hvs.le le_rfl
  have hr : ∀ x, x ≤ vs → rampTime g.aMax g.jMax x = 2 * Real.sqrt (x / g.jMax) := by
    intro x hx
    unfold rampTime
    split
    · rename_i hge
      have hx' : x = g.aMax ^ 2 / g.jMax := le_antisymm (hx.trans hlow) hge
      have ha := h.a
      have hj := h.j
      rw [hx', sqrt_sq_div h.a h.j]; field_simp; ring
    · rfl
  have hkey : rampDist g vs 0 ≤ rampDist g vs (vs / 2) := by
    unfold rampDist
    rw [zero_sub, abs_neg, abs_of_pos hvs, show vs / 2 - vs = -(vs / 2) by ring, abs_neg, abs_of_pos (by linarith),
      hr vs le_rfl, hr (vs / 2) (by linarith)]
    have h1 : Real.sqrt (vs / g.jMax) ≤ 3 / 2 * Real.sqrt (vs / 2 / g.jMax) := by
      rw [show (3:ℝ) / 2 = Real.sqrt (9 / 4) by
        rw [show (9:ℝ) / 4 = (3 / 2) ^ 2 by norm_num, Real.sqrt_sq (by norm_num)], ← Real.sqrt_mul (by norm_num)]
      refine Real.sqrt_le_sqrt ?_
      have : 0 ≤ vs / g.jMax := div_nonneg hvs.le h.j.le
      rw [show 9 / 4 * (vs / 2 / g.jMax) = 9 / 8 * (vs / g.jMax) by ring]
      linarith
    nlinarith
  rw [e, abs_of_nonneg hd]
  have hreach : vs / 2 ≤ g.reachable vs 0 (rampDist g vs 0) := by
    unfold Gen.reachable
    rw [if_neg (not_lt.2 hvs.le), show LOOP_COUNT = 24 + 1 from rfl]
    unfold bisect
    dsimp only
    rw [zero_add, if_pos (by rw [accDist_eq]; exact not_lt.2 hkey)]
    exact (bisect_spec _ 24 (vs / 2) vs (by linarith)).1
  unfold Gen.aim
  rw [if_neg (not_lt.2 hvs.le)]
  split
  · exact hreach
  · rename_i hn
    have : g.reachable vs 0 (rampDist g vs 0) ≤ 0 := not_lt.1 hn
    linarith

example : (1:ℝ) / 4 ≤ (Gen.generate ⟨1, 10, 100⟩ 0 (rampDist ⟨1, 10, 100⟩ (1 / 2) 0) (1 / 2) 0).2.2 := by
  have := C42_missed_stop (g := ⟨1, 10, 100⟩) (vs := 1 / 2) (by constructor <;> norm_num) (by norm_num) (by norm_num) 0
  linarith

/-! ## C43: derivatives -/

/-- C43: the reported acceleration is the derivative of the reported velocity, at every time. -/
theorem C43_velocity (h : Request g vs ve) (xs dist t : ℝ) :
    HasDerivAt (fun s => ((g.generate xs dist vs ve).1.calculate s).v) ((g.generate xs dist vs ve).1.calculate t).a t := by
  obtain ⟨v, p, rest, tA, tC, tD, P⟩ := plan h dist
  simp only [calc_eq h]
  rcases p0 P with hp | hp
  · obtain ⟨-, -, -, -, hu⟩ := stuck P hp xs
    simp only [(hu _).2.1, (hu t).2.2.1]
    simpa using hasDerivAt_const t (0:ℝ)
  · simp only [(finite P hp xs).2]
    exact (U_deriv_v P xs t).mul_const _

/-- C43: the reported velocity is the derivative of the reported position, at every time between start and end. -/
theorem C43_position (h : Request g vs ve) (xs dist t : ℝ) (h0 : 0 < t) (h1 : (F.fin t).lt (g.generate xs dist vs ve).2.1) :
    HasDerivAt (fun s => ((g.generate xs dist vs ve).1.calculate s).x) ((g.generate xs dist vs ve).1.calculate t).v t := by
  obtain ⟨v, p, rest, tA, tC, tD, P⟩ := plan h dist
  simp only [calc_eq h]
  rcases p0 P with hp | hp
  · obtain ⟨-, -, -, -, hu⟩ := stuck P hp xs
    simp only [(hu _).1, (hu t).2.1]
    simpa using hasDerivAt_const t xs
  · obtain ⟨he, hu⟩ := finite P hp xs
    rw [he] at h1
    have h1 : t < tA + tC + tD := h1
    simp only [hu]
    obtain ⟨Z, z1, z2, -, -⟩ := U_deriv_x P hp xs
    have : HasDerivAt (fun s => (U g xs vs |dist| v p tA tC tD s).x) (U g xs vs |dist| v p tA tC tD t).v t := by
      refine (z1 t).congr_of_eventuallyEq ?_
      filter_upwards [Ioo_mem_nhds h0 h1] with s hs
      exact z2 s hs.1 hs.2.le
    exact ((this.sub_const xs).mul_const _).add_const xs

theorem fits_iff {d v p rest tA tC tD : ℝ} (P : Plan g vs ve d v p rest tA tC tD) :
    min 0 rest = min 0 (d - rampDist g vs v) := by
  rcases lt_or_ge rest 0 with hr | hr
  · obtain ⟨e1, -⟩ := rest_neg P hr
    rw [P.hrest, e1, rampDist_self P.req.a P.req.j, sub_zero]
  · rw [min_eq_left hr, min_eq_left]
    have hR := P.hrest
    rcases le_total vs v with hle | hle
    · have h1 := rampDist_mono P.req.a P.req.j P.req.start0 hle P.vp
      have h2 := rampDist_nonneg P.req.a P.req.j (P.v0.trans P.vp) P.v0 (g := g)
      linarith
    · have h1 := rampDist_mono P.req.a P.req.j P.v0 hle P.vsp
      rw [rampDist_symm v vs, rampDist_symm v p] at h1
      have h2 := rampDist_nonneg P.req.a P.req.j P.req.start0 (P.v0.trans P.vp) (g := g)
      linarith

/-- C43: right after the start the position is the start position, unless the terminal velocity needs more than the
distance; then the position has jumped back by what is missing. -/
theorem C43_start (h : Request g vs ve) (xs dist : ℝ) :
    Filter.Tendsto (fun s => ((g.generate xs dist vs ve).1.calculate s).x) (nhdsWithin 0 (Set.Ioi 0))
      (nhds (xs + direction dist * min 0 (|dist| - rampDist g vs (g.generate xs dist vs ve).2.2))) := by
  obtain ⟨v, p, rest, tA, tC, tD, P⟩ := plan h dist
  simp only [calc_eq h]
  rcases p0 P with hp | hp
  · obtain ⟨e1, -, -, he, hu⟩ := stuck P hp xs
    simp only [(hu _).1, he]
    rw [e1, rampDist_self h.a h.j, sub_zero, min_eq_left (abs_nonneg _)]
    simpa using tendsto_const_nhds
  · obtain ⟨he, hu⟩ := finite P hp xs
    simp only [hu, he]
    rw [← fits_iff P]
    obtain ⟨Z, z1, z2, z3, z4⟩ := U_deriv_x P hp xs
    have hZ : Filter.Tendsto (fun s => (U g xs vs |dist| v p tA tC tD s).x) (nhdsWithin 0 (Set.Ioi 0)) (nhds (xs + min 0 rest)) := by
      have a0 := tA0 P
      have c0 := tC0 P
      have d0 := tD0 P
      rcases (by linarith : (0:ℝ) ≤ tA + tC + tD).lt_or_eq with hT | hT
      · have hc : Filter.Tendsto Z (nhdsWithin 0 (Set.Ioi 0)) (nhds (Z 0)) := (z1 0).continuousAt.tendsto.mono_left nhdsWithin_le_nhds
        rw [z3] at hc
        refine hc.congr' ?_
        filter_upwards [self_mem_nhdsWithin, mem_nhdsWithin_of_mem_nhds (Iio_mem_nhds hT)] with s hs hs'
        exact (z2 s hs (le_of_lt hs')).symm
      · rw [← hT] at z4
        rw [← z3, z4]
        refine tendsto_const_nhds.congr' ?_
        filter_upwards [self_mem_nhdsWithin] with s hs
        exact (U_end P hp xs s (by rw [← hT]; exact le_of_lt hs)).1.symm
    have := ((hZ.sub_const xs).mul_const (direction dist)).add_const xs
    refine this.trans_eq ?_
    congr 1
    ring

/-- C43: when the terminal velocity needs no more than the distance, the position moves steadily from the start to the
destination: never back, never outside. -/
theorem C43_monotone (h : Request g vs ve) (xs dist : ℝ) (hf : rampDist g vs (g.generate xs dist vs ve).2.2 ≤ |dist|) :
    (∀ s t, s ≤ t → direction dist * ((g.generate xs dist vs ve).1.calculate s).x ≤
      direction dist * ((g.generate xs dist vs ve).1.calculate t).x) ∧
    ∀ t, 0 ≤ direction dist * (((g.generate xs dist vs ve).1.calculate t).x - xs) ∧
      direction dist * (((g.generate xs dist vs ve).1.calculate t).x - xs) ≤ |dist| := by
  obtain ⟨v, p, rest, tA, tC, tD, P⟩ := plan h dist
  have key : (∀ s t, s ≤ t → ((g.generate xs dist vs ve).1.unsigned s).x ≤ ((g.generate xs dist vs ve).1.unsigned t).x) ∧
      ∀ t, xs ≤ ((g.generate xs dist vs ve).1.unsigned t).x ∧ ((g.generate xs dist vs ve).1.unsigned t).x ≤ xs + |dist| := by
    rcases p0 P with hp | hp
    · obtain ⟨-, -, -, -, hu⟩ := stuck P hp xs
      refine ⟨fun s t _ => by rw [(hu s).1, (hu t).1], fun t => ?_⟩
      rw [(hu t).1]
      exact ⟨le_rfl, by linarith [abs_nonneg dist]⟩
    · obtain ⟨he, hu⟩ := finite P hp xs
      rw [he] at hf
      simp only [hu]
      obtain ⟨Z, z1, z2, z3, z4⟩ := U_deriv_x P hp xs
      rw [fits_iff P, min_eq_left (sub_nonneg.2 hf), add_zero] at z3
      have hT : (0:ℝ) ≤ tA + tC + tD := by
        have := tA0 P; have := tC0 P; have := tD0 P; linarith
      have hm : Monotone Z := monotone_of_hasDerivAt_nonneg z1 (fun t => (U_bounds P xs t).1.1)
      have hx0 : ∀ s, s ≤ 0 → (U g xs vs |dist| v p tA tC tD s).x = xs := by
        intro s hs
        obtain ⟨k, k2, k3, k4, k5, k6⟩ := accA P xs
        rcases hs.lt_or_eq with h | h
        · unfold U; rw [if_pos h]
        · unfold U; rw [h, if_neg (lt_irrefl _), if_pos (tA0 P), (acc_zero k).1, k5]
      have hclamp : ∀ s, (U g xs vs |dist| v p tA tC tD s).x = Z (max 0 (min s (tA + tC + tD))) := by
        intro s
        rcases le_total s 0 with h0 | h0
        · rw [hx0 s h0, max_eq_left ((min_le_left _ _).trans h0), z3]
        rcases le_total s (tA + tC + tD) with h1 | h1
        · rw [min_eq_left h1, max_eq_right h0]
          rcases h0.lt_or_eq with h | h
          · exact z2 s h h1
          · rw [← h, hx0 0 le_rfl, z3]
        · rw [min_eq_right h1, max_eq_right hT, z4]; exact (U_end P hp xs s h1).1
      refine ⟨fun s t hst => ?_, fun t => ?_⟩
      · rw [hclamp, hclamp]
        exact hm (max_le_max le_rfl (min_le_min hst le_rfl))
      · rw [hclamp]
        constructor
        · rw [← z3]; exact hm (le_max_left _ _)
        · rw [← z4]; exact hm (max_le hT (min_le_right _ _))
  have e : ∀ t, direction dist * ((g.generate xs dist vs ve).1.calculate t).x =
      ((g.generate xs dist vs ve).1.unsigned t).x - xs + direction dist * xs := by
    intro t
    rw [calc_eq h]
    dsimp only
    have := dir_sq dist
    linear_combination (((g.generate xs dist vs ve).1.unsigned t).x - xs) * this
  refine ⟨fun s t hst => by rw [e, e]; linarith [key.1 s t hst], fun t => ?_⟩
  rw [mul_sub, e]
  obtain ⟨h1, h2⟩ := key.2 t
  constructor <;> linarith

/-- C43: the reported acceleration changes no faster than the jerk limit, even across switch points. -/
theorem C43_acceleration (h : Request g vs ve) (xs dist s t : ℝ) :
    |((g.generate xs dist vs ve).1.calculate t).a - ((g.generate xs dist vs ve).1.calculate s).a| ≤ g.jMax * |t - s| := by
  obtain ⟨v, p, rest, tA, tC, tD, P⟩ := plan h dist
  rw [calc_eq h, calc_eq h]
  dsimp only
  rw [← sub_mul, abs_mul, dir_abs, mul_one]
  rcases p0 P with hp | hp
  · obtain ⟨-, -, -, -, hu⟩ := stuck P hp xs
    rw [(hu s).2.2.1, (hu t).2.2.1, sub_self, abs_zero]
    exact mul_nonneg h.j.le (abs_nonneg _)
  · rw [(finite P hp xs).2, (finite P hp xs).2]
    exact U_lipschitz P xs s t

/-- C43: the reported jerk is the derivative of the reported acceleration, except at no more than eight instants. -/
theorem C43_jerk (h : Request g vs ve) (xs dist : ℝ) : ∃ S : Finset ℝ, S.card ≤ 8 ∧ ∀ t, t ∉ S →
    HasDerivAt (fun s => ((g.generate xs dist vs ve).1.calculate s).a) ((g.generate xs dist vs ve).1.calculate t).j t := by
  obtain ⟨v, p, rest, tA, tC, tD, P⟩ := plan h dist
  simp only [calc_eq h]
  rcases p0 P with hp | hp
  · obtain ⟨-, -, -, -, hu⟩ := stuck P hp xs
    refine ⟨{0}, by simp, fun t ht => ?_⟩
    rw [Finset.mem_singleton] at ht
    rw [(hu t).2.2.2.1 ht]
    simp only [(hu _).2.2.1]
    simpa using hasDerivAt_const t (0:ℝ)
  · obtain ⟨S, h1, h2⟩ := U_deriv_a P xs
    simp only [(finite P hp xs).2]
    exact ⟨S, h1, fun t ht => (h2 t ht).mul_const _⟩

example (t : ℝ) : HasDerivAt (fun s => ((Gen.generate ⟨1, 10, 100⟩ 0 (-3) (1 / 4) (1 / 2)).1.calculate s).v)
    ((Gen.generate ⟨1, 10, 100⟩ 0 (-3) (1 / 4) (1 / 2)).1.calculate t).a t := C43_velocity exReq 0 (-3) t

/-! ## C45: trajectories that never end -/

/-- C45: the end time is finite exactly when the robot starts with some speed, or is to end with some speed and has room for
the smallest speed of the search, or has room for the smallest speed of the search and for stopping again. -/
theorem C45_ends_iff (h : Request g vs ve) (xs dist : ℝ) :
    (∃ r, (g.generate xs dist vs ve).2.1 = .fin r) ↔
      0 < vs ∨ (0 < ve ∧ rampDist g 0 (resolution g.vMax) < |dist|) ∨ 2 * rampDist g 0 (resolution g.vMax) ≤ |dist| := by
  obtain ⟨v, p, rest, tA, tC, tD, P⟩ := plan h dist
  have hfin : (∃ r, (g.generate xs dist vs ve).2.1 = .fin r) ↔ 0 < p := by
    rcases p0 P with hp | hp
    · obtain ⟨-, -, -, he, -⟩ := stuck P hp xs
      rw [he]
      refine ⟨?_, fun h => absurd hp h.ne'⟩
      rintro ⟨r, hr⟩
      exfalso
      dsimp only [F.infOf] at hr
      rw [if_neg (not_lt.2 (abs_nonneg _) : ¬ |dist| < 0)] at hr
      split at hr <;> cases hr
    · rw [(finite P hp xs).1]
      exact ⟨fun _ => hp, fun _ => ⟨_, rfl⟩⟩
  rw [hfin]
  rcases h.start0.lt_or_eq with hvs | hvs
  · exact ⟨fun _ => .inl hvs, fun _ => lt_of_lt_of_le hvs P.vsp⟩
  subst hvs
  rcases P.v0.lt_or_eq with hv | hv
  · refine ⟨fun _ => .inr (.inl ?_), fun _ => lt_of_lt_of_le hv P.vp⟩
    rcases h.end0.lt_or_eq with hve | hve
    · refine ⟨hve, ?_⟩
      by_contra hn
      have := (aim_zero_iff h hve (abs_nonneg dist)).2 (not_lt.1 hn)
      rw [← P.hv] at this
      linarith
    · exfalso
      subst hve
      obtain ⟨-, h2, -⟩ := aim_down h le_rfl (d := |dist|)
      rw [← P.hv] at h2
      linarith
  · have hz := peak_zero_iff h.v h.a h.j |dist|
    rw [P.hp, ← hv]
    constructor
    · intro hpos
      refine .inr (.inr ?_)
      by_contra hn
      rw [hz.2 (not_le.1 hn)] at hpos
      exact lt_irrefl _ hpos
    · intro hh
      have hle : 2 * rampDist g 0 (resolution g.vMax) ≤ |dist| := by
        rcases hh with hh | ⟨h1, h2⟩ | hh
        · exact absurd hh (lt_irrefl _)
        · exfalso
          have := (aim_zero_iff h h1 (abs_nonneg dist)).1 (by rw [← P.hv]; exact hv.symm)
          linarith
        · exact hh
      rcases (P.req.start0.trans P.vsp).lt_or_eq with h | h
      · rw [P.hp, ← hv] at h; exact h
      · rw [P.hp, ← hv] at h
        have := hz.1 h.symm
        linarith

/-- C45: then the target stays at the start, at rest, for ever: the end time is `nan` or infinite. -/
theorem C45_stuck (h : Request g vs ve) (xs dist : ℝ) (hn : ¬ ∃ r, (g.generate xs dist vs ve).2.1 = .fin r) :
    (g.generate xs dist vs ve).2.1 = (if dist = 0 then .nan else .pinf) ∧
    ∀ t, ((g.generate xs dist vs ve).1.calculate t).x = xs ∧ ((g.generate xs dist vs ve).1.calculate t).v = 0 := by
  obtain ⟨v, p, rest, tA, tC, tD, P⟩ := plan h dist
  rcases p0 P with hp | hp
  · obtain ⟨-, -, -, he, hu⟩ := stuck P hp xs
    refine ⟨?_, fun t => ?_⟩
    · rw [he]
      dsimp only [F.infOf]
      rw [if_neg (not_lt.2 (abs_nonneg _) : ¬ |dist| < 0)]
      by_cases h0 : dist = 0
      · rw [if_pos h0, if_neg (by rw [h0, abs_zero]; exact lt_irrefl _)]
      · rw [if_neg h0, if_pos (abs_pos.2 h0)]
    · rw [calc_eq h, (hu t).1, (hu t).2.1]
      simp
  · exact absurd ⟨_, by rw [(finite P hp xs).1]⟩ hn

/-- C45: a request with zero distance and zero velocities never ends. -/
theorem C45_zero (hg : Request g 0 0) (xs : ℝ) : (g.generate xs 0 0 0).2.1 = .nan := by
  have hw : 0 < resolution g.vMax := div_pos hg.v (by positivity)
  have hd : 0 < rampDist g 0 (resolution g.vMax) := by
    unfold rampDist
    rw [sub_zero, abs_of_pos hw]
    exact mul_pos (by linarith) (rampTime_pos hg.a hg.j hw)
  have := (C45_stuck hg xs 0 (by
    rw [C45_ends_iff hg xs 0, abs_zero]
    rintro (h | ⟨h, -⟩ | h)
    · exact lt_irrefl _ h
    · exact lt_irrefl _ h
    · linarith)).1
  rw [this, if_pos rfl]

end Verif.Props
