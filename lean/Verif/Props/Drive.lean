import Verif.Props.Slalom
import Verif.Props.Scale
import Verif.Props.CurveEnd
import Mathlib.Analysis.Complex.Norm
import Verif.Spec.Drive
/-!
# C76: slaloms with changing speed
-/
namespace Verif.Props
open Verif Verif.Control Verif.Straight Verif.Slalom Verif.Spec Verif.StraightP Verif.SlalomP
open Verif.Run (SlalomKind SlalomDirection)

variable {g : Gen} {vs ve : ℝ}

/-- The position on a straight grows, and no faster than the speed limit allows; the start is included when the terminal velocity fits. -/
theorem straight_move (h : Request g vs ve) (xs : ℝ) {dist r s t : ℝ} (hd : 0 ≤ dist) (hr : (g.generate xs dist vs ve).2.1 = .fin r)
    (h0 : 0 ≤ s) (hst : s ≤ t) (ht : t ≤ r) (hs : 0 < s ∨ rampDist g vs (g.generate xs dist vs ve).2.2 ≤ dist) :
    0 ≤ ((g.generate xs dist vs ve).1.calculate t).x - ((g.generate xs dist vs ve).1.calculate s).x ∧
      ((g.generate xs dist vs ve).1.calculate t).x - ((g.generate xs dist vs ve).1.calculate s).x ≤ g.vMax * (t - s) := by
  have hdir : direction dist = 1 := by unfold direction; rw [if_neg (not_lt.2 hd)]
  have lim (u : ℝ) : 0 ≤ ((g.generate xs dist vs ve).1.calculate u).v ∧ ((g.generate xs dist vs ve).1.calculate u).v ≤ g.vMax := by
    have := (C41_limits h xs dist u).1
    rwa [hdir, one_mul] at this
  -- the position at a positive time as the limit of differentiable pieces
  obtain ⟨Z, z1, z2, z3⟩ : ∃ Z : ℝ → ℝ, (∀ u, HasDerivAt Z ((g.generate xs dist vs ve).1.calculate u).v u) ∧
      (∀ u, 0 < u → u ≤ r → ((g.generate xs dist vs ve).1.calculate u).x = Z u) ∧
      (rampDist g vs (g.generate xs dist vs ve).2.2 ≤ dist → ((g.generate xs dist vs ve).1.calculate 0).x = Z 0) := by
    obtain ⟨v, p, rest, tA, tC, tD, P⟩ := plan h dist
    rcases p0 P with hp | hp
    · obtain ⟨-, -, -, he, -⟩ := stuck P hp xs
      exfalso
      rw [he] at hr
      unfold F.infOf at hr
      rw [if_neg (not_lt.2 (abs_nonneg _) : ¬ |dist| < 0)] at hr
      split at hr <;> cases hr
    · obtain ⟨he, hu⟩ := finite P hp xs
      obtain ⟨Z, z1, z2, z3, -⟩ := U_deriv_x P hp xs
      have hr' : tA + tC + tD = r := by rw [he] at hr; exact F.fin.inj hr
      have e (u : ℝ) : (g.generate xs dist vs ve).1.calculate u = U g xs vs |dist| v p tA tC tD u := by
        rw [calc_eq h, hdir, hu]
        simp
      refine ⟨Z, fun u => by rw [e]; exact z1 u, fun u h1 h2 => by rw [e]; exact z2 u h1 (hr' ▸ h2), fun hf => ?_⟩
      rw [(C42_start h xs dist).1, z3, fits_iff P, min_eq_left, add_zero]
      rw [he] at hf
      rw [abs_of_nonneg hd]
      exact sub_nonneg.2 hf
  have zx (u : ℝ) (hu : s ≤ u) (hu' : u ≤ r) : ((g.generate xs dist vs ve).1.calculate u).x = Z u := by
    rcases (h0.trans hu).lt_or_eq with h1 | h1
    · exact z2 u h1 hu'
    · rcases hs with hs | hs
      · linarith
      · rw [← h1]; exact z3 hs
  rw [zx t hst ht, zx s le_rfl (hst.trans ht)]
  have hm : Monotone Z := monotone_of_hasDerivAt_nonneg z1 (fun u => (lim u).1)
  have hm' : Monotone fun u => g.vMax * u - Z u :=
    monotone_of_hasDerivAt_nonneg (fun u => ((hasDerivAt_id u).const_mul g.vMax).sub (z1 u)) (fun u => by
      have := (lim u).2; simp only [Pi.zero_apply, mul_one]; linarith)
  have a := hm hst
  have b := hm' hst
  simp only at b
  constructor <;> nlinarith

theorem fin_of_lt {r : ℝ} {t : F} (h : t = .fin r) (u : ℝ) (hu : r ≤ u) : t.le (.fin u) := by rw [h]; exact hu

theorem dir_nonneg {dist : ℝ} (hd : 0 ≤ dist) : direction dist = 1 := by unfold direction; rw [if_neg (not_lt.2 hd)]

/-- The distance is no longer than what the speed limit allows. -/
theorem straight_total (h : Request g vs ve) (xs : ℝ) {dist r : ℝ} (hd : 0 ≤ dist) (hr : (g.generate xs dist vs ve).2.1 = .fin r) :
    dist ≤ g.vMax * r := by
  have r0 := finite_start h xs dist r hr
  have he := (C42_end h xs dist r (fin_of_lt hr r le_rfl)).1
  rcases r0.lt_or_eq with r0 | r0
  · have ht := C43_start h xs dist
    rw [dir_nonneg hd, one_mul, abs_of_nonneg hd] at ht
    have ht' : Filter.Tendsto (fun s => g.vMax * (r - s) + ((g.generate xs dist vs ve).1.calculate s).x) (nhdsWithin 0 (Set.Ioi 0))
        (nhds (g.vMax * (r - 0) + (xs + min 0 (dist - rampDist g vs (g.generate xs dist vs ve).2.2)))) := by
      refine Filter.Tendsto.add ?_ ht
      exact ((continuous_const.mul (continuous_const.sub continuous_id)).tendsto 0).mono_left nhdsWithin_le_nhds
    have key := ge_of_tendsto ht' (b := xs + dist) (by
      filter_upwards [Ioc_mem_nhdsGT r0] with s hs
      have := (straight_move h xs hd hr hs.1.le hs.2 le_rfl (.inl hs.1)).2
      rw [he] at this
      linarith)
    have := min_le_left 0 (dist - rampDist g vs (g.generate xs dist vs ve).2.2)
    linarith
  · rw [← r0, (C42_start h xs dist).1] at he
    rw [← r0]
    linarith

/-- The first step of a straight: at most what the speed limit allows forward, and at most what is missing for the terminal velocity back. -/
theorem straight_first (h : Request g vs ve) (xs : ℝ) {dist r t J : ℝ} (hd : 0 ≤ dist) (hr : (g.generate xs dist vs ve).2.1 = .fin r)
    (h0 : 0 < t) (ht : t ≤ r) (hJ : 0 ≤ J) (hf : rampDist g vs (g.generate xs dist vs ve).2.2 ≤ dist + J) :
    -J ≤ ((g.generate xs dist vs ve).1.calculate t).x - ((g.generate xs dist vs ve).1.calculate 0).x ∧
      ((g.generate xs dist vs ve).1.calculate t).x - ((g.generate xs dist vs ve).1.calculate 0).x ≤ g.vMax * t := by
  rw [(C42_start h xs dist).1]
  have lim := C43_start h xs dist
  rw [dir_nonneg hd, one_mul, abs_of_nonneg hd] at lim
  have m1 := min_le_left 0 (dist - rampDist g vs (g.generate xs dist vs ve).2.2)
  have m2 : -J ≤ min 0 (dist - rampDist g vs (g.generate xs dist vs ve).2.2) := le_min (by linarith) (by linarith)
  have step (s : ℝ) (hs : 0 < s) (hst : s ≤ t) := straight_move h xs hd hr hs.le hst ht (.inl hs)
  have k1 := le_of_tendsto lim (b := ((g.generate xs dist vs ve).1.calculate t).x) (by
    filter_upwards [Ioc_mem_nhdsGT h0] with s hs
    have := (step s hs.1 hs.2).1
    linarith)
  have k2 := ge_of_tendsto lim (b := ((g.generate xs dist vs ve).1.calculate t).x - g.vMax * t) (by
    filter_upwards [Ioc_mem_nhdsGT h0] with s hs
    have := (step s hs.1 hs.2).2
    have := mul_nonneg h.v.le hs.1.le
    linarith)
  constructor <;> linarith

/-- The speed on a straight changes no faster than the acceleration limit. -/
theorem straight_speed (h : Request g vs ve) (xs dist : ℝ) {s t : ℝ} (hst : s ≤ t) :
    |((g.generate xs dist vs ve).1.calculate t).v - ((g.generate xs dist vs ve).1.calculate s).v| ≤ g.aMax * (t - s) := by
  have := Convex.norm_image_sub_le_of_norm_hasDerivWithin_le (s := Set.univ) (C := g.aMax) (x := s) (y := t)
    (f := fun s => ((g.generate xs dist vs ve).1.calculate s).v)
    (fun u _ => (C43_velocity h xs dist u).hasDerivWithinAt) (fun u _ => (C41_limits h xs dist u).2.1) convex_univ trivial trivial
  rwa [Real.norm_eq_abs, Real.norm_eq_abs, abs_of_nonneg (sub_nonneg.2 hst)] at this

theorem body_straight (a : Axis) : body ⟨a, .zero, .zero⟩ = (a.v, 0) := by simp [body, rotate, Axis.zero]

theorem place_compose (q r : Detect.Pose) (u : ℝ × ℝ) : place (compose q r) u = place q (place r u) := by
  simp only [place, compose, rotate, Real.cos_add, Real.sin_add]
  refine Prod.ext ?_ ?_ <;> dsimp only <;> ring

theorem gap_shift (q : Detect.Pose) (t t' : Target) : gap (shift .real q t) (shift .real q t') = gap t t' := by
  unfold gap
  rw [C46_distance]

theorem gap_straight (a b : Axis) : gap ⟨a, .zero, .zero⟩ ⟨b, .zero, .zero⟩ = |b.x - a.x| := by
  unfold gap
  simp [Axis.zero, Real.sqrt_sq_eq_abs]

/-- Shifting a drive. -/
theorem Drive.shift {vMax aMax period v v' : ℝ} {q q' : Detect.Pose} {l : List Target} (D : Drive vMax aMax period q v q' v' l) (z : Detect.Pose) :
    Drive vMax aMax period (compose z q) v (compose z q') v' (l.map (Straight.shift .real z)) where
  first := by
    obtain ⟨t, h1, ⟨x, y, th⟩, h3⟩ := D.first
    refine ⟨Straight.shift .real z t, by rw [List.head?_map, h1]; rfl, ?_, by unfold body at *; rw [C46_body, h3]⟩
    have e := (C46_shift z t).1
    have e1 := congrArg Prod.fst e
    have e2 := congrArg Prod.snd e
    simp only [x, y] at e1 e2
    exact ⟨e1, e2, by rw [(C46_shift z t).2.2.2.2]; simp only [compose, th]; ring⟩
  last := by
    obtain ⟨t, s, u, h1, h2, h3, h4, h5, h6, h7⟩ := D.last
    refine ⟨Straight.shift .real z t, s, u, by rw [List.getLast?_map, h1]; rfl, ?_, ?_, h4, h5, by unfold body at *; rw [C46_body, h6], h7⟩
    · rw [(C46_shift z t).2.2.2.2]; simp only [compose, h2]; ring
    · rw [(C46_shift z t).1, h3, place_compose]
  forward := by
    intro t ht
    obtain ⟨t', ht', rfl⟩ := List.mem_map.1 ht
    obtain ⟨u, hu⟩ := D.forward t' ht'
    exact ⟨u, by unfold body at *; rw [C46_body]; exact hu⟩

theorem body_shift (z : Detect.Pose) (t : Target) : body (shift .real z t) = body t := C46_body z t

theorem Steps.shift {δ α : ℝ} {l : List Target} (h : Steps δ α l) (z : Detect.Pose) : Steps δ α (l.map (Straight.shift .real z)) := by
  unfold Steps at *
  rw [List.isChain_map]
  exact h.imp fun t t' ht => by rw [gap_shift, body_shift, body_shift]; exact ht

theorem compose_origin (q : Detect.Pose) : compose q origin = q := by
  cases q
  simp [compose, place, rotate, origin]

theorem steps_range (f : Nat → Target) (δ α : ℝ) (N : Nat) (h : ∀ k, k + 1 < N → gap (f k) (f (k + 1)) ≤ δ ∧ |(body (f (k + 1))).1 - (body (f k)).1| ≤ α) :
    Steps δ α ((List.range N).map f) := by
  unfold Steps
  rw [List.isChain_iff_getElem]
  intro i hi
  simp only [List.length_map, List.length_range] at hi
  simpa using h i hi

/-- The samples of a straight. -/
theorem straight_drive (h : Request g vs ve) {dist r period : ℝ} (hp : 0 < period) (hd : 0 ≤ dist)
    (hr : (g.generate 0 dist vs ve).2.1 = .fin r) :
    ∃ l, Produces Straight.next (straightGenerate g period dist vs ve).1 l ∧
      Drive g.vMax g.aMax period origin vs ⟨dist, 0, 0⟩ (straightGenerate g period dist vs ve).2 l ∧
      ∀ J, 0 ≤ J → rampDist g vs (straightGenerate g period dist vs ve).2 ≤ dist + J → Steps (g.vMax * period + J) (g.aMax * period) l := by
  have r0 := finite_start h 0 dist r hr
  have hdir := dir_nonneg hd
  obtain ⟨-, n1, n2⟩ := C44_generated h dist r period hp hr 0
  obtain ⟨s1, s2, -⟩ := C42_start h 0 dist
  obtain ⟨e1, e2, -⟩ := C42_end h 0 dist r (fin_of_lt hr r le_rfl)
  rw [hdir, one_mul] at s2 e2
  have ev : (straightGenerate g period dist vs ve).2 = (g.generate 0 dist vs ve).2.2 := rfl
  rw [ev]
  generalize hN : ⌊r / period⌋₊ = N at *
  have hNp : 0 ≤ N * period := by positivity
  refine ⟨(List.range (N + 1)).map fun k : Nat => ⟨(g.generate 0 dist vs ve).1.calculate (k * period), .zero, .zero⟩, ?_, ⟨?_, ?_, ?_⟩, ?_⟩
  · refine produces_of fun n => ?_
    rw [← hN]
    exact (C44_generated h dist r period hp hr n).1
  · refine ⟨_, by rw [List.range_succ_eq_map]; rfl, ?_, ?_⟩
    · exact ⟨by simpa [origin] using s1, rfl, rfl⟩
    · rw [body_straight]; simpa using s2
  · refine ⟨_, dist - ((g.generate 0 dist vs ve).1.calculate (N * period)).x, ((g.generate 0 dist vs ve).1.calculate (N * period)).v,
      by rw [List.range_succ, List.map_append]; exact List.getLast?_concat .., rfl, ?_, ?_, ?_, body_straight _, ?_⟩
    · simp [place, rotate, Axis.zero]
    · rcases hNp.lt_or_eq with h0 | h0
      · have := (straight_move h 0 hd hr h0.le n1 le_rfl (.inl h0)).1
        rw [e1] at this
        linarith
      · rw [← h0, s1]; linarith
    · rcases hNp.lt_or_eq with h0 | h0
      · have := (straight_move h 0 hd hr h0.le n1 le_rfl (.inl h0)).2
        rw [e1] at this
        nlinarith [h.v]
      · have := straight_total h 0 hd hr
        rw [← h0, s1]
        nlinarith [h.v]
    · have := straight_speed h 0 dist n1
      rw [e2, abs_sub_comm] at this
      refine this.trans ?_
      nlinarith [h.a]
  · intro t ht
    obtain ⟨k, -, rfl⟩ := List.mem_map.1 ht
    have := (C41_limits h 0 dist (k * period)).1
    rw [hdir, one_mul] at this
    exact ⟨_, body_straight _, this⟩
  · intro J hJ hf
    refine steps_range _ _ _ _ fun k hk => ?_
    rw [gap_straight, body_straight, body_straight]
    have a1 : (0:ℝ) ≤ k * period := by positivity
    have a2 : (k:ℝ) * period ≤ (k + 1 : ℕ) * period := by push_cast; linarith
    have a3 : ((k + 1 : ℕ) : ℝ) * period ≤ r := le_trans (mul_le_mul_of_nonneg_right (by exact_mod_cast Nat.lt_succ_iff.1 hk) hp.le) n1
    refine ⟨?_, (straight_speed h 0 dist a2).trans (le_of_eq (by push_cast; ring))⟩
    have vp : 0 < g.vMax * period := mul_pos h.v hp
    rcases Nat.eq_zero_or_pos k with rfl | hk0
    · obtain ⟨b1, b2⟩ := straight_first h 0 hd hr (t := (0 + 1 : ℕ) * period) (by simpa using hp) a3 hJ hf
      simp only [Nat.cast_zero, zero_mul] at b1 b2 ⊢
      refine abs_le.2 ⟨by linarith, b2.trans ?_⟩
      simp; exact hJ
    · obtain ⟨b1, b2⟩ := straight_move h 0 hd hr a1 a2 a3 (.inl (by positivity))
      rw [abs_of_nonneg b1]
      refine b2.trans ?_
      push_cast
      linarith

theorem Steps.append {δ α : ℝ} {l l' : List Target} (h : Steps δ α l) (h' : Steps δ α l')
    (hj : ∀ t ∈ l.getLast?, ∀ t' ∈ l'.head?, gap t t' ≤ δ ∧ |(body t').1 - (body t).1| ≤ α) : Steps δ α (l ++ l') :=
  List.isChain_append.2 ⟨h, h', hj⟩

theorem Steps.mono {δ δ' α α' : ℝ} {l : List Target} (h : Steps δ α l) (hd : δ ≤ δ') (ha : α ≤ α') : Steps δ' α' l :=
  List.IsChain.imp (fun _ _ a => ⟨a.1.trans hd, a.2.trans ha⟩) h

/-- One drive after another. -/
theorem Drive.append {vMax aMax period v v' v₁ v₁' : ℝ} {q q' q₁ q₁' : Detect.Pose} {l l' m : List Target}
    (D : Drive vMax aMax period q v q₁ v₁ l) (D' : Drive vMax aMax period q₁' v₁' q' v' l')
    (hm : ∀ t ∈ m, ∃ u, body t = (u, 0) ∧ 0 ≤ u ∧ u ≤ vMax) : Drive vMax aMax period q v q' v' (l ++ m ++ l') where
  first := by
    obtain ⟨t, h, r⟩ := D.first
    refine ⟨t, ?_, r⟩
    cases l with
    | nil => cases h
    | cons => exact h
  last := by
    obtain ⟨t, s, u, h, r⟩ := D'.last
    exact ⟨t, s, u, by rw [List.getLast?_append, h]; rfl, r⟩
  forward := by
    intro t ht
    rw [List.mem_append, List.mem_append] at ht
    rcases ht with (ht | ht) | ht
    · exact D.forward t ht
    · exact hm t ht
    · exact D'.forward t ht

theorem hypot_norm (a b : ℝ) : Real.sqrt (a ^ 2 + b ^ 2) = ‖(⟨a, b⟩ : ℂ)‖ := by
  rw [Complex.norm_eq_sqrt_sq_add_sq]

theorem hypot_add (a b c d : ℝ) : Real.sqrt ((a + c) ^ 2 + (b + d) ^ 2) ≤ Real.sqrt (a ^ 2 + b ^ 2) + Real.sqrt (c ^ 2 + d ^ 2) := by
  rw [hypot_norm, hypot_norm, hypot_norm]
  exact norm_add_le (⟨a, b⟩ : ℂ) ⟨c, d⟩

theorem hypot_le {a b e : ℝ} (ha : |a| ≤ e) (hb : |b| ≤ e) : Real.sqrt (a ^ 2 + b ^ 2) ≤ 3 / 2 * e := by
  have he := (abs_nonneg a).trans ha
  rw [Real.sqrt_le_left (by linarith), ← sq_abs a, ← sq_abs b]
  have h1 := pow_le_pow_left₀ (abs_nonneg a) ha 2
  have h2 := pow_le_pow_left₀ (abs_nonneg b) hb 2
  nlinarith [sq_nonneg e]

/-- The last sample of a drive is less than one step before its end. -/
theorem Drive.last_gap' {vMax aMax period v v' : ℝ} {q q' : Detect.Pose} {l : List Target} (D : Drive vMax aMax period q v q' v' l)
    {t t' : Target} (ht : t ∈ l.getLast?) (e : ℝ) (h' : Real.sqrt ((t'.x.x - q'.x) ^ 2 + (t'.y.x - q'.y) ^ 2) ≤ e) :
    gap t t' ≤ vMax * period + e := by
  obtain ⟨t0, s, u, h1, h2, h3, h4, h5, h6, h7⟩ := D.last
  rw [h1] at ht
  cases ht
  have h3x := congrArg Prod.fst h3
  have h3y := congrArg Prod.snd h3
  simp only [place, rotate] at h3x h3y
  have e1 : t'.x.x - t.x.x = s * Real.cos q'.theta + (t'.x.x - q'.x) := by rw [h3x]; ring
  have e2 : t'.y.x - t.y.x = s * Real.sin q'.theta + (t'.y.x - q'.y) := by rw [h3y]; ring
  unfold gap
  rw [e1, e2]
  refine (hypot_add _ _ _ _).trans (add_le_add ?_ h')
  have : (s * Real.cos q'.theta) ^ 2 + (s * Real.sin q'.theta) ^ 2 = s ^ 2 := by
    linear_combination s ^ 2 * Real.sin_sq_add_cos_sq q'.theta
  rw [this, Real.sqrt_sq h4]
  exact h5.le

theorem Drive.last_gap {vMax aMax period v v' : ℝ} {q q' : Detect.Pose} {l : List Target} (D : Drive vMax aMax period q v q' v' l)
    {t t' : Target} (ht : t ∈ l.getLast?) (e : ℝ) (h' : Real.sqrt ((t'.x.x - q'.x) ^ 2 + (t'.y.x - q'.y) ^ 2) ≤ e) (hb : body t' = (v', 0)) :
    gap t t' ≤ vMax * period + e ∧ |(body t').1 - (body t).1| ≤ aMax * period := by
  refine ⟨Drive.last_gap' D ht e h', ?_⟩
  obtain ⟨t0, s, u, h1, h2, h3, h4, h5, h6, h7⟩ := D.last
  rw [h1] at ht
  cases ht
  rw [hb, h6, abs_sub_comm]
  exact h7

theorem curve_parts {p : Slalom.Params} {v period r : ℝ} (R : CurveRequest v p.vRef p.dtheta p.ddtheta p.dddtheta period)
    (hr : (slalomCurve p v period).tEnd = .fin r) :
    ∃ l, Produces (Curve.next .real) (slalomCurve p v period) l ∧ l.length = ⌊r / period⌋₊ + 1 ∧
      (∃ t, l.head? = some t ∧ At t ⟨p.lStart, 0, 0⟩) ∧ (∀ t ∈ l, body t = (v, 0)) ∧ Steps (v * period) 0 l := by
  have h0 := finite_start (curve_request R) 0 p.theta r hr
  have hc : slalomCurve p v period = ⟨(slalomCurve p v period).calculator, 0, .fin r, period, p.lStart, 0, v⟩ := by rw [← hr]; rfl
  obtain ⟨l, hlen, hl⟩ : ∃ l, l.length = ⌊r / period⌋₊ + 1 ∧ Produces (Curve.next .real) (slalomCurve p v period) l := by
    have := produces_of (fun n => curve_outputs .real (slalomCurve p v period).calculator p.lStart 0 v h0 R.period n)
    rw [← hc] at this
    exact ⟨_, by simp, this⟩
  have hl0 : 0 < l.length := by omega
  have hbody (t : Target) (ht : t ∈ l) : body t = (v, 0) := by
    obtain ⟨k, hk⟩ := List.mem_iff_getElem?.1 ht
    exact (C47_velocity _ _ _ _ ((produces_yields hl k t).2 hk)).2
  refine ⟨l, hl, hlen, ⟨l[0], ?_, ?_⟩, ?_, ?_⟩
  · rw [List.head?_eq_getElem?, List.getElem?_eq_getElem hl0]
  · exact C47_start R p.lStart 0 0 p.theta ((produces_yields hl 0 l[0]).2 (List.getElem?_eq_getElem hl0))
  · exact hbody
  · unfold Steps
    rw [List.isChain_iff_getElem]
    intro i hi
    have := C47_step _ _ _ _ ((produces_yields hl i l[i]).2 (List.getElem?_eq_getElem (by omega)))
      ((produces_yields hl (i + 1) l[i + 1]).2 (List.getElem?_eq_getElem hi))
    refine ⟨?_, by rw [hbody _ (List.getElem_mem _), hbody _ (List.getElem_mem _)]; simp⟩
    unfold gap
    rw [Real.sqrt_le_left (mul_nonneg R.v.le R.period.le)]
    exact this

/-- C76: a slalom between given speeds. The first straight goes from the start speed to some speed `m`, the curve starts at its listed place with speed
`m` and keeps it, the second straight starts at the listed end of the curve with speed `m` and ends with the reported speed at the end of
the slalom. -/
theorem C76_slalom {p : Slalom.Params} {vm period : ℝ} (hs : Request g vs vm) (hd1 : 0 < p.vRef) (hd2 : 0 < p.dtheta) (hd3 : 0 < p.ddtheta)
    (hd4 : 0 < p.dddtheta) (hp : 0 < period) (h1 : 0 ≤ p.lStart) (h2 : 0 ≤ p.lEnd) (he0 : 0 ≤ ve) (he1 : ve ≤ g.vMax) {r1 r2 m : ℝ}
    (hm : (straightGenerate g period p.lStart vs vm).2 = m) (hm0 : 0 < m)
    (hr1 : (straightGenerate g period p.lStart vs vm).1.tEnd = .fin r1) (hr2 : (slalomCurve p m period).tEnd = .fin r2) :
    ∃ l1 l2 l3, Produces (slalomNext .real p.curveEnd) (slalomWithTerminal g period p vs vm ve).1 (l1 ++ l2 ++ l3) ∧
      Drive g.vMax g.aMax period origin vs ⟨p.lStart, 0, 0⟩ m l1 ∧
      (∃ t, l2.head? = some t ∧ At t ⟨p.lStart, 0, 0⟩) ∧ (∀ t ∈ l2, body t = (m, 0)) ∧ Steps (m * period) 0 l2 ∧
      Produces (Curve.next .real) (slalomCurve p m period) l2 ∧ l2.length = ⌊r2 / period⌋₊ + 1 ∧
      Drive g.vMax g.aMax period p.curveEnd m (slalomEnd p) (slalomWithTerminal g period p vs vm ve).2 l3 ∧
      Drive g.vMax g.aMax period origin vs (slalomEnd p) (slalomWithTerminal g period p vs vm ve).2 (l1 ++ l2 ++ l3) ∧
      (∀ J, 0 ≤ J → rampDist g vs m ≤ p.lStart + J → Steps (g.vMax * period + J) (g.aMax * period) l1) ∧
      (∀ J, 0 ≤ J → rampDist g m (slalomWithTerminal g period p vs vm ve).2 ≤ p.lEnd + J → Steps (g.vMax * period + J) (g.aMax * period) l3) := by
  have m1 : m ≤ g.vMax := by
    rw [← hm]
    rcases lt_or_ge vs vm with h | h
    · exact (C42_terminal_up hs h 0 p.lStart).2.1.trans hs.end1
    · exact (C42_terminal_down hs h 0 p.lStart).2.1.trans hs.start1
  have R : CurveRequest m p.vRef p.dtheta p.ddtheta p.dddtheta period := ⟨hm0, hd1, hd2, hd3, hd4, hp⟩
  have he : Request g m ve := ⟨hs.v, hs.a, hs.j, hm0.le, m1, he0, he1⟩
  obtain ⟨r3, hr3⟩ := (C45_ends_iff he 0 p.lEnd).2 (.inl hm0)
  obtain ⟨l1, a1, a2, a3⟩ := straight_drive hs hp h1 hr1
  obtain ⟨l2, b1, b2, b3, b4, b5⟩ := curve_parts R hr2
  obtain ⟨l3, c1, c2, c3⟩ := straight_drive he hp h2 hr3
  rw [hm] at a2 a3
  have eT : (slalomWithTerminal g period p vs vm ve).2 = (straightGenerate g period p.lEnd m ve).2 := by rw [← hm]; rfl
  have eS : (slalomWithTerminal g period p vs vm ve).1 =
      (some (some (straightGenerate g period p.lStart vs vm).1, slalomCurve p m period), (straightGenerate g period p.lEnd m ve).1) := by
    rw [← hm]; rfl
  have c1' : Produces (shiftNext .real p.curveEnd Straight.next) (straightGenerate g period p.lEnd m ve).1 (l3.map (shift .real p.curveEnd)) := by
    intro n
    rw [C44_shift, c1, List.map_map]
    refine List.map_congr_left fun k _ => ?_
    simp
  have c2' := Drive.shift c2 p.curveEnd
  rw [compose_origin] at c2'
  rw [eT, eS]
  refine ⟨l1, l2, l3.map (shift .real p.curveEnd), produces_chain c1' _ _ (produces_chain b1 _ _ a1), a2, b3, b4, b5, b1, b2, c2', ?_, a3, ?_⟩
  · exact Drive.append a2 c2' fun t ht => ⟨m, b4 t ht, hm0.le, m1⟩
  · exact fun J hJ hf => Steps.shift (c3 J hJ hf) _

/-- A path at constant speed. -/
theorem follows_gap {v : ℝ} {θ X Y : ℝ → ℝ} (hv : 0 ≤ v) (hF : Follows v θ X Y) {s t : ℝ} (hst : s ≤ t) :
    Real.sqrt ((X t - X s) ^ 2 + (Y t - Y s) ^ 2) ≤ v * (t - s) := by
  have hd (u : ℝ) : HasDerivAt (fun u => (X u : ℂ) + Y u * Complex.I) ((v * Real.cos (θ u) : ℝ) + (v * Real.sin (θ u) : ℝ) * Complex.I) u :=
    (hF u).1.ofReal_comp.add ((hF u).2.ofReal_comp.mul_const _)
  have hn (u : ℝ) : ‖((v * Real.cos (θ u) : ℝ) : ℂ) + (v * Real.sin (θ u) : ℝ) * Complex.I‖ ≤ v := by
    rw [Complex.norm_add_mul_I, Real.sqrt_le_left hv]
    exact le_of_eq (by linear_combination v ^ 2 * Real.sin_sq_add_cos_sq (θ u))
  have := Convex.norm_image_sub_le_of_norm_hasDerivWithin_le (s := Set.univ) (C := v) (x := s) (y := t)
    (fun u _ => (hd u).hasDerivWithinAt) (fun u _ => hn u) convex_univ trivial trivial
  rw [Real.norm_eq_abs, abs_of_nonneg (sub_nonneg.2 hst)] at this
  refine le_trans (le_of_eq ?_) this
  rw [← Complex.norm_add_mul_I]
  congr 1
  push_cast
  ring

/-- C76: the second straight starts close to where the curve really ends, one step after its last sample: at most the errors of the table and of the
integration away. -/
theorem C76_curve_end {sw fo : ℝ} {kind : SlalomKind} {d : SlalomDirection} {v period r : ℝ} (hsw : 0 < sw) (hv : 0 < v) (hp : 0 < period)
    (hR : 0 < (parameters sw fo kind d).vRef) (hr : (slalomCurve (parameters sw fo kind d) v period).tEnd = .fin r)
    {k : ℕ} (hk : k = ⌊r / period⌋₊) {t t' : Target} (ht : Yields (Curve.next .real) (slalomCurve (parameters sw fo kind d) v period) k t)
    (ht' : At t' (parameters sw fo kind d).curveEnd) :
    gap t t' ≤ v * period + 3 / 2 * (quadratureError (parameters sw fo kind d) v period k + tableError kind * sw) := by
  have R := table_request sw fo kind d hv hp hR
  obtain ⟨X, Y, hF, hX, hY⟩ := C47_path_exists R (parameters sw fo kind d).lStart 0 0 (parameters sw fo kind d).theta
  obtain ⟨a1, a2⟩ := C47_accuracy R _ _ _ _ ht X Y hF hX hY
  have r0 := finite_start (curve_request R) 0 (parameters sw fo kind d).theta r hr
  have n1 : k * period ≤ r := by
    have := Nat.floor_le (div_nonneg r0 hp.le)
    rw [← hk, le_div_iff₀ hp] at this
    exact this
  have n2 : r < k * period + period := by
    have := Nat.lt_floor_add_one (r / period)
    rw [← hk, div_lt_iff₀ hp] at this
    linarith
  have hg := follows_gap hv.le hF n1
  have hE : |X r - (parameters sw fo kind d).xCurveEnd| ≤ tableError kind * sw ∧ |Y r - (parameters sw fo kind d).yCurveEnd| ≤ tableError kind * sw := by
    by_cases hk : kind = .fastRun45
    · subst hk
      obtain ⟨⟨x1, x2⟩, y1, y2⟩ := C70_wrong hsw hv hp hr hF hX hY
      simp only [tableError]
      refine ⟨abs_le.2 ⟨by linarith, x2⟩, abs_le.2 ?_⟩
      cases d <;> simp only [side] at y1 y2 <;> constructor <;> linarith
    · have := C70_ends hsw hv hp hR hk hr hF hX hY
      have e : tableError kind = 3e-6 := by cases kind <;> first | rfl | exact absurd rfl hk
      rwa [e]
  obtain ⟨t1, t2, -⟩ := ht'
  change |t.x.x - X (k * period)| ≤ quadratureError (parameters sw fo kind d) v period k at a1
  change |t.y.x - Y (k * period)| ≤ quadratureError (parameters sw fo kind d) v period k at a2
  simp only [Slalom.Params.curveEnd] at t1 t2
  have e1 : t'.x.x - t.x.x = (X r - X (k * period)) + ((X (k * period) - t.x.x) + ((parameters sw fo kind d).xCurveEnd - X r)) := by rw [t1]; ring
  have e2 : t'.y.x - t.y.x = (Y r - Y (k * period)) + ((Y (k * period) - t.y.x) + ((parameters sw fo kind d).yCurveEnd - Y r)) := by rw [t2]; ring
  unfold gap
  rw [e1, e2]
  refine (hypot_add _ _ _ _).trans (add_le_add (hg.trans (by nlinarith)) (hypot_le ?_ ?_))
  · refine (abs_add_le _ _).trans (add_le_add ?_ ?_)
    · rw [abs_sub_comm]; exact a1
    · rw [abs_sub_comm]; exact hE.1
  · refine (abs_add_le _ _).trans (add_le_add ?_ ?_)
    · rw [abs_sub_comm]; exact a2
    · rw [abs_sub_comm]; exact hE.2

/-- The integration error is small compared with a step. -/
theorem quadratureError_le {sw fo : ℝ} {kind : SlalomKind} {d : SlalomDirection} {v period r : ℝ} (hv : 0 < v) (hp : 0 < period)
    (hR : 0 < (parameters sw fo kind d).vRef) (hr : (slalomCurve (parameters sw fo kind d) v period).tEnd = .fin r)
    {k : ℕ} (hk : k = ⌊r / period⌋₊) (hc : v * period ≤ (parameters sw fo kind d).vRef / 100) :
    quadratureError (parameters sw fo kind d) v period k ≤ 0.0041 * (v * period) := by
  have hL := C70_length hv hp hR hr
  have R := table_request sw fo kind d hv hp hR
  have r0 := finite_start (curve_request R) 0 (parameters sw fo kind d).theta r hr
  have n1 : k * period ≤ r := by
    have := Nat.floor_le (div_nonneg r0 hp.le)
    rw [← hk, le_div_iff₀ hp] at this
    exact this
  obtain ⟨a, b, c, -⟩ := table_limits sw fo kind d
  unfold quadratureError
  rw [a, b, c]
  dsimp only
  generalize (parameters sw fo kind d).vRef = u at *
  set w := v * period / u with hw
  have hw0 : 0 < w := by positivity
  have hw1 : w ≤ 1 / 100 := by rw [hw, div_le_iff₀ hR]; linarith
  have e : (k:ℝ) * (v * period * (((v / u * (3 * Real.pi)) ^ 3 + 3 * (v / u * (3 * Real.pi)) * ((v / u) ^ 2 * (36 * Real.pi)) + (v / u) ^ 3 * (1200 * Real.pi)) *
      period ^ 3 / 100 + 2e-8 * ((v / u * (3 * Real.pi)) ^ 2 + (v / u) ^ 2 * (36 * Real.pi)) * period ^ 2 + 1.5e-8 * (v / u * (3 * Real.pi)) * period)) =
      (v * (k * period)) * ((27 * Real.pi ^ 3 + 324 * Real.pi ^ 2 + 1200 * Real.pi) / 100 * w ^ 3 + 2e-8 * (9 * Real.pi ^ 2 + 36 * Real.pi) * w ^ 2 +
        4.5e-8 * Real.pi * w) := by
    rw [hw]; field_simp; ring
  rw [e]
  have p1 := Real.pi_pos
  have p2 := Real.pi_lt_d2
  have p3 : Real.pi ^ 2 ≤ 3.15 ^ 2 := pow_le_pow_left₀ p1.le p2.le 2
  have p4 : Real.pi ^ 3 ≤ 3.15 ^ 3 := pow_le_pow_left₀ p1.le p2.le 3
  have b1 : (27 * Real.pi ^ 3 + 324 * Real.pi ^ 2 + 1200 * Real.pi) / 100 * w ^ 3 + 2e-8 * (9 * Real.pi ^ 2 + 36 * Real.pi) * w ^ 2 +
        4.5e-8 * Real.pi * w ≤ 0.0082 * w := by
    have c1 : (27 * Real.pi ^ 3 + 324 * Real.pi ^ 2 + 1200 * Real.pi) / 100 ≤ 79 := by norm_num at p2 p3 p4 ⊢; linarith
    have c2 : 2e-8 * (9 * Real.pi ^ 2 + 36 * Real.pi) ≤ 1e-4 := by norm_num at p2 p3 ⊢; linarith
    have c3 : 4.5e-8 * Real.pi ≤ 1e-6 := by norm_num at p2 ⊢; linarith
    have d1 : w ^ 2 ≤ w * (1 / 100) := by nlinarith
    have d2 : w ^ 3 ≤ w * (1 / 10000) := by nlinarith
    have := mul_le_mul c1 d2 (by positivity) (by norm_num)
    have := mul_le_mul c2 d1 (by positivity) (by norm_num)
    have := mul_le_mul_of_nonneg_right c3 hw0.le
    norm_num at *
    linarith
  have q1 : v * (k * period) ≤ u / 2 := (mul_le_mul_of_nonneg_left n1 hv.le).trans hL
  have q0 : 0 ≤ v * (k * period) := by positivity
  have q2 : u / 2 * (0.0082 * w) = 0.0041 * (v * period) := by rw [hw]; field_simp; norm_num
  rw [← q2]
  exact mul_le_mul q1 b1 (by positivity) (by linarith)

/-- With room the change of speed fits in. -/
theorem roomy_fits (h : Request g vs ve) (xs : ℝ) {dist : ℝ} (hd : 0 ≤ dist) (hr : Roomy g vs ve dist) :
    rampDist g vs (g.generate xs dist vs ve).2.2 ≤ dist := by
  rcases lt_or_ge vs ve with hlt | hle
  · have := (C42_terminal_up h hlt xs dist).2.2.1
    rwa [abs_of_nonneg hd] at this
  rcases hr with hr | hr
  · obtain ⟨a, b, -⟩ := C42_terminal_down h hle xs dist
    have : (g.generate xs dist vs ve).2.2 = vs := le_antisymm b (hr.trans a)
    rw [this, rampDist_self h.a h.j]
    exact hd
  · rw [C42_roomy h hle xs dist (by rwa [abs_of_nonneg hd])]
    unfold rampDist
    rw [abs_sub_comm, abs_of_nonneg (by linarith)]
    refine le_trans (mul_le_mul_of_nonneg_right (by linarith) (rampTime_nonneg h.a h.j (by linarith))) hr.le

/-- With room the speed at the end is not above the one asked for. -/
theorem roomy_le (h : Request g vs ve) (xs : ℝ) {dist : ℝ} (hd : 0 ≤ dist) (hr : Roomy g vs ve dist) : (g.generate xs dist vs ve).2.2 ≤ ve := by
  rcases lt_or_ge vs ve with hlt | hle
  · exact (C42_terminal_up h hlt xs dist).2.1
  rcases hr with hr | hr
  · exact (C42_terminal_down h hle xs dist).2.1.trans hr
  · exact (C42_roomy h hle xs dist (by rwa [abs_of_nonneg hd])).le

theorem roomy_mono (h : Request g vs ve) {u d : ℝ} (hu : u ≤ vs) (hr : Roomy g vs ve d) : Roomy g u ve d := by
  rcases hr with hr | hr
  · exact .inl (hu.trans hr)
  · rcases le_or_gt u ve with h' | h'
    · exact .inl h'
    · refine .inr (lt_of_le_of_lt ?_ hr)
      exact mul_le_mul hu (rampTime_mono h.a h.j (by linarith)) (rampTime_nonneg h.a h.j (by linarith)) h.start0

/-- The speed at the end of a straight is between those asked for. -/
theorem terminal_between (h : Request g vs ve) (xs dist : ℝ) :
    min vs ve ≤ (g.generate xs dist vs ve).2.2 ∧ (g.generate xs dist vs ve).2.2 ≤ max vs ve := by
  rcases lt_or_ge vs ve with hlt | hle
  · obtain ⟨a, b, -⟩ := C42_terminal_up h hlt xs dist
    exact ⟨(min_le_left _ _).trans a, b.trans (le_max_right _ _)⟩
  · obtain ⟨a, b, -⟩ := C42_terminal_down h hle xs dist
    exact ⟨(min_le_right _ _).trans a, b.trans (le_max_left _ _)⟩

theorem terminal_pos (h : Request g vs ve) (xs : ℝ) {dist : ℝ} (hd : 0 ≤ dist) (hs : Starts g vs dist) (he : 0 < ve) :
    0 < (g.generate xs dist vs ve).2.2 := by
  rcases h.start0.lt_or_eq with h0 | h0
  · exact lt_of_lt_of_le (lt_min h0 he) (terminal_between h xs dist).1
  · rcases hs with hs | hs
    · exact absurd h0 hs.ne
    · obtain ⟨a, -, -, b⟩ := C42_terminal_up h (h0 ▸ he) xs dist
      rw [← h0] at a b ⊢
      rcases a.lt_or_eq with a | a
      · exact a
      · exfalso
        rw [← a, abs_of_nonneg hd, zero_add, sub_zero] at b
        rcases b with b | b | b
        · exact he.ne b
        · linarith
        · unfold resolution at b
          have := h.v
          rw [div_eq_iff (by positivity)] at b
          nlinarith

/-- C76: a slalom of the table, driven with changing speed. When the mouse can start, the slalom ends; its samples lead from the start pose and speed
to the end of the slalom and the reported speed, and no two successive ones are further apart than one step, what the straights are too
short for the change of speed, and the error of the table. -/
theorem C76_table {sw fo : ℝ} {kind : SlalomKind} {d : SlalomDirection} {vm period J : ℝ} (hsw : 0 < sw) (hs : Request g vs vm) (hvm : 0 < vm)
    (hR : 0 < (parameters sw fo kind d).vRef) (hp : 0 < period) (h1 : 0 ≤ (parameters sw fo kind d).lStart) (h2 : 0 ≤ (parameters sw fo kind d).lEnd)
    (he0 : 0 ≤ ve) (he1 : ve ≤ g.vMax) (hst : Starts g vs (parameters sw fo kind d).lStart) (hc : g.vMax * period ≤ (parameters sw fo kind d).vRef / 100)
    (hJ : 0 ≤ J) (f1 : rampDist g vs (straightGenerate g period (parameters sw fo kind d).lStart vs vm).2 ≤ (parameters sw fo kind d).lStart + J)
    (f2 : rampDist g (straightGenerate g period (parameters sw fo kind d).lStart vs vm).2
      (slalomWithTerminal g period (parameters sw fo kind d) vs vm ve).2 ≤ (parameters sw fo kind d).lEnd + J) :
    ∃ l, Produces (slalomNext .real (parameters sw fo kind d).curveEnd) (slalomWithTerminal g period (parameters sw fo kind d) vs vm ve).1 l ∧
      Drive g.vMax g.aMax period origin vs (slalomEnd (parameters sw fo kind d)) (slalomWithTerminal g period (parameters sw fo kind d) vs vm ve).2 l ∧
      Steps (1.01 * (g.vMax * period) + J + 3 / 2 * (tableError kind * sw)) (g.aMax * period) l := by
  obtain ⟨r1, hr1⟩ := (C45_ends_iff hs 0 (parameters sw fo kind d).lStart).2 (by
    rw [abs_of_nonneg h1]
    rcases hst with h | h
    · exact .inl h
    · exact .inr (.inl ⟨hvm, h⟩))
  have hm0 := terminal_pos hs 0 h1 hst hvm
  obtain ⟨r2, hr2⟩ := C69_table_ends sw fo kind d hm0 hp hR
  obtain ⟨a, b, c, -⟩ := table_limits sw fo kind d
  have hpi := Real.pi_pos
  have hb := terminal_between hs 0 (parameters sw fo kind d).lStart
  have hmax : max vs vm ≤ g.vMax := max_le hs.start1 hs.end1
  obtain ⟨l1, l2, l3, k1, k2, ⟨t2, k3, k3'⟩, k4, k5, k6, k7, k8, k9, k10, k11⟩ := C76_slalom (ve := ve) hs hR (by rw [a]; positivity) (by rw [b]; positivity)
    (by rw [c]; positivity) hp h1 h2 he0 he1 rfl hm0 hr1 hr2
  have em : (straightGenerate g period (parameters sw fo kind d).lStart vs vm).2 = (g.generate 0 (parameters sw fo kind d).lStart vs vm).2.2 := rfl
  rw [em] at k2 k4 k5 k6 k8 k10 k11 f1 f2
  generalize hm : (g.generate 0 (parameters sw fo kind d).lStart vs vm).2.2 = m at *
  have m1 : m ≤ g.vMax := hb.2.trans hmax
  have hle : m * period ≤ g.vMax * period := mul_le_mul_of_nonneg_right m1 hp.le
  have s1 := k10 J hJ f1
  have s3 := k11 J hJ f2
  have vp : 0 < g.vMax * period := mul_pos hs.v hp
  have te : 0 ≤ tableError kind * sw := mul_nonneg (by cases kind <;> norm_num [tableError]) hsw.le
  refine ⟨_, k1, k9, ?_⟩
  have ap : 0 ≤ g.aMax * period := (mul_pos hs.a hp).le
  refine Steps.append (Steps.append (Steps.mono s1 (by nlinarith) le_rfl) (Steps.mono k5 (by nlinarith) ap) ?_) (Steps.mono s3 (by nlinarith) le_rfl) ?_
  · intro t ht t' ht'
    rw [k3] at ht'
    cases ht'
    have := Drive.last_gap k2 ht 0 (by rw [k3'.1, k3'.2.1]; simp) (k4 _ (List.mem_of_mem_head? k3))
    exact ⟨this.1.trans (by nlinarith), this.2⟩
  · intro t ht t' ht'
    have hl2 : 0 < l2.length := by omega
    have ht2 : l2[l2.length - 1]? = some t := by
      rw [List.getLast?_append] at ht
      rw [← List.getLast?_eq_getElem?]
      cases e : l2.getLast? with
      | none => rw [List.getLast?_eq_none_iff] at e; rw [e] at hl2; simp at hl2
      | some x => rw [e] at ht; exact ht
    have hy := (produces_yields k6 _ t).2 ht2
    rw [k7, Nat.add_sub_cancel] at hy
    obtain ⟨t3, f1, f2, f3⟩ := k8.first
    rw [f1] at ht'
    cases ht'
    refine ⟨?_, by rw [f3, k4 t (List.mem_of_getElem? ht2)]; simpa using ap⟩
    have g1 := C76_curve_end hsw hm0 hp hR hr2 rfl hy f2
    have g2 := quadratureError_le hm0 hp hR hr2 rfl (hle.trans hc)
    nlinarith

/-- C76: with room for the changes of speed nothing is missing. -/
theorem C76_roomy {sw fo : ℝ} {kind : SlalomKind} {d : SlalomDirection} {vm period : ℝ} (hsw : 0 < sw) (hs : Request g vs vm) (hvm : 0 < vm)
    (hR : 0 < (parameters sw fo kind d).vRef) (hp : 0 < period) (h1 : 0 ≤ (parameters sw fo kind d).lStart) (h2 : 0 ≤ (parameters sw fo kind d).lEnd)
    (he0 : 0 ≤ ve) (he1 : ve ≤ g.vMax) (hst : Starts g vs (parameters sw fo kind d).lStart) (hc : g.vMax * period ≤ (parameters sw fo kind d).vRef / 100)
    (ro1 : Roomy g vs vm (parameters sw fo kind d).lStart) (ro2 : Roomy g vm ve (parameters sw fo kind d).lEnd) :
    ∃ l, Produces (slalomNext .real (parameters sw fo kind d).curveEnd) (slalomWithTerminal g period (parameters sw fo kind d) vs vm ve).1 l ∧
      Drive g.vMax g.aMax period origin vs (slalomEnd (parameters sw fo kind d)) (slalomWithTerminal g period (parameters sw fo kind d) vs vm ve).2 l ∧
      Steps (1.01 * (g.vMax * period) + 3 / 2 * (tableError kind * sw)) (g.aMax * period) l := by
  have hb := terminal_between hs 0 (parameters sw fo kind d).lStart
  have he : Request g (g.generate 0 (parameters sw fo kind d).lStart vs vm).2.2 ve :=
    ⟨hs.v, hs.a, hs.j, (le_min hs.start0 hs.end0).trans hb.1, hb.2.trans (max_le hs.start1 hs.end1), he0, he1⟩
  have := C76_table (J := 0) hsw hs hvm hR hp h1 h2 he0 he1 hst hc le_rfl (by rw [add_zero]; exact roomy_fits hs 0 h1 ro1) (by
    rw [add_zero]
    exact roomy_fits he 0 h2 (roomy_mono ⟨hs.v, hs.a, hs.j, hs.end0, hs.end1, he0, he1⟩ (roomy_le hs 0 h1 ro1) ro2))
  rwa [add_zero] at this

/-- The mouse starts from rest, takes a turn of 135 degrees at half a meter per second and speeds up to 0.6. -/
example : ∃ l, Produces (slalomNext .real (parameters 0.09 0 .fastRun135 .right).curveEnd)
      (slalomWithTerminal ⟨1, 10, 100⟩ 0.001 (parameters 0.09 0 .fastRun135 .right) 0 0.5 0.6).1 l ∧
    Drive 1 10 0.001 origin 0 (slalomEnd (parameters 0.09 0 .fastRun135 .right))
      (slalomWithTerminal ⟨1, 10, 100⟩ 0.001 (parameters 0.09 0 .fastRun135 .right) 0 0.5 0.6).2 l ∧ Steps 0.0011 0.01 l := by
  obtain ⟨l, a, b, c⟩ := C76_roomy (g := ⟨1, 10, 100⟩) (vs := 0) (ve := 0.6) (sw := 0.09) (fo := 0) (kind := .fastRun135) (d := .right) (vm := 0.5)
    (period := 0.001) (by norm_num) (by constructor <;> norm_num) (by norm_num) (by norm_num [parameters, createParams]) (by norm_num)
    (by norm_num [parameters, createParams]) (by norm_num [parameters, createParams]) (by norm_num) (by norm_num)
    (.inr (by
      have : Real.sqrt (1 / 2 ^ 25 / 100) ≤ 1 := Real.sqrt_le_one.2 (by norm_num)
      norm_num [rampDist, rampTime, resolution, parameters, createParams] at this ⊢
      linarith))
    (by norm_num [parameters, createParams]) (.inl (by norm_num)) (.inl (by norm_num))
  exact ⟨l, a, b, Steps.mono c (by norm_num [tableError]) (by norm_num)⟩

end Verif.Props
