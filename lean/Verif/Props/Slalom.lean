import Verif.Props.Curve
import Verif.Proof.Slalom
/-!
# C67, C44: whole slaloms
-/
namespace Verif.Props
open Verif Verif.Control Verif.Straight Verif.Slalom Verif.Spec Verif.StraightP Verif.SlalomP
open Verif.Run (SlalomKind SlalomDirection)

/-! ## C67: the ends of the curves in the table -/

theorem sin8 : 0.38268343 ≤ Real.sin (Real.pi / 8) ∧ Real.sin (Real.pi / 8) ≤ 0.38268344 := by
  rw [Real.sin_pi_div_eight]
  have lo : 1.41421356 ≤ Real.sqrt 2 := Real.le_sqrt_of_sq_le (by norm_num)
  have hi : Real.sqrt 2 ≤ 1.414213564 := by rw [Real.sqrt_le_left (by norm_num)]; norm_num
  constructor
  · have : 0.76536686 ≤ Real.sqrt (2 - Real.sqrt 2) := Real.le_sqrt_of_sq_le (by norm_num; linarith)
    linarith
  · have : Real.sqrt (2 - Real.sqrt 2) ≤ 0.76536688 := by rw [Real.sqrt_le_left (by norm_num)]; norm_num; linarith
    linarith

theorem cos8 : 0.92387953 ≤ Real.cos (Real.pi / 8) ∧ Real.cos (Real.pi / 8) ≤ 0.92387954 := by
  rw [Real.cos_pi_div_eight]
  have lo : 1.414213562 ≤ Real.sqrt 2 := Real.le_sqrt_of_sq_le (by norm_num)
  have hi : Real.sqrt 2 ≤ 1.414213564 := by rw [Real.sqrt_le_left (by norm_num)]; norm_num
  constructor
  · have : 1.84775906 ≤ Real.sqrt (2 + Real.sqrt 2) := Real.le_sqrt_of_sq_le (by norm_num; linarith)
    linarith
  · have : Real.sqrt (2 + Real.sqrt 2) ≤ 1.84775908 := by rw [Real.sqrt_le_left (by norm_num)]; norm_num; linarith
    linarith

theorem half45 : degree 45 / 2 = Real.pi / 8 := by unfold degree; ring
theorem half90 : degree 90 / 2 = Real.pi / 4 := by unfold degree; ring
theorem half135 : degree 135 / 2 = Real.pi / 2 - Real.pi / 8 := by unfold degree; ring
theorem half180 : degree 180 / 2 = Real.pi / 2 := by unfold degree; ring

/-- How far the end of a curve in the table is from the line on which the curve ends. -/
noncomputable def offBisector (p : Slalom.Params) : ℝ :=
  (p.xCurveEnd - p.lStart) * Real.sin (p.theta / 2) - p.yCurveEnd * Real.cos (p.theta / 2)

/-- C67: all curves of the table but one end on the bisector of their turn, within 3e-6 of the square width. -/
theorem C67_table (sw fo : ℝ) (hsw : 0 ≤ sw) (kind : SlalomKind) (d : SlalomDirection) (hk : kind ≠ .fastRun45) :
    |offBisector (parameters sw fo kind d)| ≤ 3e-6 * sw := by
  have lo := sqrt2_lo
  have hi := sqrt2_hi
  obtain ⟨s1, s2⟩ := sin8
  obtain ⟨c1, c2⟩ := cos8
  cases kind <;> first | exact absurd rfl hk | skip
  all_goals
    cases d <;>
    simp only [offBisector, parameters] <;> (try split) <;>
    simp only [createParams, neg_div, half45, half90, half135, half180, Real.sin_neg, Real.cos_neg,
      Real.sin_pi_div_four, Real.cos_pi_div_four, Real.sin_pi_div_two, Real.cos_pi_div_two, Real.sin_pi_div_two_sub, Real.cos_pi_div_two_sub] <;>
    rw [abs_le] <;> constructor <;>
    nlinarith [mul_le_mul_of_nonneg_left lo hsw, mul_le_mul_of_nonneg_left hi hsw, mul_le_mul_of_nonneg_left s1 hsw,
      mul_le_mul_of_nonneg_left s2 hsw, mul_le_mul_of_nonneg_left c1 hsw, mul_le_mul_of_nonneg_left c2 hsw]

/-- The curve of a slalom, driven with speed `v`. -/
noncomputable def slalomCurve (p : Slalom.Params) (v period : ℝ) : Curve :=
  generateCurve period p.lStart 0 0 p.theta v p.vRef p.dtheta p.ddtheta p.dddtheta

/-- C67: the 45 degree slalom does not: wherever its curve really ends, the straight that follows starts at least 0.0017 square widths away. -/
theorem C67_jump (sw fo : ℝ) (hsw : 0 < sw) (d : SlalomDirection) (v period r : ℝ) (hv : 0 < v) (hp : 0 < period)
    (hr : (slalomCurve (parameters sw fo .fastRun45 d) v period).tEnd = .fin r) (X Y : ℝ → ℝ)
    (hF : Follows v (curveHeading (slalomCurve (parameters sw fo .fastRun45 d) v period)) X Y)
    (hX : X 0 = (parameters sw fo .fastRun45 d).lStart) (hY : Y 0 = 0) :
    (0.0017 * sw) ^ 2 ≤ (X r - (parameters sw fo .fastRun45 d).xCurveEnd) ^ 2 + (Y r - (parameters sw fo .fastRun45 d).yCurveEnd) ^ 2 := by
  have R : CurveRequest v (parameters sw fo .fastRun45 d).vRef (parameters sw fo .fastRun45 d).dtheta
      (parameters sw fo .fastRun45 d).ddtheta (parameters sw fo .fastRun45 d).dddtheta period := by
    have := Real.pi_pos
    cases d <;> constructor <;> first | assumption | (simp only [parameters, createParams]; positivity)
  have hb := C67_bisector R _ _ _ _ r hr X Y hF
  rw [hX, hY, zero_add, sub_zero] at hb
  obtain ⟨s1, s2⟩ := sin8
  obtain ⟨c1, c2⟩ := cos8
  have hsc := Real.sin_sq_add_cos_sq (parameters sw fo .fastRun45 d).theta
  have off : 0.0017 * sw ≤ |offBisector (parameters sw fo .fastRun45 d)| := by
    rw [le_abs]
    cases d
    · left
      simp only [offBisector, parameters, createParams, half45]
      nlinarith [mul_le_mul_of_nonneg_left s1 hsw.le, mul_le_mul_of_nonneg_left c2 hsw.le]
    · right
      simp only [offBisector, parameters, createParams, neg_div, half45, Real.sin_neg, Real.cos_neg]
      nlinarith [mul_le_mul_of_nonneg_left s1 hsw.le, mul_le_mul_of_nonneg_left c2 hsw.le]
  have h2 : (0.0017 * sw) ^ 2 ≤ offBisector (parameters sw fo .fastRun45 d) ^ 2 := by
    rw [← sq_abs (offBisector _)]; exact pow_le_pow_left₀ (by positivity) off 2
  refine h2.trans ?_
  have hsc := Real.sin_sq_add_cos_sq ((parameters sw fo .fastRun45 d).theta / 2)
  unfold offBisector
  generalize Real.sin ((parameters sw fo .fastRun45 d).theta / 2) = a at *
  generalize Real.cos ((parameters sw fo .fastRun45 d).theta / 2) = b at *
  generalize (parameters sw fo .fastRun45 d).xCurveEnd = xe at *
  generalize (parameters sw fo .fastRun45 d).yCurveEnd = ye at *
  generalize (parameters sw fo .fastRun45 d).lStart = l at *
  have e : (xe - l) * a - ye * b = (xe - X r) * a - (ye - Y r) * b := by linarith
  rw [e]
  have : ((X r - xe) ^ 2 + (Y r - ye) ^ 2) * (a ^ 2 + b ^ 2) - ((xe - X r) * a - (ye - Y r) * b) ^ 2 =
      ((X r - xe) * b + (Y r - ye) * a) ^ 2 := by ring
  rw [hsc, mul_one] at this
  nlinarith [sq_nonneg ((X r - xe) * b + (Y r - ye) * a)]

/-! ## C44, C68: the samples of a slalom -/

theorem produces_cons {σ α : Type} {next : σ → Option α × σ} {s : σ} {x : α} {l : List α} (h : Produces next s (x :: l)) :
    (next s).1 = some x ∧ Produces next (next s).2 l := by
  refine ⟨by simpa [outputs] using h 1, fun n => ?_⟩
  have := h (n + 1)
  rw [outputs, List.range_succ_eq_map, List.map_cons, List.map_map] at this
  exact (List.cons.inj this).2

theorem produces_nil {σ α : Type} {next : σ → Option α × σ} {s : σ} (h : Produces next s []) : (next s).1 = none := by
  simpa [outputs] using h 1

theorem outputs_chain_second {σ τ α : Type} (next1 : σ → Option α × σ) (next2 : τ → Option α × τ) (n : Nat) :
    ∀ b, outputs (chainNext next1 next2) n (none, b) = outputs next2 n b := by
  induction n with
  | zero => intro b; rfl
  | succ n ih => intro b; rw [outputs, outputs]; exact congrArg _ (ih _)

theorem produces_chain {σ τ α : Type} {next1 : σ → Option α × σ} {next2 : τ → Option α × τ} {b : τ} {l2 : List α}
    (h2 : Produces next2 b l2) : ∀ (l1 : List α) (a : σ), Produces next1 a l1 → Produces (chainNext next1 next2) (some a, b) (l1 ++ l2) := by
  intro l1
  induction l1 with
  | nil =>
    intro a h1 n
    have e := produces_nil h1
    cases n with
    | zero => rfl
    | succ n =>
      rw [List.nil_append, ← h2 (n + 1), ← outputs_chain_second next1 next2]
      have : chainNext next1 next2 (some a, b) = chainNext next1 next2 (none, b) := by
        show (match next1 a with | (some x, a') => _ | (none, _) => _) = _
        rcases hx : next1 a with ⟨_ | x, a'⟩
        · rfl
        · rw [hx] at e; cases e
      rw [outputs, outputs, this]
  | cons x l ih =>
    intro a h1 n
    obtain ⟨e, h1'⟩ := produces_cons h1
    cases n with
    | zero => rfl
    | succ n =>
      have : chainNext next1 next2 (some a, b) = (some x, some (next1 a).2, b) := by
        show (match next1 a with | (some x, a') => _ | (none, _) => _) = _
        rcases hx : next1 a with ⟨_ | x', a'⟩
        · rw [hx] at e; cases e
        · rw [hx] at e; cases e; rfl
      rw [outputs, this, ih _ h1' n, List.range_succ_eq_map, List.map_cons, List.map_map]
      rfl

theorem produces_of {σ α : Type} {next : σ → Option α × σ} {s : σ} {N : Nat} {f : Nat → α}
    (h : ∀ n, outputs next n s = (List.range n).map fun k : Nat => if k < N then some (f k) else none) :
    Produces next s ((List.range N).map f) := by
  intro n
  rw [h]
  refine List.map_congr_left fun k _ => ?_
  rw [List.getElem?_map]
  split
  · rename_i hk; rw [List.getElem?_range hk]; rfl
  · rename_i hk; rw [List.getElem?_eq_none (by simpa using hk)]; rfl

/-- The sample number `k` of a straight driven with speed `v`. -/
noncomputable def straightSample (v period : ℝ) (k : Nat) : Target := ⟨⟨v * (k * period), v, 0, 0⟩, .zero, .zero⟩

/-- C44: the samples of a slalom driven with constant speed: those of the first straight, of the curve and of the second straight, this one in the
frame of the end of the curve; each part ends as it does on its own. -/
theorem C44_slalom (p : Slalom.Params) (v period r : ℝ) (R : CurveRequest v p.vRef p.dtheta p.ddtheta p.dddtheta period)
    (h1 : 0 ≤ p.lStart) (h2 : 0 ≤ p.lEnd) (hr : (slalomCurve p v period).tEnd = .fin r) :
    ∃ l, Produces (Curve.next .real) (slalomCurve p v period) l ∧ l.length = ⌊r / period⌋₊ + 1 ∧
      Produces (slalomNext .real p.curveEnd) (constantSlalom period p v)
        ((List.range (⌊p.lStart / v / period⌋₊ + 1)).map (straightSample v period) ++ l ++
          (List.range (⌊p.lEnd / v / period⌋₊ + 1)).map (fun k => shift .real p.curveEnd (straightSample v period k))) := by
  have h0 := finite_start (curve_request R) 0 p.theta r hr
  have hc : slalomCurve p v period = ⟨(slalomCurve p v period).calculator, 0, .fin r, period, p.lStart, 0, v⟩ := by rw [← hr]; rfl
  obtain ⟨l, hl, k2⟩ : ∃ l, l.length = ⌊r / period⌋₊ + 1 ∧ Produces (Curve.next .real) (slalomCurve p v period) l := by
    have := produces_of (fun n => curve_outputs .real (slalomCurve p v period).calculator p.lStart 0 v h0 R.period n)
    rw [← hc] at this
    exact ⟨_, by simp, this⟩
  have k1 := produces_of (fun n => C44_constant h1 R.v R.period n)
  have k3 : Produces (shiftNext .real p.curveEnd Straight.next) (straightConstant p.lEnd v period)
      ((List.range (⌊p.lEnd / v / period⌋₊ + 1)).map (fun k => shift .real p.curveEnd (straightSample v period k))) := by
    refine produces_of fun n => ?_
    rw [C44_shift, C44_constant h2 R.v R.period, List.map_map]
    refine List.map_congr_left fun k _ => ?_
    simp only [Function.comp]
    split <;> rfl
  refine ⟨l, k2, hl, ?_⟩
  exact produces_chain k3 _ _ (produces_chain k2 _ _ k1)

theorem produces_yields {σ α : Type} {next : σ → Option α × σ} {s : σ} {l : List α} (h : Produces next s l) (k : Nat) (t : α) :
    Yields next s k t ↔ l[k]? = some t := by
  unfold Yields
  rw [h, List.getElem?_map, List.getElem?_range (by omega)]
  simp

/-- C68: every sample of a slalom driven with constant speed goes forward with exactly that speed, and not sideways. -/
theorem C68_speed (p : Slalom.Params) (v period r : ℝ) (R : CurveRequest v p.vRef p.dtheta p.ddtheta p.dddtheta period)
    (h1 : 0 ≤ p.lStart) (h2 : 0 ≤ p.lEnd) (hr : (slalomCurve p v period).tEnd = .fin r) (k : Nat) (t : Target)
    (hy : Yields (slalomNext .real p.curveEnd) (constantSlalom period p v) k t) :
    rotate (-t.theta.x) (t.x.v, t.y.v) = (v, 0) := by
  obtain ⟨l, hl, -, hs⟩ := C44_slalom p v period r R h1 h2 hr
  have hm := List.mem_of_getElem? ((produces_yields hs k t).1 hy)
  rw [List.mem_append, List.mem_append, List.mem_map, List.mem_map] at hm
  rcases hm with (⟨k, -, rfl⟩ | hm) | ⟨k, -, rfl⟩
  · simp [straightSample, rotate, Axis.zero]
  · obtain ⟨k, hk⟩ := List.mem_iff_getElem?.1 hm
    exact (C47_velocity _ _ _ _ ((produces_yields hl k t).2 hk)).2
  · rw [C46_body]
    simp [straightSample, rotate, Axis.zero]

/-- C68: the first sample is the origin; the curve begins less than one step after the last sample of the first straight, and the second straight
exactly at the end of the curve according to the table; the last sample is less than one step before the end of the slalom, in its heading. -/
theorem C68_joints (p : Slalom.Params) (v period r : ℝ) (R : CurveRequest v p.vRef p.dtheta p.ddtheta p.dddtheta period)
    (h1 : 0 ≤ p.lStart) (h2 : 0 ≤ p.lEnd) (hr : (slalomCurve p v period).tEnd = .fin r) :
    ∃ n1 n2 n3, ∃ first last1 first2 first3 last : Target,
      Yields (slalomNext .real p.curveEnd) (constantSlalom period p v) 0 first ∧
      Yields (slalomNext .real p.curveEnd) (constantSlalom period p v) n1 last1 ∧
      Yields (slalomNext .real p.curveEnd) (constantSlalom period p v) (n1 + 1) first2 ∧
      Yields (slalomNext .real p.curveEnd) (constantSlalom period p v) (n1 + n2 + 2) first3 ∧
      Yields (slalomNext .real p.curveEnd) (constantSlalom period p v) (n1 + n2 + n3 + 2) last ∧
      (∀ k t, Yields (slalomNext .real p.curveEnd) (constantSlalom period p v) k t → k ≤ n1 + n2 + n3 + 2) ∧
      (first.x.x = 0 ∧ first.y.x = 0 ∧ first.theta.x = 0) ∧
      (last1.y.x = 0 ∧ last1.theta.x = 0 ∧ first2.x.x = p.lStart ∧ first2.y.x = 0 ∧ first2.theta.x = 0 ∧
        0 ≤ first2.x.x - last1.x.x ∧ first2.x.x - last1.x.x < v * period) ∧
      (first3.x.x = p.xCurveEnd ∧ first3.y.x = p.yCurveEnd ∧ first3.theta.x = p.theta) ∧
      (last.theta.x = p.theta ∧ ∃ s, 0 ≤ s ∧ s < v * period ∧
        (last.x.x, last.y.x) = place p.curveEnd (p.lEnd - s, 0)) := by
  obtain ⟨l, hl, hlen, hs⟩ := C44_slalom p v period r R h1 h2 hr
  have fl (q : ℝ) (hq : 0 ≤ q) : v * (⌊q / v / period⌋₊ * period) ≤ q ∧ q - v * (⌊q / v / period⌋₊ * period) < v * period := by
    have hvp := mul_pos R.v R.period
    have a := Nat.floor_le (div_nonneg (div_nonneg hq R.v.le) R.period.le)
    have b := Nat.lt_floor_add_one (q / v / period)
    rw [div_div] at a b
    rw [le_div_iff₀ hvp] at a
    rw [div_lt_iff₀ hvp] at b
    rw [div_div]
    constructor <;> nlinarith
  generalize hn1 : ⌊p.lStart / v / period⌋₊ = n1 at *
  generalize hn2 : ⌊r / period⌋₊ = n2 at *
  generalize hn3 : ⌊p.lEnd / v / period⌋₊ = n3 at *
  have f1 := fl p.lStart h1
  have f3 := fl p.lEnd h2
  rw [hn1] at f1
  rw [hn3] at f3
  have iff (k : Nat) (t : Target) := produces_yields hs k t
  have hl0 : 0 < l.length := by omega
  have lA : ((List.range (n1 + 1)).map (straightSample v period)).length = n1 + 1 := by simp
  have gA (k : Nat) (hk : k ≤ n1) : Yields (slalomNext .real p.curveEnd) (constantSlalom period p v) k (straightSample v period k) := by
    rw [iff, List.append_assoc, List.getElem?_append_left (by rw [lA]; omega), List.getElem?_map, List.getElem?_range (by omega)]; rfl
  have gL : Yields (slalomNext .real p.curveEnd) (constantSlalom period p v) (n1 + 1) l[0] := by
    rw [iff, List.append_assoc, List.getElem?_append_right (by rw [lA]), lA, Nat.sub_self, List.getElem?_append_left hl0,
      List.getElem?_eq_getElem hl0]
  have gB (k : Nat) (hk : k ≤ n3) : Yields (slalomNext .real p.curveEnd) (constantSlalom period p v) (n1 + n2 + k + 2)
      (shift .real p.curveEnd (straightSample v period k)) := by
    rw [iff, List.getElem?_append_right (by rw [List.length_append, lA, hlen]; omega), List.length_append, lA, hlen,
      show n1 + n2 + k + 2 - (n1 + 1 + (n2 + 1)) = k by omega, List.getElem?_map, List.getElem?_range (by omega)]; rfl
  have st := C47_start R p.lStart 0 0 p.theta ((produces_yields hl 0 l[0]).2 (List.getElem?_eq_getElem hl0))
  refine ⟨n1, n2, n3, _, _, _, _, _, gA 0 (Nat.zero_le _), gA n1 le_rfl, gL, gB 0 (Nat.zero_le _), gB n3 le_rfl, ?_, ?_, ?_, ?_, ?_⟩
  · intro k t hk
    by_contra hn
    rw [iff, List.getElem?_eq_none (by simp only [List.length_append, List.length_map, List.length_range, hlen]; omega)] at hk
    cases hk
  · simp [straightSample, Axis.zero]
  · refine ⟨rfl, rfl, st.1, st.2.1, st.2.2, ?_, ?_⟩
    · rw [st.1]; simp only [straightSample]; linarith [f1.1]
    · rw [st.1]; simp only [straightSample]; linarith [f1.2]
  · simp [straightSample, shift, Axis.zero, Slalom.Params.curveEnd]
  · refine ⟨by simp [straightSample, shift, Axis.zero, Slalom.Params.curveEnd], p.lEnd - v * (n3 * period), by linarith [f3.1], f3.2, ?_⟩
    rw [sub_sub_cancel, (C46_shift p.curveEnd (straightSample v period n3)).1]
    simp [straightSample, Axis.zero]

end Verif.Props
