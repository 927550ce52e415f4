import Verif.Spec.SearchDriver
import Verif.Props.Drive
import Verif.Props.Geometry
import Verif.Props.ExploreLoop
/-!
# C78: the search run as a whole
-/
namespace Verif.Props
open Verif Verif.Control Verif.Straight Verif.Slalom Verif.Spec Verif.StraightP Verif.SearchDriver
open Verif.Run (SlalomKind SlalomDirection)
open Verif.Search (SearchState Commander Searcher Coord WallState TrajectoryKind)

variable {c : SearchConfig}

/-! ## Straights and slaloms at constant speed -/

theorem body_sample (v period : ℝ) (k : Nat) : body (straightSample v period k) = (v, 0) := body_straight _

/-- The samples of a straight driven with constant speed. -/
theorem constant_straight {v period dist a : ℝ} (hv : 0 < v) (hp : 0 < period) (ha : 0 ≤ a) (hd : 0 ≤ dist) :
    Drive v a period origin v ⟨dist, 0, 0⟩ v ((List.range (⌊dist / v / period⌋₊ + 1)).map (straightSample v period)) ∧
      Steps (v * period) 0 ((List.range (⌊dist / v / period⌋₊ + 1)).map (straightSample v period)) := by
  have hvp := mul_pos hv hp
  have n1 := Nat.floor_le (div_nonneg (div_nonneg hd hv.le) hp.le)
  have n2 := Nat.lt_floor_add_one (dist / v / period)
  generalize ⌊dist / v / period⌋₊ = N at *
  rw [div_div, le_div_iff₀ hvp] at n1
  rw [div_div, div_lt_iff₀ hvp] at n2
  refine ⟨⟨⟨_, by rw [List.range_succ_eq_map]; rfl, ?_, body_sample _ _ _⟩, ⟨_, dist - v * (N * period), v,
    by rw [List.range_succ, List.map_append]; exact List.getLast?_concat .., rfl, ?_, by linarith, by linarith, body_sample _ _ _, ?_⟩, ?_⟩, ?_⟩
  · simp [At, straightSample, origin, Axis.zero]
  · simp [place, rotate, straightSample, Axis.zero]
  · rw [sub_self, abs_zero]; positivity
  · intro t ht
    obtain ⟨k, -, rfl⟩ := List.mem_map.1 ht
    exact ⟨v, body_sample _ _ _, hv.le, le_rfl⟩
  · refine steps_range _ _ _ _ fun k _ => ?_
    rw [body_sample, body_sample, sub_self, abs_zero, straightSample, straightSample, gap_straight]
    refine ⟨?_, le_rfl⟩
    push_cast
    rw [abs_of_nonneg (by nlinarith)]
    nlinarith

/-- A slalom of the table, driven with constant speed. -/
theorem constant_slalom {sw fo : ℝ} {kind : SlalomKind} {d : SlalomDirection} {v period a : ℝ} (hsw : 0 < sw) (hv : 0 < v) (ha : 0 ≤ a)
    (hR : 0 < (parameters sw fo kind d).vRef) (hp : 0 < period) (h1 : 0 ≤ (parameters sw fo kind d).lStart) (h2 : 0 ≤ (parameters sw fo kind d).lEnd)
    (hc : v * period ≤ (parameters sw fo kind d).vRef / 100) :
    ∃ l, Produces (slalomNext .real (parameters sw fo kind d).curveEnd) (constantSlalom period (parameters sw fo kind d) v) l ∧
      Drive v a period origin v (slalomEnd (parameters sw fo kind d)) v l ∧
      Steps (1.01 * (v * period) + 3 / 2 * (tableError kind * sw)) 0 l := by
  obtain ⟨r2, hr2⟩ := C69_table_ends sw fo kind d hv hp hR
  have R := table_request sw fo kind d hv hp hR
  obtain ⟨l2, b1, b2, b3⟩ := C44_slalom _ v period r2 R h1 h2 hr2
  obtain ⟨l2', c1, c2, ⟨t2, k3, k3'⟩, k4, k5⟩ := curve_parts R hr2
  have e2 : l2' = l2 := by
    refine List.ext_getElem? fun i => ?_
    by_cases hi : i < l2.length
    · rw [List.getElem?_eq_getElem hi]
      exact (produces_yields c1 i _).1 ((produces_yields b1 i _).2 (List.getElem?_eq_getElem hi))
    · rw [List.getElem?_eq_none (by omega), List.getElem?_eq_none (by omega)]
  subst e2
  obtain ⟨a1, a2⟩ := constant_straight (a := a) hv hp ha h1
  obtain ⟨d1, d2⟩ := constant_straight (a := a) hv hp ha h2
  have d1' := Drive.shift d1 (parameters sw fo kind d).curveEnd
  rw [compose_origin] at d1'
  have d2' := Steps.shift d2 (parameters sw fo kind d).curveEnd
  have em : ((List.range (⌊(parameters sw fo kind d).lEnd / v / period⌋₊ + 1)).map (straightSample v period)).map (shift .real (parameters sw fo kind d).curveEnd) =
      (List.range (⌊(parameters sw fo kind d).lEnd / v / period⌋₊ + 1)).map (fun k => shift .real (parameters sw fo kind d).curveEnd (straightSample v period k)) := by
    rw [List.map_map]; rfl
  rw [em] at d1' d2'
  have vp : 0 < v * period := mul_pos hv hp
  have te : 0 ≤ tableError kind * sw := mul_nonneg (by cases kind <;> norm_num [tableError]) hsw.le
  refine ⟨_, b3, Drive.append a1 d1' fun t ht => ⟨v, k4 t ht, hv.le, le_rfl⟩, ?_⟩
  refine Steps.append (Steps.append (Steps.mono a2 (by nlinarith) le_rfl) (Steps.mono k5 (by nlinarith) le_rfl) ?_) (Steps.mono d2' (by nlinarith) le_rfl) ?_
  · intro t ht t' ht'
    rw [k3] at ht'
    cases ht'
    have := Drive.last_gap' a1 ht 0 (by rw [k3'.1, k3'.2.1]; simp)
    refine ⟨this.trans (by nlinarith), ?_⟩
    obtain ⟨k, -, rfl⟩ := List.mem_map.1 (List.mem_of_mem_getLast? ht)
    rw [k4 _ (List.mem_of_mem_head? k3), body_sample]
    simp
  · intro t ht t' ht'
    have hl2 : 0 < l2'.length := by omega
    have ht2 : l2'[l2'.length - 1]? = some t := by
      rw [List.getLast?_append] at ht
      rw [← List.getLast?_eq_getElem?]
      cases e : l2'.getLast? with
      | none => rw [List.getLast?_eq_none_iff] at e; rw [e] at hl2; simp at hl2
      | some x => rw [e] at ht; exact ht
    have hy := (produces_yields b1 _ t).2 ht2
    rw [b2, Nat.add_sub_cancel] at hy
    obtain ⟨t3, f1, f2, f3⟩ := d1'.first
    rw [f1] at ht'
    cases ht'
    refine ⟨?_, by rw [f3, k4 t (List.mem_of_getElem? ht2)]; simp⟩
    have g1 := C76_curve_end hsw hv hp hR hr2 rfl hy f2
    have g2 := quadratureError_le hv hp hR hr2 rfl hc
    nlinarith

/-! ## Counting -/

/-- A sequence with small steps from one place to another is long. -/
theorem steps_long {δ α : ℝ} : ∀ {l : List Target} {t t' : Target}, Steps δ α l → l.head? = some t → l.getLast? = some t' →
    gap t t' ≤ (l.length - 1) * δ := by
  intro l
  induction l with
  | nil => intro t t' _ h; cases h
  | cons x l ih =>
    intro t t' h h1 h2
    cases h1
    cases l with
    | nil => cases h2; simp [gap]
    | cons y l =>
      unfold Steps at h
      rw [List.isChain_cons_cons] at h
      rw [List.getLast?_cons_cons] at h2
      have := ih h.2 rfl h2
      have e : gap x t' ≤ gap x y + gap y t' := by
        have := hypot_add (y.x.x - x.x.x) (y.y.x - x.y.x) (t'.x.x - y.x.x) (t'.y.x - y.y.x)
        unfold gap
        convert this using 3 <;> ring
      have := h.1.1
      simp only [List.length_cons] at *
      push_cast at *
      nlinarith

/-- So is a drive. -/
theorem drive_long {vMax aMax period v v' δ α : ℝ} {q q' : Detect.Pose} {l : List Target} (D : Drive vMax aMax period q v q' v' l) (h : Steps δ α l)
    (hd : vMax * period ≤ δ) : Real.sqrt ((q'.x - q.x) ^ 2 + (q'.y - q.y) ^ 2) ≤ l.length * δ := by
  obtain ⟨t, h1, h2, -⟩ := D.first
  obtain ⟨t', s, u, h3, -⟩ := D.last
  have g1 := steps_long h h1 h3
  have g2 := Drive.last_gap' D (t' := ⟨⟨q'.x, 0, 0, 0⟩, ⟨q'.y, 0, 0, 0⟩, .zero⟩) h3 0 (by simp)
  have := hypot_add (t'.x.x - q.x) (t'.y.x - q.y) (q'.x - t'.x.x) (q'.y - t'.y.x)
  have e : Real.sqrt ((q'.x - q.x) ^ 2 + (q'.y - q.y) ^ 2) ≤ gap t t' + gap t' ⟨⟨q'.x, 0, 0, 0⟩, ⟨q'.y, 0, 0, 0⟩, .zero⟩ := by
    unfold gap
    rw [h2.1, h2.2.1]
    convert this using 3 <;> ring
  linarith

/-! ## Turning round -/

theorem origin_compose (q : Detect.Pose) : compose origin q = q := by
  cases q; simp [compose, place, rotate, origin]

theorem compose_assoc (q r u : Detect.Pose) : compose (compose q r) u = compose q (compose r u) := by
  have := place_compose q r (u.x, u.y)
  unfold compose at *
  rw [this]
  simp only [add_assoc]

theorem produces_shift {σ : Type} {next : σ → Option Target × σ} {s : σ} {l : List Target} (h : Produces next s l) (q : Detect.Pose) :
    Produces (shiftNext .real q next) s (l.map (shift .real q)) := by
  intro n
  rw [C44_shift, h, List.map_map]
  refine List.map_congr_left fun k _ => ?_
  simp

theorem at_shift {t : Target} {r : Detect.Pose} (h : At t r) (q : Detect.Pose) : At (shift .real q t) (compose q r) := by
  obtain ⟨h1, h2, h3⟩ := h
  refine ⟨?_, ?_, ?_⟩ <;> simp only [shift, compose, place, rotate, Trig.real, h1, h2, h3]
  rw [add_comm]

theorem still_shift {t : Target} (h : Still t) (q : Detect.Pose) : Still (shift .real q t) := by
  obtain ⟨h1, h2, h3⟩ := h
  refine ⟨?_, ?_, ?_⟩ <;> simp [shift, h1, h2, h3]

theorem Rests.shift {r : Detect.Pose} {l : List Target} (h : Rests r l) (q : Detect.Pose) : Rests (compose q r) (l.map (shift .real q)) := by
  intro t ht
  obtain ⟨t, h1, rfl⟩ := List.mem_map.1 ht
  exact ⟨at_shift (h t h1).1 q, still_shift (h t h1).2 q⟩

theorem Turns.shift {ω period θ : ℝ} {r : Detect.Pose} {l : List Target} (h : Turns ω period r θ l) (q : Detect.Pose) :
    Turns ω period (compose q r) (q.theta + θ) (l.map (shift .real q)) where
  first := by
    obtain ⟨t, h1, h2, h3⟩ := h.first
    exact ⟨Straight.shift .real q t, by rw [List.head?_map, h1]; rfl, at_shift h2 q, still_shift h3 q⟩
  last := by
    obtain ⟨t, h1, h2, h3⟩ := h.last
    refine ⟨Straight.shift .real q t, by rw [List.getLast?_map, h1]; rfl, ?_, ?_⟩ <;> simp only [Straight.shift] <;> linarith
  spot := by
    intro t ht
    obtain ⟨t, h1, rfl⟩ := List.mem_map.1 ht
    obtain ⟨a, b, c, d, e⟩ := h.spot t h1
    refine ⟨?_, ?_, ?_, ?_, e⟩ <;> simp only [Straight.shift, compose, place, rotate, Trig.real, a, b, c, d] <;> ring
  steady := by
    rw [List.isChain_map]
    refine List.IsChain.imp (fun t t' a => ?_) h.steady
    simp only [Straight.shift]
    constructor <;> linarith [a.1, a.2]

/-- The samples of a spin. -/
theorem spin_turns {g : Gen} {angle period : ℝ} (h : Spec.Request g 0 0) (hp : 0 < period) (ha : 0 ≤ angle)
    (ht : 2 * rampDist g 0 (resolution g.vMax) ≤ angle) :
    ∃ l, Produces Spin.next (spinGenerate g period angle) l ∧ Turns g.vMax period origin angle l := by
  obtain ⟨r, hr⟩ := (C45_ends_iff h 0 angle).2 (.inr (.inr (by rwa [abs_of_nonneg ha])))
  have r0 := finite_start h 0 angle r hr
  obtain ⟨-, n1, n2⟩ := C44_generated h angle r period hp hr 0
  obtain ⟨s1, s2, -⟩ := C42_start h 0 angle
  obtain ⟨e1, -⟩ := C42_end h 0 angle r (fin_of_lt hr r le_rfl)
  have fits : rampDist g 0 (g.generate 0 angle 0 0).2.2 ≤ angle := by
    have := terminal_between h 0 angle
    rw [min_self, max_self] at this
    rw [le_antisymm this.2 this.1, rampDist_self h.a h.j]
    exact ha
  have mv (s t : ℝ) (h0 : 0 ≤ s) (h1 : s ≤ t) (h2 : t ≤ r) := straight_move h 0 ha hr h0 h1 h2 (.inr fits)
  have eS (n : Nat) : outputs Spin.next n (spinGenerate g period angle) = (List.range n).map fun k : Nat =>
      if k < ⌊r / period⌋₊ + 1 then some ⟨.zero, .zero, (g.generate 0 angle 0 0).1.calculate (k * period)⟩ else none := by
    refine Eq.trans ?_ (C44_spin (g.generate 0 angle 0 0).1 r0 hp n)
    unfold spinGenerate
    rw [← hr]
  generalize hN : ⌊r / period⌋₊ = N at *
  have hNp : 0 ≤ N * period := by positivity
  refine ⟨_, produces_of eS, ⟨⟨_, by rw [List.range_succ_eq_map]; rfl, ?_, ?_⟩,
    ⟨_, by rw [List.range_succ, List.map_append]; exact List.getLast?_concat .., ?_⟩, ?_, ?_⟩⟩
  · exact ⟨rfl, rfl, by simpa [origin] using s1⟩
  · exact ⟨rfl, rfl, by simpa using s2⟩
  · have := mv (N * period) r hNp n1 le_rfl
    rw [e1] at this
    have hv := h.v
    constructor
    · simp only; linarith
    · simp only; nlinarith
  · intro t ht
    obtain ⟨k, -, rfl⟩ := List.mem_map.1 ht
    have := (C41_limits h 0 angle (k * period)).1
    rw [dir_nonneg ha, one_mul] at this
    exact ⟨rfl, rfl, rfl, rfl, this⟩
  · rw [List.isChain_iff_getElem]
    intro i hi
    simp only [List.length_map, List.length_range] at hi
    simp only [List.getElem_map, List.getElem_range]
    have a3 : ((i + 1 : ℕ) : ℝ) * period ≤ r := le_trans (mul_le_mul_of_nonneg_right (by exact_mod_cast Nat.lt_succ_iff.1 hi) hp.le) n1
    have a2 : (i:ℝ) * period ≤ (i + 1 : ℕ) * period := by push_cast; linarith
    have := mv (i * period) ((i + 1 : ℕ) * period) (by positivity) a2 a3
    push_cast at this ⊢
    constructor
    · linarith
    · nlinarith

/-- A stop. -/
theorem stop_rests (q : Detect.Pose) {period : ℝ} (hp : 0 < period) (r : ℝ) : ∃ l, Produces Stop.next ⟨0, q, period, r⟩ l ∧ Rests q l := by
  refine ⟨_, produces_of (fun n => C44_stop q hp n), ?_⟩
  intro t ht
  obtain ⟨k, -, rfl⟩ := List.mem_map.1 ht
  exact ⟨⟨rfl, rfl, rfl⟩, rfl, rfl, rfl⟩

theorem spot_steps {X Y : ℝ} {l : List Target} (h : ∀ t ∈ l, t.x.x = X ∧ t.y.x = Y ∧ body t = (0, 0)) : Steps 0 0 l := by
  unfold Steps
  rw [List.isChain_iff_getElem]
  intro i hi
  obtain ⟨a, b, c⟩ := h l[i] (List.getElem_mem _)
  obtain ⟨a', b', c'⟩ := h l[i + 1] (List.getElem_mem _)
  rw [c, c', gap, a, b, a', b']
  simp

theorem body_still {t : Target} (h1 : t.x.v = 0) (h2 : t.y.v = 0) : body t = (0, 0) := by simp [body, rotate, h1, h2]

/-! ## The moves -/

theorem move_straight (T : Trig) (n : Nat) : ∀ s, outputs (Move.next T) n (.straight s) = outputs Straight.next n s := by
  induction n with
  | zero => intro s; rfl
  | succ n ih => intro s; rw [outputs, outputs]; exact congrArg _ (ih _)

theorem move_slalom (T : Trig) (q : Detect.Pose) (n : Nat) : ∀ s, outputs (Move.next T) n (.slalom q s) = outputs (slalomNext T q) n s := by
  induction n with
  | zero => intro s; rfl
  | succ n ih => intro s; rw [outputs, outputs]; exact congrArg _ (ih _)

theorem move_back (T : Trig) (q r : Detect.Pose) (n : Nat) : ∀ s, outputs (Move.next T) n (.back q r s) = outputs (backNext T q r) n s := by
  induction n with
  | zero => intro s; rfl
  | succ n ih => intro s; rw [outputs, outputs]; exact congrArg _ (ih _)

theorem searchStep_pos (hc : SearchOk c) : c.gen.vMax * c.period ≤ searchStep c ∧ 0 < searchStep c := by
  have := mul_pos hc.v hc.period
  have := hc.width
  unfold searchStep
  constructor <;> linarith

theorem searchGain_pos (hc : SearchOk c) : c.gen.aMax * c.period ≤ searchGain c ∧ 0 < searchGain c := by
  have := mul_pos hc.a hc.period
  have := resolution_nonneg hc.v.le
  unfold searchGain
  constructor <;> linarith

theorem room_pos (hc : SearchOk c) : 0 < c.squareWidth / 2 - c.frontOffset := by
  have := mul_pos hc.v hc.period
  have := hc.step
  linarith

/-- Getting to full speed from rest. -/
theorem up_drive (hc : SearchOk c) : ∃ l, Produces Straight.next (straightGenerate c.gen c.period (c.squareWidth / 2 + c.frontOffset) 0 c.gen.vMax).1 l ∧
    (∃ v, Cruise c v ∧ Drive c.gen.vMax c.gen.aMax c.period origin 0 ⟨c.squareWidth / 2 + c.frontOffset, 0, 0⟩ v l) ∧
    Steps (c.gen.vMax * c.period) (c.gen.aMax * c.period) l := by
  have R : Spec.Request c.gen 0 c.gen.vMax := ⟨hc.v, hc.a, hc.j, le_rfl, hc.v.le, hc.v.le, le_rfl⟩
  have h0 := hc.offset
  have h1 := room_pos hc
  have h2 := hc.room
  have hd : 0 ≤ c.squareWidth / 2 + c.frontOffset := by linarith
  have mono {x y : ℝ} (hx : 0 ≤ x) (hxy : x ≤ y) : rampDist c.gen 0 x ≤ rampDist c.gen 0 y := by
    unfold rampDist
    rw [sub_zero, sub_zero, abs_of_nonneg hx, abs_of_nonneg (hx.trans hxy)]
    exact mul_le_mul (by linarith) (rampTime_mono hc.a hc.j hxy) (rampTime_nonneg hc.a hc.j hx) (by linarith)
  have hres : resolution c.gen.vMax ≤ c.gen.vMax := by
    unfold resolution
    exact div_le_self hc.v.le (by norm_num)
  have full : rampDist c.gen 0 c.gen.vMax < c.squareWidth / 2 + c.frontOffset := by
    have := rampTime_nonneg hc.a hc.j hc.v.le
    have hv := hc.v
    unfold rampDist
    rw [sub_zero, abs_of_nonneg hv.le]
    nlinarith
  obtain ⟨r, hr⟩ := (C45_ends_iff R 0 (c.squareWidth / 2 + c.frontOffset)).2 (.inr (.inl ⟨hc.v, by
    rw [abs_of_nonneg hd]
    exact lt_of_le_of_lt (mono (resolution_nonneg hc.v.le) hres) full⟩))
  obtain ⟨l, k1, k2, k3⟩ := straight_drive R hc.period hd hr
  obtain ⟨u1, u2, u3, u4⟩ := C42_terminal_up R hc.v 0 (c.squareWidth / 2 + c.frontOffset)
  rw [abs_of_nonneg hd] at u3 u4
  rw [sub_zero] at u4
  refine ⟨l, k1, ⟨_, ⟨?_, u2⟩, k2⟩, ?_⟩
  · rcases u4 with u4 | u4 | u4
    · have := resolution_nonneg hc.v.le
      have e : (straightGenerate c.gen c.period (c.squareWidth / 2 + c.frontOffset) 0 c.gen.vMax).2 = c.gen.vMax := u4
      linarith
    · by_contra hn
      rw [not_le] at hn
      have hn' : (c.gen.generate 0 (c.squareWidth / 2 + c.frontOffset) 0 c.gen.vMax).2.2 < c.gen.vMax - resolution c.gen.vMax := hn
      have := mono (add_nonneg u1 (resolution_nonneg hc.v.le)) (show _ ≤ c.gen.vMax by linarith)
      linarith
    · have e : (straightGenerate c.gen c.period (c.squareWidth / 2 + c.frontOffset) 0 c.gen.vMax).2 + resolution c.gen.vMax = c.gen.vMax := u4
      linarith
  · have := k3 0 le_rfl (by rw [add_zero]; exact u3)
    rwa [add_zero] at this

theorem leg_first {k : TrajectoryKind} {q q' : Detect.Pose} {l : List Target} (h : Leg c q k q' l) :
    ∃ t, l.head? = some t ∧ At t q ∧ body t = (c.gen.vMax, 0) := by
  unfold Leg at h
  split at h
  · obtain ⟨l1, l2, l3, l4, l5, v', rfl, -, D, -⟩ := h
    obtain ⟨t, h1, h2⟩ := D.first
    refine ⟨t, ?_, h2⟩
    cases l1 with
    | nil => cases h1
    | cons => exact h1
  · exact h.first

/-- The last target of a leg is a drive's last, with almost full speed. -/
theorem leg_last {k : TrajectoryKind} {q q' : Detect.Pose} {l : List Target} (hc : SearchOk c) (h : Leg c q k q' l) :
    ∃ t, l.getLast? = some t ∧ (∀ t' e, Real.sqrt ((t'.x.x - q'.x) ^ 2 + (t'.y.x - q'.y) ^ 2) ≤ e → gap t t' ≤ c.gen.vMax * c.period + e) ∧
      |c.gen.vMax - (body t).1| ≤ searchGain c := by
  have key {l : List Target} {q : Detect.Pose} {v v' : ℝ} (hv : Cruise c v') (D : Drive c.gen.vMax c.gen.aMax c.period q v q' v' l) :
      ∃ t, l.getLast? = some t ∧ (∀ t' e, Real.sqrt ((t'.x.x - q'.x) ^ 2 + (t'.y.x - q'.y) ^ 2) ≤ e → gap t t' ≤ c.gen.vMax * c.period + e) ∧
        |c.gen.vMax - (body t).1| ≤ searchGain c := by
    obtain ⟨t, s, u, h1, -, -, -, -, h6, h7⟩ := D.last
    refine ⟨t, h1, fun t' e he => Drive.last_gap' D h1 e he, ?_⟩
    rw [h6]
    unfold searchGain
    obtain ⟨c1, c2⟩ := hv
    rw [abs_le] at h7 ⊢
    constructor <;> simp only <;> linarith
  unfold Leg at h
  split at h
  · obtain ⟨l1, l2, l3, l4, l5, v', rfl, hv, -, -, -, -, D⟩ := h
    obtain ⟨t, h1, h2⟩ := key hv D
    exact ⟨t, by rw [List.getLast?_append, h1]; rfl, h2⟩
  · exact key ⟨by have := resolution_nonneg hc.v.le; linarith, le_rfl⟩ h

theorem leg_shift {k : TrajectoryKind} {q q' : Detect.Pose} {l : List Target} (h : Leg c q k q' l) (z : Detect.Pose) :
    Leg c (compose z q) k (compose z q') (l.map (shift .real z)) := by
  unfold Leg at *
  split at h
  · rename_i hk
    rw [if_pos hk]
    obtain ⟨l1, l2, l3, l4, l5, v', rfl, hv, h1, h2, h3, h4, h5⟩ := h
    refine ⟨l1.map (shift .real z), l2.map (shift .real z), l3.map (shift .real z), l4.map (shift .real z), l5.map (shift .real z), v',
      by simp only [List.map_append], hv, ?_⟩
    rw [compose_assoc]
    have e : (⟨(compose z (compose q ⟨c.squareWidth / 2 - c.frontOffset, 0, 0⟩)).x, (compose z (compose q ⟨c.squareWidth / 2 - c.frontOffset, 0, 0⟩)).y,
        (compose z (compose q ⟨c.squareWidth / 2 - c.frontOffset, 0, 0⟩)).theta + Real.pi⟩ : Detect.Pose) =
        compose z ⟨(compose q ⟨c.squareWidth / 2 - c.frontOffset, 0, 0⟩).x, (compose q ⟨c.squareWidth / 2 - c.frontOffset, 0, 0⟩).y,
          (compose q ⟨c.squareWidth / 2 - c.frontOffset, 0, 0⟩).theta + Real.pi⟩ := by
      simp only [compose, add_assoc]
    have h3' := Turns.shift h3 z
    dsimp only at h3' ⊢
    rw [← add_assoc] at h3'
    rw [e]
    exact ⟨Drive.shift h1 z, Rests.shift h2 z, h3', Rests.shift h4 z, Drive.shift h5 z⟩
  · rename_i hk
    rw [if_neg hk]
    exact Drive.shift h z

theorem search_table (hc : SearchOk c) (d : SlalomDirection) :
    0 ≤ (parameters c.squareWidth c.frontOffset .search90 d).lStart ∧ 0 ≤ (parameters c.squareWidth c.frontOffset .search90 d).lEnd ∧
    0 < (parameters c.squareWidth c.frontOffset .search90 d).vRef ∧
    c.gen.vMax * c.period ≤ (parameters c.squareWidth c.frontOffset .search90 d).vRef / 100 := by
  have h0 := hc.offset
  have h1 := room_pos hc
  have h2 := hc.step
  have h3 := hc.width
  have ho : 0 ≤ c.frontOffset / 0.09 := by positivity
  have hs : ¬ c.frontOffset / 0.09 ≤ 0.055555556 → c.squareWidth * (0.5 - c.frontOffset / 0.09) = c.squareWidth / 2 - c.frontOffset := by
    intro hn
    rcases hc.nominal with h | h
    · rw [h]; ring
    · rw [h] at hn; norm_num at hn
  cases d <;> simp only [parameters] <;> split
  all_goals rename_i hcase
  all_goals simp only [createParams]
  all_goals refine ⟨?_, ?_, ?_, ?_⟩
  all_goals first
    | positivity
    | (refine mul_nonneg h3.le ?_; linarith)
    | nlinarith
    | (have := hs hcase; nlinarith)

set_option maxHeartbeats 800000 in
/-- What the iterators of the moves yield. -/
theorem leg_ok (hc : SearchOk c) (k : TrajectoryKind) :
    ∃ l, Produces (Move.next .real) (c.move k) l ∧ Leg c origin k (searchMove c.squareWidth c.frontOffset k) l ∧
      Steps (searchStep c) (searchGain c) l ∧ 0.49 * c.squareWidth ≤ l.length * searchStep c := by
  have hw := hc.width
  have hv := hc.v
  have ha := hc.a
  obtain ⟨p1, p2⟩ := searchStep_pos hc
  obtain ⟨g1, g2⟩ := searchGain_pos hc
  have slalom (d : SlalomDirection) : ∃ l, Produces (slalomNext .real (parameters c.squareWidth c.frontOffset .search90 d).curveEnd)
        (constantSlalom c.period (parameters c.squareWidth c.frontOffset .search90 d) c.gen.vMax) l ∧
      Drive c.gen.vMax c.gen.aMax c.period origin c.gen.vMax (slalomEnd (parameters c.squareWidth c.frontOffset .search90 d)) c.gen.vMax l ∧
      Steps (searchStep c) (searchGain c) l ∧ 0.49 * c.squareWidth ≤ l.length * searchStep c := by
    obtain ⟨t1, t2, t3, t4⟩ := search_table hc d
    obtain ⟨l, k1, k2, k3⟩ := constant_slalom (a := c.gen.aMax) hw hv ha.le t3 hc.period t1 t2 t4
    have k3' : Steps (searchStep c) (searchGain c) l := Steps.mono k3 (by simp only [tableError, searchStep]; linarith) g2.le
    refine ⟨l, k1, k2, k3', le_trans ?_ (drive_long k2 k3' p1)⟩
    obtain ⟨-, e2, -⟩ := search_end c.squareWidth c.frontOffset hw.le d
    have ho : 0 ≤ c.frontOffset * (c.squareWidth / 0.09) := by have := hc.offset; positivity
    refine Real.le_sqrt_of_sq_le ?_
    simp only [origin, sub_zero]
    have : (0.49 * c.squareWidth) ^ 2 ≤ (slalomEnd (parameters c.squareWidth c.frontOffset .search90 d)).y ^ 2 := by
      rw [abs_le] at e2
      rw [sq_le_sq, abs_of_nonneg (by positivity), le_abs]
      cases d <;> simp only [Verif.SlalomP.sd] at e2
      · left; linarith
      · right; linarith
    have := sq_nonneg (slalomEnd (parameters c.squareWidth c.frontOffset .search90 d)).x
    linarith
  cases k with
  | front =>
    have R : Spec.Request c.gen c.gen.vMax c.gen.vMax := ⟨hv, ha, hc.j, hv.le, le_rfl, hv.le, le_rfl⟩
    obtain ⟨r, hr⟩ := (C45_ends_iff R 0 c.squareWidth).2 (.inl hv)
    obtain ⟨l, k1, k2, k3⟩ := straight_drive R hc.period hw.le hr
    have e : (straightGenerate c.gen c.period c.squareWidth c.gen.vMax c.gen.vMax).2 = c.gen.vMax := by
      have := terminal_between R 0 c.squareWidth
      rw [min_self, max_self] at this
      exact le_antisymm this.2 this.1
    rw [e] at k2 k3
    have k3' := k3 0 le_rfl (by rw [rampDist_self ha hc.j]; linarith)
    have k4 : Steps (searchStep c) (searchGain c) l := Steps.mono k3' (by linarith) g1
    refine ⟨l, fun n => (move_straight .real n _).trans (k1 n), by rw [Leg, if_neg (by decide)]; exact k2, k4, le_trans ?_ (drive_long k2 k4 p1)⟩
    refine Real.le_sqrt_of_sq_le ?_
    simp only [origin]
    nlinarith
  | right =>
    obtain ⟨l, k1, k2, k3⟩ := slalom .right
    exact ⟨l, fun n => (move_slalom .real _ n _).trans (k1 n), by rw [Leg, if_neg (by decide)]; exact k2, k3⟩
  | left =>
    obtain ⟨l, k1, k2, k3⟩ := slalom .left
    exact ⟨l, fun n => (move_slalom .real _ n _).trans (k1 n), by rw [Leg, if_neg (by decide)]; exact k2, k3⟩
  | back =>
    have hm := room_pos hc
    have R1 : Spec.Request c.gen c.gen.vMax 0 := ⟨hv, ha, hc.j, hv.le, le_rfl, le_rfl, hv.le⟩
    obtain ⟨r, hr⟩ := (C45_ends_iff R1 0 (c.squareWidth / 2 - c.frontOffset)).2 (.inl hv)
    obtain ⟨l1, a1, a2, a3⟩ := straight_drive R1 hc.period hm.le hr
    have e : (straightGenerate c.gen c.period (c.squareWidth / 2 - c.frontOffset) c.gen.vMax 0).2 = 0 :=
      C42_roomy R1 hv.le 0 _ (by rw [abs_of_pos hm, sub_zero]; exact hc.room)
    have fits := roomy_fits R1 0 hm.le (.inr (by rw [sub_zero]; exact hc.room))
    have a3' := a3 0 le_rfl (by rw [add_zero]; exact fits)
    rw [e] at a2
    obtain ⟨l2, b1, b2⟩ := stop_rests c.centre hc.period c.pause
    have d180 : degree 180 = Real.pi := by unfold degree; ring
    obtain ⟨l3, c1, c2⟩ := spin_turns (g := c.spin) (angle := Real.pi) ⟨hc.sv, hc.sa, hc.sj, le_rfl, hc.sv.le, le_rfl, hc.sv.le⟩ hc.period Real.pi_pos.le hc.turn
    have c2' := Turns.shift c2 c.centre
    rw [compose_origin] at c2'
    obtain ⟨l4, d1, d2⟩ := stop_rests c.turned hc.period c.pause
    obtain ⟨l5, e1, ⟨v', e2, e3⟩, e4⟩ := up_drive hc
    have e3' := Drive.shift e3 c.turned
    rw [compose_origin] at e3'
    have e4' := Steps.shift e4 c.turned
    have em : compose c.turned ⟨c.squareWidth / 2 + c.frontOffset, 0, 0⟩ = searchMove c.squareWidth c.frontOffset .back := by
      simp only [searchMove, SearchConfig.turned, d180, compose, place, rotate]
      simp
    rw [em] at e3'
    have mem : ∀ t ∈ l2 ++ l3.map (shift .real c.centre) ++ l4, t.x.x = c.centre.x ∧ t.y.x = c.centre.y ∧ body t = (0, 0) := by
      intro t ht
      rw [List.mem_append, List.mem_append] at ht
      rcases ht with (ht | ht) | ht
      · obtain ⟨⟨x1, x2, -⟩, x3, x4, -⟩ := b2 t ht
        exact ⟨x1, x2, body_still x3 x4⟩
      · obtain ⟨x1, x2, x3, x4, -⟩ := c2'.spot t ht
        exact ⟨x1, x2, body_still x3 x4⟩
      · obtain ⟨⟨x1, x2, -⟩, x3, x4, -⟩ := d2 t ht
        exact ⟨x1, x2, body_still x3 x4⟩
    have st : Steps (searchStep c) (searchGain c) (l1 ++ (l2 ++ l3.map (shift .real c.centre) ++ l4) ++ l5.map (shift .real c.turned)) := by
      refine Steps.append (Steps.append (Steps.mono a3' (by linarith) g1) (Steps.mono (spot_steps mem) p2.le g2.le) ?_) (Steps.mono e4' p1 g1) ?_
      · intro t ht t' ht'
        obtain ⟨x1, x2, x3⟩ := mem t' (List.mem_of_mem_head? ht')
        have := Drive.last_gap a2 ht 0 (by rw [x1, x2]; simp [SearchConfig.centre]) x3
        exact ⟨by linarith, this.2.trans g1⟩
      · intro t ht t' ht'
        obtain ⟨t0, f1, f2, f3⟩ := e3'.first
        rw [f1] at ht'
        cases ht'
        have ht2 : t ∈ l2 ++ l3.map (shift .real c.centre) ++ l4 := by
          refine List.mem_of_mem_getLast? ?_
          rw [List.getLast?_append] at ht
          cases e : (l2 ++ l3.map (shift .real c.centre) ++ l4).getLast? with
          | none =>
            rw [List.getLast?_eq_none_iff] at e
            obtain ⟨t3, w, -⟩ := c2.first
            cases l3 with
            | nil => cases w
            | cons => simp at e
          | some x => rw [e] at ht; exact ht
        obtain ⟨x1, x2, x3⟩ := mem t ht2
        rw [f3, x3, gap, x1, x2, f2.1, f2.2.1]
        simp only [SearchConfig.centre, SearchConfig.turned]
        constructor
        · simp; exact p2.le
        · simp; exact g2.le
    have el : l1 ++ (l2 ++ l3.map (shift .real c.centre) ++ l4) ++ l5.map (shift .real c.turned) =
        l1 ++ l2 ++ l3.map (shift .real c.centre) ++ l4 ++ l5.map (shift .real c.turned) := by simp only [List.append_assoc]
    rw [el] at st
    refine ⟨_, fun n => (move_back .real _ _ n _).trans
      (produces_chain (produces_shift e1 c.turned) _ _ (produces_chain d1 _ _ (produces_chain (produces_shift (by rw [d180]; exact c1) c.centre) _ _ (produces_chain b1 _ _ a1))) n),
      ?_, st, ?_⟩
    · rw [Leg, if_pos rfl]
      refine ⟨l1, l2, _, l4, _, v', rfl, e2, ?_⟩
      rw [origin_compose]
      have ec : c.centre = ⟨c.squareWidth / 2 - c.frontOffset, 0, 0⟩ := rfl
      have et : c.turned = ⟨c.squareWidth / 2 - c.frontOffset, 0, 0 + Real.pi⟩ := by rw [SearchConfig.turned, d180, zero_add]
      rw [ec] at b2 c2'
      rw [et] at d2 e3'
      refine ⟨a2, b2, ?_, d2, ?_⟩
      · rw [ec]; exact c2'
      · rw [et]; exact e3'
    · have := drive_long e3' e4' le_rfl
      have hl : ((l5.map (shift .real c.turned)).length : ℝ) ≤
          ((l1 ++ l2 ++ l3.map (shift .real c.centre) ++ l4 ++ l5.map (shift .real c.turned)).length : ℝ) := by
        rw [List.length_append]
        exact_mod_cast Nat.le_add_left _ _
      have hx : 0.49 * c.squareWidth ≤ Real.sqrt (((searchMove c.squareWidth c.frontOffset .back).x - c.turned.x) ^ 2 +
          ((searchMove c.squareWidth c.frontOffset .back).y - c.turned.y) ^ 2) := by
        refine Real.le_sqrt_of_sq_le ?_
        rw [← em]
        simp only [compose, place, rotate, SearchConfig.turned, d180]
        have := hc.offset
        simp
        nlinarith
      have h0 : (0:ℝ) ≤ ((l5.map (shift .real c.turned)).length : ℝ) := by positivity
      nlinarith

end Verif.Props
