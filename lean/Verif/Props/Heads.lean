import Verif.Props.SearchRun
import Verif.Props.SearchPunctual
/-!
# C115: how the trajectories of the search run end
-/
namespace Verif.Props
open Verif Verif.Control Verif.Straight Verif.Slalom Verif.Spec Verif.StraightP Verif.SearchDriver
open Verif.Run (SlalomKind SlalomDirection)
open Verif.Search (SearchState Commander Searcher Coord WallState TrajectoryKind)
open Verif.Grid

variable {c : SearchConfig}

/-- The last two targets have a heading. -/
def Heads (θ : ℝ) (l : List Target) : Prop := ∃ l0 t1 t2, l = l0 ++ [t1, t2] ∧ t1.theta.x = θ ∧ t2.theta.x = θ

theorem produces_unique {σ α : Type} {next : σ → Option α × σ} {s : σ} {l l' : List α} (h : Produces next s l) (h' : Produces next s l') : l = l' := by
  refine List.ext_getElem? fun i => Option.ext fun t => ?_
  rw [← produces_yields h, ← produces_yields h']

theorem straight_heading : ∀ {l : List Target} {s : Straight}, Produces Straight.next s l → ∀ t ∈ l, t.theta.x = 0
  | [], _, _, t, ht => by cases ht
  | x :: l, s, h, t, ht => by
    obtain ⟨h1, h2⟩ := produces_cons h
    rcases List.mem_cons.1 ht with rfl | ht
    · unfold Straight.next at h1
      split at h1
      · cases h1
      · cases h1; rfl
    · exact straight_heading h2 t ht

theorem Heads.of_all {θ : ℝ} {l : List Target} (h : ∀ t ∈ l, t.theta.x = θ) (hl : 2 ≤ l.length) : Heads θ l := by
  obtain ⟨l1, t2, rfl⟩ : ∃ l1 t2, l = l1 ++ [t2] := by
    rcases List.eq_nil_or_concat l with rfl | ⟨a, b, e⟩
    · simp at hl
    · exact ⟨a, b, by rw [e, List.concat_eq_append]⟩
  obtain ⟨l0, t1, rfl⟩ : ∃ l0 t1, l1 = l0 ++ [t1] := by
    rcases List.eq_nil_or_concat l1 with rfl | ⟨a, b, e⟩
    · simp at hl
    · exact ⟨a, b, by rw [e, List.concat_eq_append]⟩
  exact ⟨l0, t1, t2, by simp, h t1 (by simp), h t2 (by simp)⟩

theorem Heads.append {θ : ℝ} {l l' : List Target} (h : Heads θ l') : Heads θ (l ++ l') := by
  obtain ⟨l0, t1, t2, rfl, h1, h2⟩ := h
  exact ⟨l ++ l0, t1, t2, by simp, h1, h2⟩

theorem Heads.shift {θ : ℝ} {l : List Target} (h : Heads θ l) (q : Detect.Pose) : Heads (q.theta + θ) (l.map (shift .real q)) := by
  obtain ⟨l0, t1, t2, rfl, h1, h2⟩ := h
  exact ⟨l0.map (Straight.shift .real q), Straight.shift .real q t1, Straight.shift .real q t2, by simp, by simp [Straight.shift, h1, add_comm],
    by simp [Straight.shift, h2, add_comm]⟩

theorem long_four (hc : SearchOk c) {n : Nat} (h : 0.49 * c.squareWidth ≤ n * searchStep c) : 4 ≤ n := by
  by_contra hn
  have hn' : (n : ℝ) ≤ 3 := by exact_mod_cast Nat.lt_succ_iff.1 (not_le.1 hn)
  have h1 := hc.step
  have h2 := hc.width
  have h3 := hc.offset
  have h4 : (n : ℝ) * searchStep c ≤ 3 * searchStep c := mul_le_mul_of_nonneg_right hn' (searchStep_pos hc).2.le
  unfold searchStep at h h4
  linarith

theorem search_end_long (hc : SearchOk c) (d : SlalomDirection) : c.gen.vMax * c.period ≤ (parameters c.squareWidth c.frontOffset .search90 d).lEnd := by
  have h0 := hc.offset
  have h2 := hc.step
  have h3 := hc.width
  have ho : 0 ≤ c.frontOffset / 0.09 := by positivity
  have key : c.squareWidth * 0.05 ≤ (parameters c.squareWidth c.frontOffset .search90 d).lEnd := by
    cases d <;> simp only [parameters] <;> split
    all_goals rename_i hcase
    all_goals simp only [createParams]
    all_goals refine mul_le_mul_of_nonneg_left ?_ h3.le
    all_goals linarith
  linarith

/-- The last two targets of a move have the heading of its end. -/
theorem leg_heads (hc : SearchOk c) (k : TrajectoryKind) :
    ∃ l, Produces (Move.next .real) (c.move k) l ∧ Heads (searchMove c.squareWidth c.frontOffset k).theta l := by
  have hw := hc.width
  have hv := hc.v
  have ha := hc.a
  have slalom (d : SlalomDirection) : ∃ l, Produces (slalomNext .real (parameters c.squareWidth c.frontOffset .search90 d).curveEnd)
        (constantSlalom c.period (parameters c.squareWidth c.frontOffset .search90 d) c.gen.vMax) l ∧
      Heads (slalomEnd (parameters c.squareWidth c.frontOffset .search90 d)).theta l := by
    obtain ⟨t1, t2, t3, -⟩ := search_table hc d
    obtain ⟨r2, hr2⟩ := C69_table_ends c.squareWidth c.frontOffset .search90 d hv hc.period t3
    obtain ⟨l2, -, -, b3⟩ := C44_slalom _ c.gen.vMax c.period r2 (table_request c.squareWidth c.frontOffset .search90 d hv hc.period t3) t1 t2 hr2
    refine ⟨_, b3, Heads.append (Heads.of_all ?_ ?_)⟩
    · intro t ht
      obtain ⟨k, -, rfl⟩ := List.mem_map.1 ht
      simp [Straight.shift, straightSample, Axis.zero, slalomEnd, Params.curveEnd, compose]
    · have h1 := search_end_long hc d
      have : 1 ≤ ⌊(parameters c.squareWidth c.frontOffset .search90 d).lEnd / c.gen.vMax / c.period⌋₊ := by
        rw [Nat.one_le_floor_iff, div_div, le_div_iff₀ (mul_pos hv hc.period)]
        linarith
      rw [List.length_map, List.length_range]
      omega
  cases k with
  | front =>
    obtain ⟨l, h1, -, -, h4⟩ := leg_ok hc .front
    refine ⟨l, h1, ?_⟩
    have h1' : Produces Straight.next (straightGenerate c.gen c.period c.squareWidth c.gen.vMax c.gen.vMax).1 l :=
      fun n => (move_straight .real n _).symm.trans (h1 n)
    exact Heads.of_all (straight_heading h1') (by have := long_four hc h4; omega)
  | right =>
    obtain ⟨l, k1, k2⟩ := slalom .right
    exact ⟨l, fun n => (move_slalom .real _ n _).trans (k1 n), k2⟩
  | left =>
    obtain ⟨l, k1, k2⟩ := slalom .left
    exact ⟨l, fun n => (move_slalom .real _ n _).trans (k1 n), k2⟩
  | back =>
    have hm := room_pos hc
    have R1 : Spec.Request c.gen c.gen.vMax 0 := ⟨hv, ha, hc.j, hv.le, le_rfl, le_rfl, hv.le⟩
    obtain ⟨r, hr⟩ := (C45_ends_iff R1 0 (c.squareWidth / 2 - c.frontOffset)).2 (.inl hv)
    obtain ⟨l1, a1, -⟩ := straight_drive R1 hc.period hm.le hr
    obtain ⟨l2, b1, -⟩ := stop_rests c.centre hc.period c.pause
    have d180 : degree 180 = Real.pi := by unfold degree; ring
    obtain ⟨l3, c1, -⟩ := spin_turns (g := c.spin) (angle := Real.pi) ⟨hc.sv, hc.sa, hc.sj, le_rfl, hc.sv.le, le_rfl, hc.sv.le⟩ hc.period Real.pi_pos.le hc.turn
    obtain ⟨l4, d1, -⟩ := stop_rests c.turned hc.period c.pause
    obtain ⟨l5, e1, ⟨v', -, e3⟩, e4⟩ := up_drive hc
    obtain ⟨p1, -⟩ := searchStep_pos hc
    have hlen : 4 ≤ l5.length := long_four hc (by
      refine le_trans (Real.le_sqrt_of_sq_le ?_) (drive_long e3 (Steps.mono e4 p1 le_rfl) p1)
      have := hc.offset
      simp only [origin]
      nlinarith)
    refine ⟨_, fun n => (move_back .real _ _ n _).trans
      (produces_chain (produces_shift e1 c.turned) _ _ (produces_chain d1 _ _ (produces_chain (produces_shift (by rw [d180]; exact c1) c.centre) _ _ (produces_chain b1 _ _ a1))) n),
      Heads.append ?_⟩
    have := Heads.shift (Heads.of_all (straight_heading e1) (by omega)) c.turned
    simpa [SearchConfig.turned, searchMove, compose, d180] using this

/-- So have those of a move from a state. -/
theorem next_heads (hc : SearchOk c) {W : Nat} (hW : Supported W) {s s' : SearchState} (hs : Consistent W s) {next : Coord} {k : TrajectoryKind}
    (ha : Adjacent W s.coord next) (hu : s.update next = .ok (s', some k)) {l : List Target}
    (hl : Produces (shiftNext .real (poseOfSearch s c.squareWidth c.frontOffset) (Move.next .real)) (c.move k) l) :
    ∃ z : ℤ, Heads ((poseOfSearch s' c.squareWidth c.frontOffset).theta + 2 * Real.pi * z) l := by
  obtain ⟨l', h1, h2⟩ := leg_heads hc k
  have h3 := Heads.shift h2 (poseOfSearch s c.squareWidth c.frontOffset)
  obtain rfl := produces_unique hl (produces_shift h1 _)
  obtain ⟨-, -, z, hz⟩ := C33_nominal W hW s s' next k hs.1 hs.2 ha.2.1 hu _ _ hc.width.le hc.nominal
  exact ⟨z, by rw [← hz]; exact h3⟩

end Verif.Props
