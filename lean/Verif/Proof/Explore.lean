import Verif.Proof.SearchCand
import Verif.Props.SearchPath
/-! # `Searcher::search` as a whole -/
namespace Verif.Grid
open Verif Verif.Search Verif.Spec Verif.Bfs

/-! ## Dependence of the adjacency on the wall predicate -/

theorem rel_valid {W : Nat} {c d : Coord} {dx dy : Int} {i : Nat} (hc : Valid W c)
    (hd : StepDir c dx dy) (h : rel W c (dx * i) (dy * i) = some d) : Valid W d := by
  obtain ⟨h1, h2, h3, h4⟩ := rel_some.1 h
  obtain ⟨c1, c2, c3⟩ := hc
  refine ⟨h3, h4, ?_⟩
  rcases StepDir.cases hd with h | h | h | h | h | h | h | h <;>
    (simp only [h] at h1 h2; omega)

theorem line_sublist {W : Nat} {free free' : Coord → Bool} {c : Coord} {dx dy : Int}
    (hc : Valid W c) (hd : StepDir c dx dy)
    (h : ∀ d, Valid W d → free' d = true → free d = true) :
    ∀ f i, (line W free' c dx dy f i).Sublist (line W free c dx dy f i)
  | 0, i => by simp [line]
  | f + 1, i => by
    unfold line
    cases hr : rel W c (dx * i) (dy * i) with
    | none => simp
    | some d =>
      simp only
      by_cases hf : free' d = true
      · rw [if_pos hf, if_pos (h d (rel_valid hc hd hr) hf)]
        exact (line_sublist hc hd h f (i + 1)).cons_cons d
      · rw [if_neg hf]; simp

theorem adj_sublist {W : Nat} {free free' : Coord → Bool} {c : Coord} (hc : Valid W c)
    (h : ∀ d, Valid W d → free' d = true → free d = true) :
    (adj W free' c).Sublist (adj W free c) := by
  have hl : ∀ {dx dy}, StepDir c dx dy → (dirLine W free' c dx dy).Sublist (dirLine W free c dx dy) :=
    fun hd => line_sublist hc hd h _ _
  unfold adj lineK
  refine List.Sublist.append (List.Sublist.append ?_ ?_) ?_
  · exact (hl (by unfold StepDir; omega)).append (hl (by unfold StepDir; omega))
  · exact (hl (by unfold StepDir; omega)).append (hl (by unfold StepDir; omega))
  · simp only
    split
    · rename_i ht
      have := isTop_iff.1 ht
      exact (hl (by unfold StepDir; omega)).append (hl (by unfold StepDir; omega))
    · rename_i ht
      have : c.y % 2 = 0 := by have := mt isTop_iff.2 ht; omega
      exact (hl (by unfold StepDir; omega)).append (hl (by unfold StepDir; omega))

/-- A maze with more walls, but with the runs of the path found, has the same plan. -/
theorem planOf_sub {W : Nat} (hW : Supported W) {s : Coord} (hs : Valid W s) {goal : Coord → Bool}
    {isWall isWall' : Coord → Bool} {p : List Coord}
    (h : ∀ d, Valid W d → isWall d = true → isWall' d = true)
    (hp : planOf W s goal isWall = some (some p))
    (hw : ∃ v, Walk (adj W fun c => !isWall' c) s v p) :
    planOf W s goal isWall' = some (some p) := by
  refine gBfs_subgraph (P := Valid W) hs (fun v hv w hw => (adj_valid hW.le hv hw).1)
    (fun v hv => adj_sublist hv ?_) (fun v hv => adj_nodup hW.le hv) hp hw (planOf_ne_none hW hs)
  intro d hd hf
  have := h d hd
  cases h1 : isWall d <;> simp_all

theorem adj_congr {W : Nat} {free free' : Coord → Bool} {c : Coord} (hc : Valid W c)
    (h : ∀ d, Valid W d → free d = free' d) : adj W free c = adj W free' c :=
  List.Sublist.antisymm (adj_sublist hc fun d hd hf => by rw [← h d hd]; exact hf)
    (adj_sublist hc fun d hd hf => by rw [h d hd]; exact hf)

theorem walk_congr {W : Nat} (hW : W ≤ 32) {s : Coord} (hs : Valid W s) {free free' : Coord → Bool}
    (h : ∀ d, Valid W d → free d = free' d) {v p} (hw : Walk (adj W free) s v p) :
    Walk (adj W free') s v p := by
  induction hw with
  | nil => exact .nil
  | snoc h1 hv ih =>
    rw [adj_congr (walk_valid hW hs h1) h] at hv
    exact .snoc ih hv

theorem planOf_congr {W : Nat} (hW : Supported W) {s : Coord} (hs : Valid W s) {goal : Coord → Bool}
    {isWall isWall' : Coord → Bool} (h : ∀ d, Valid W d → isWall d = isWall' d) :
    planOf W s goal isWall = planOf W s goal isWall' := by
  have key : ∀ {a b : Coord → Bool}, (∀ d, Valid W d → a d = b d) → ∀ {p},
      planOf W s goal a = some (some p) → planOf W s goal b = some (some p) := by
    intro a b hab p hp
    refine planOf_sub hW hs (fun d hd h1 => by rw [← hab d hd]; exact h1) hp ?_
    have hspec := gBfs_spec (adj := adj W fun c => !a c) (goal := goal) (s := s) (QUE_MAX + 1)
    unfold planOf at hp
    rw [hp] at hspec
    obtain ⟨v, hv, -⟩ := hspec
    exact ⟨v, walk_congr hW.le hs (fun d hd => by rw [hab d hd]) hv⟩
  have n1 := planOf_ne_none hW hs (goal := goal) (isWall := isWall)
  have n2 := planOf_ne_none hW hs (goal := goal) (isWall := isWall')
  cases h1 : planOf W s goal isWall with
  | none => exact absurd h1 n1
  | some o =>
    cases o with
    | some p => rw [key h h1]
    | none =>
      cases h2 : planOf W s goal isWall' with
      | none => exact absurd h2 n2
      | some o =>
        cases o with
        | none => rfl
        | some p =>
          have := key (fun d hd => (h d hd).symm) h2
          rw [h1] at this; cases this

/-! ## Lattice points of runs -/

/-- A lattice point of a run is a free wall position or a cell centre. -/
theorem segPoint_run {W : Nat} {free : Coord → Prop} {a b x : Coord} (ha : Valid W a)
    (hr : Run W free a b) (hx : SegPoint a b x) :
    (Valid W x ∧ free x) ∨ (x.x % 2 = 0 ∧ x.y % 2 = 0 ∧ x.x < 2 * W ∧ x.y < 2 * W) := by
  obtain ⟨dx, dy, hd, n, hn, hs, hl⟩ := hr
  obtain ⟨a1, a2, a3⟩ := id ha
  -- reduce to the unit direction of the run
  have key : ∀ (ux uy : Int) (N : Nat), (ux = -1 ∨ ux = 0 ∨ ux = 1) → (uy = -1 ∨ uy = 0 ∨ uy = 1) →
      ¬ (ux = 0 ∧ uy = 0) → 1 ≤ N → Shift a ux uy N b →
      ∃ j : Nat, 1 ≤ j ∧ j ≤ N ∧ (x.x : Int) = a.x + j * ux ∧ (x.y : Int) = a.y + j * uy := by
    intro ux uy N h1 h2 h3 h4 h5
    exact (segPoint_unit h1 h2 h3 h4 h5).1 hx
  have same : ∀ j : Nat, 1 ≤ j → j ≤ n → (x.x : Int) = a.x + j * dx → (x.y : Int) = a.y + j * dy →
      Valid W x ∧ free x := by
    intro j h1 h2 h3 h4
    obtain ⟨c, c1, c2, c3⟩ := hl j h1 h2
    have : c = x := shift_unique c1 ⟨h3, h4⟩
    exact this ▸ ⟨c2, c3⟩
  obtain ⟨c, cs, cv, -⟩ := hl n hn (by omega)
  have hb : Valid W b := (shift_unique cs hs) ▸ cv
  obtain ⟨b1, b2, b3⟩ := hb
  unfold Shift at hs key
  rcases StepDir.cases hd with h | h | h | h | h | h | h | h
  · obtain ⟨rfl, rfl⟩ : dx = 1 ∧ dy = 1 := by omega
    obtain ⟨j, j1, j2, j3, j4⟩ := key 1 1 n (by omega) (by omega) (by omega) hn hs
    exact .inl (same j j1 j2 j3 j4)
  · obtain ⟨rfl, rfl⟩ : dx = -1 ∧ dy = -1 := by omega
    obtain ⟨j, j1, j2, j3, j4⟩ := key (-1) (-1) n (by omega) (by omega) (by omega) hn hs
    exact .inl (same j j1 j2 j3 j4)
  · obtain ⟨rfl, rfl⟩ : dx = -1 ∧ dy = 1 := by omega
    obtain ⟨j, j1, j2, j3, j4⟩ := key (-1) 1 n (by omega) (by omega) (by omega) hn hs
    exact .inl (same j j1 j2 j3 j4)
  · obtain ⟨rfl, rfl⟩ : dx = 1 ∧ dy = -1 := by omega
    obtain ⟨j, j1, j2, j3, j4⟩ := key 1 (-1) n (by omega) (by omega) (by omega) hn hs
    exact .inl (same j j1 j2 j3 j4)
  · obtain ⟨h0, rfl, rfl⟩ := h
    obtain ⟨j, j1, j2, j3, j4⟩ := key 0 1 (2 * n) (by omega) (by omega) (by omega) (by omega) (by omega)
    rcases Nat.even_or_odd' j with ⟨k, hk | hk⟩
    · exact .inl (same k (by omega) (by omega) (by omega) (by omega))
    · exact .inr (by omega)
  · obtain ⟨h0, rfl, rfl⟩ := h
    obtain ⟨j, j1, j2, j3, j4⟩ := key 0 (-1) (2 * n) (by omega) (by omega) (by omega) (by omega) (by omega)
    rcases Nat.even_or_odd' j with ⟨k, hk | hk⟩
    · exact .inl (same k (by omega) (by omega) (by omega) (by omega))
    · exact .inr (by omega)
  · obtain ⟨h0, rfl, rfl⟩ := h
    obtain ⟨j, j1, j2, j3, j4⟩ := key 1 0 (2 * n) (by omega) (by omega) (by omega) (by omega) (by omega)
    rcases Nat.even_or_odd' j with ⟨k, hk | hk⟩
    · exact .inl (same k (by omega) (by omega) (by omega) (by omega))
    · exact .inr (by omega)
  · obtain ⟨h0, rfl, rfl⟩ := h
    obtain ⟨j, j1, j2, j3, j4⟩ := key (-1) 0 (2 * n) (by omega) (by omega) (by omega) (by omega) (by omega)
    rcases Nat.even_or_odd' j with ⟨k, hk | hk⟩
    · exact .inl (same k (by omega) (by omega) (by omega) (by omega))
    · exact .inr (by omega)

theorem run_valid {W : Nat} {free : Coord → Prop} {a b : Coord} (hr : Run W free a b) :
    Valid W b ∧ free b := by
  obtain ⟨_, _, _, h⟩ := hr
  exact OnLine.valid h

theorem passedBy_run {W : Nat} {free : Coord → Prop} : ∀ {l : List Coord} {a x : Coord}, Valid W a →
    RunPath W free (a :: l) → PassedBy (a :: l) x →
    (Valid W x ∧ free x) ∨ (x.x % 2 = 0 ∧ x.y % 2 = 0 ∧ x.x < 2 * W ∧ x.y < 2 * W)
  | [], a, x, _, _, h => by simp [PassedBy] at h
  | b :: l, a, x, ha, hr, h => by
    rcases h with h | h
    · exact segPoint_run ha hr.1 h
    · exact passedBy_run (run_valid hr.1).1 hr.2 h

/-- The positions that make up a run are lattice points of its segment. -/
theorem onLine_segPoint {a b c : Coord} {dx dy : Int} {n i : Nat} (hd : StepDir a dx dy)
    (hb : Shift a dx dy n b) (hi : 1 ≤ i) (hin : i ≤ n) (hc : Shift a dx dy i c) :
    SegPoint a b c := by
  unfold Shift at *
  rcases StepDir.cases hd with h | h | h | h | h | h | h | h
  · obtain ⟨rfl, rfl⟩ : dx = 1 ∧ dy = 1 := by omega
    exact ⟨1, 1, n, i, by omega, by omega, hb, hi, hin, hc⟩
  · obtain ⟨rfl, rfl⟩ : dx = -1 ∧ dy = -1 := by omega
    exact ⟨-1, -1, n, i, by omega, by omega, hb, hi, hin, hc⟩
  · obtain ⟨rfl, rfl⟩ : dx = -1 ∧ dy = 1 := by omega
    exact ⟨-1, 1, n, i, by omega, by omega, hb, hi, hin, hc⟩
  · obtain ⟨rfl, rfl⟩ : dx = 1 ∧ dy = -1 := by omega
    exact ⟨1, -1, n, i, by omega, by omega, hb, hi, hin, hc⟩
  · obtain ⟨h0, rfl, rfl⟩ := h
    exact ⟨0, 1, 2 * n, 2 * i, by omega, by omega, by unfold Shift; omega, by omega, by omega,
      by unfold Shift; omega⟩
  · obtain ⟨h0, rfl, rfl⟩ := h
    exact ⟨0, -1, 2 * n, 2 * i, by omega, by omega, by unfold Shift; omega, by omega, by omega,
      by unfold Shift; omega⟩
  · obtain ⟨h0, rfl, rfl⟩ := h
    exact ⟨1, 0, 2 * n, 2 * i, by omega, by omega, by unfold Shift; omega, by omega, by omega,
      by unfold Shift; omega⟩
  · obtain ⟨h0, rfl, rfl⟩ := h
    exact ⟨-1, 0, 2 * n, 2 * i, by omega, by omega, by unfold Shift; omega, by omega, by omega,
      by unfold Shift; omega⟩

/-- Strengthening the freeness of a path by a property of the points passed. -/
theorem runPath_strengthen {W : Nat} {free free' : Coord → Prop} : ∀ {l : List Coord},
    RunPath W free l → (∀ x, PassedBy l x → Valid W x → free x → free' x) → RunPath W free' l
  | [], h, _ => h
  | [_], _, _ => trivial
  | a :: b :: l, h, hx => by
    refine ⟨?_, runPath_strengthen h.2 fun x hp => hx x (.inr hp)⟩
    obtain ⟨dx, dy, hd, n, hn, hs, hl⟩ := h.1
    refine ⟨dx, dy, hd, n, hn, hs, fun i h1 h2 => ?_⟩
    obtain ⟨c, c1, c2, c3⟩ := hl i h1 h2
    exact ⟨c, c1, c2, hx c (.inl (onLine_segPoint hd hs h1 h2 c1)) c2 c3⟩

/-- The slot of a lattice point. -/
theorem asIndex_slot {W : Nat} (hW : Supported W) {x c : Coord} (hx : x.x < 2 * W) (hy : x.y < 2 * W)
    (hp : ¬ (x.x % 2 = 1 ∧ x.y % 2 = 1)) (hc : Valid W c) :
    x.asIndex W = c.asIndex W ↔ SlotOf x c := by
  obtain ⟨c1, c2, c3⟩ := id hc
  unfold SlotOf
  by_cases hv : (x.x + x.y) % 2 = 1
  · constructor
    · intro h; exact .inl (asIndex_inj hW ⟨hx, hy, hv⟩ hc h).symm
    · rintro (rfl | ⟨h1, h2, -⟩)
      · rfl
      · omega
  · have h0 : x.x % 2 = 0 ∧ x.y % 2 = 0 := by omega
    have hv' : Valid W ⟨x.x + 1, x.y⟩ := ⟨by simp; omega, hy, by simp; omega⟩
    have heq : x.asIndex W = (⟨x.x + 1, x.y⟩ : Coord).asIndex W := by
      rw [asIndex_eq hW hx, asIndex_eq hW hv'.1]
      simp only
      have : (x.x + 1) / 2 = x.x / 2 := by omega
      rw [this]
    rw [heq]
    constructor
    · intro h; exact .inr ⟨h0.1, h0.2, (asIndex_inj hW hv' hc h).symm⟩
    · rintro (rfl | ⟨-, -, rfl⟩)
      · omega
      · rfl

/-! ## The whole of `search` -/

theorem adjPath_fchain {W : Nat} {ws : Coord → WallState} : ∀ {s : Coord} {l : List Coord},
    Valid W s → (FChain (nbrs W ws) s l ↔ AdjPath W (fun c => ws c ≠ .checked true) (s :: l))
  | s, [], _ => by simp [FChain, AdjPath]
  | s, a :: l, hs => by
    simp only [FChain, AdjPath, mem_nbrs hs]
    constructor
    · rintro ⟨h1, h2⟩
      exact ⟨h1, (adjPath_fchain h1.1.2.1).1 h2⟩
    · rintro ⟨h1, h2⟩
      exact ⟨h1, (adjPath_fchain h1.1.2.1).2 h2⟩

theorem isNeighbor_iff {W : Nat} {c d : Coord} (hW : W ≤ 32) (hc : Valid W c) (hd : Valid W d) :
    c.isNeighbor d = true ↔ Adjacent W c d := by
  rw [← stepDir_adjacent hc]
  obtain ⟨c1, c2, c3⟩ := hc
  obtain ⟨d1, d2, d3⟩ := hd
  unfold Coord.isNeighbor StepDir
  rw [asI8_small (by omega), asI8_small (by omega), asI8_small (by omega), asI8_small (by omega)]
  simp only [Bool.or_eq_true, Bool.and_eq_true, beq_iff_eq, Prod.mk.injEq, Bool.not_eq_true',
    d1, d2, and_true]
  by_cases ht : c.isTop = true
  · have := isTop_iff.1 ht
    simp only [ht, true_and, Bool.true_eq_false, false_and, or_false]
    omega
  · have : c.y % 2 = 0 := by have := mt isTop_iff.2 ht; omega
    have ht' : c.isTop = false := by simpa using ht
    simp only [ht', Bool.false_eq_true, false_and, false_or, true_and]
    omega

end Verif.Grid
