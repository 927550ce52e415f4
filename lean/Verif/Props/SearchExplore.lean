import Verif.Proof.Explore
/-! # C13, C15 - C20, C23: `Searcher::search` and `Commander` -/
namespace Verif.Props
open Verif Verif.Search Verif.Spec Verif.Grid Verif.Bfs

/-- `Searcher::new(start, goals).search(&current, wall_state)`. -/
def explore (W : Nat) (start : Coord) (goals : List Coord) (current : Coord)
    (ws : Coord → WallState) : R (Except SearchError (Option Commander)) := do
  let s ← Searcher.new W start goals
  s.search W current ws

/-- Unknown walls counted as open. -/
def optimistic (ws : Coord → WallState) (c : Coord) : Bool := decide (ws c = .checked true)

/-- Unknown walls counted as walls. -/
def pessimistic (ws : Coord → WallState) (c : Coord) : Bool := decide (ws c ≠ .checked false)

/-- All outcomes of `search`, in terms of the two abstract searches. -/
theorem explore_cases {W start goals} (h : Request W start goals) {current : Coord}
    (hc : Valid W current) (ws : Coord → WallState) :
    (plan W start goals (optimistic ws) = .ok none ∧
      explore W start goals current ws = .ok (.error .unreachable)) ∨
    ∃ path, plan W start goals (optimistic ws) = .ok (some path) ∧
      (((∀ x, PassedBy path x → ws x ≠ .unchecked) ∧
          explore W start goals current ws = .ok (.ok none)) ∨
       ((∃ x, PassedBy path x ∧ ws x = .unchecked) ∧
        ∃ goal : Coord → Bool,
          (∀ c, Valid W c → (goal c = true ↔ Interesting (fun x => ws x = .unchecked) path c)) ∧
          match nearOf W ws goal current with
          | none => False
          | some none => explore W start goals current ws = .ok (.error .unreachable)
          | some (some p) => explore W start goals current ws =
              .ok (.ok (some ⟨arranged current (nbrs W ws current) (second p)⟩)))) := by
  obtain ⟨f, hf, hg⟩ := searcher_new h.width start goals h.goals
  have hgoal : ∀ c, Valid W c → fbit f (c.asIndex W) = decide (c ∈ goals) :=
    fun c hv => by rw [Bool.eq_iff_iff, hg c hv, decide_eq_true_eq]
  have hsim := bfsTree_sim h.width h.start hgoal (isWall := optimistic ws)
  have hspec := gBfs_spec (adj := adj W fun c => !optimistic ws c)
    (goal := fun c => decide (c ∈ goals)) (s := start) (QUE_MAX + 1)
  obtain ⟨r, hr1, hr2⟩ := plan_eq h (optimistic ws)
  have hex : explore W start goals current ws = Searcher.search W ⟨start, f⟩ current ws := by
    unfold explore; rw [hf]; rfl
  have hopt : (fun c => decide (ws c = WallState.checked true)) = optimistic ws := rfl
  rw [hr1] at hsim
  unfold planOf at hr1
  rw [hr1] at hspec
  rw [hex, hr2]
  unfold Searcher.search
  rw [hopt]
  cases r with
  | none =>
    left
    simp only at hsim
    refine ⟨rfl, ?_⟩
    rw [hsim]; rfl
  | some path =>
    right
    refine ⟨path, rfl, ?_⟩
    obtain ⟨prev, v, h1, h2, h3⟩ := hsim
    obtain ⟨w, hw, hne, -, -⟩ := hspec
    have hvw : v = w := by
      have e1 := h3.last
      rw [hw.getLast] at e1; simpa using e1.symm
    subst hvw
    have hun := uncheckedWalls_eq h.width (ws := ws) (goalF := f) h.start h3 hne hw
    rw [h1]
    simp only [bind, Except.bind]
    rcases hun with ⟨h4, h5⟩ | ⟨g, h4, h5, h6⟩
    · left
      refine ⟨h5, ?_⟩
      rw [h4]; rfl
    · right
      refine ⟨h5, fun c => fbit g (c.asIndex W), ?_, ?_⟩
      · intro c hcv
        rw [h6]
        unfold Interesting
        obtain ⟨l, rfl, hfl⟩ := hw.fchain
        have hrp := (runPath_fchain h.width.le h.start).1 hfl
        constructor
        · rintro ⟨x, x1, x2, x3⟩
          refine ⟨x, x1, x2, (asIndex_slot h.width ?_ ?_ ?_ hcv).1 x3⟩ <;>
            rcases passedBy_run h.start hrp x1 with ⟨⟨a, b, e⟩, -⟩ | ⟨a, b, e, e'⟩ <;> omega
        · rintro ⟨x, x1, x2, x3⟩
          refine ⟨x, x1, x2, (asIndex_slot h.width ?_ ?_ ?_ hcv).2 x3⟩ <;>
            rcases passedBy_run h.start hrp x1 with ⟨⟨a, b, e⟩, -⟩ | ⟨a, b, e, e'⟩ <;> omega
      · have hcand := candidates_sim h.width hc (ws := ws)
          (goal := fun c => fbit g (c.asIndex W)) (unchecked := fun c => g.contains W c)
          (fun c hcv => contains_eq (asIndex_lt_que h.width hcv))
        rw [h4]
        revert hcand
        cases nearOf W ws (fun c => fbit g (c.asIndex W)) current with
        | none => simp
        | some o =>
          cases o with
          | none => intro e; simp only [e]; rfl
          | some p => intro e; simp only [e]; rfl

/-- **C13.** Neither planning function panics, overflows a container or loops forever. -/
theorem C13_total {W start goals} (h : Request W start goals) :
    (∀ isWall, ∃ r, plan W start goals isWall = .ok r) ∧
    ∀ current, Valid W current → ∀ ws, ∃ r, explore W start goals current ws = .ok r := by
  refine ⟨fun isWall => C13_plan_total h isWall, fun current hc ws => ?_⟩
  rcases explore_cases h hc ws with ⟨-, h1⟩ | ⟨path, -, ⟨-, h1⟩ | ⟨-, goal, -, h1⟩⟩
  · exact ⟨_, h1⟩
  · exact ⟨_, h1⟩
  · revert h1
    cases nearOf W ws goal current with
    | none => simp
    | some o => cases o with
      | none => exact fun h => ⟨_, h⟩
      | some p => exact fun h => ⟨_, h⟩

/-- What `Ok(None)` means: the optimistic path exists and no lattice point on it is unknown. -/
theorem explore_done_iff {W start goals} (h : Request W start goals) {current : Coord}
    (hc : Valid W current) (ws : Coord → WallState) :
    explore W start goals current ws = .ok (.ok none) ↔
      ∃ path, plan W start goals (optimistic ws) = .ok (some path) ∧
        ∀ x, PassedBy path x → ws x ≠ .unchecked := by
  rcases explore_cases h hc ws with ⟨h0, h1⟩ | ⟨path, h0, ⟨h2, h1⟩ | ⟨h2, goal, -, h1⟩⟩
  · rw [h1, h0]; simp
  · rw [h1, h0]; simp; exact h2
  · have : explore W start goals current ws ≠ .ok (.ok none) := by
      revert h1
      cases nearOf W ws goal current with
      | none => simp
      | some o => cases o with
        | none => intro h; simp [h]
        | some p => intro h; simp [h]
    rw [h0]
    simp only [this, false_iff]
    rintro ⟨p, hp, hall⟩
    cases hp
    obtain ⟨x, x1, x2⟩ := h2
    exact hall x x1 x2

/-- **C15.** When the exploration stops, every position of every run of the optimistic shortest path,
apart from its start, is known to be open. -/
theorem C15_done_known {W start goals} (h : Request W start goals) {current : Coord}
    (hc : Valid W current) (ws : Coord → WallState)
    (hd : explore W start goals current ws = .ok (.ok none)) :
    ∃ path, plan W start goals (optimistic ws) = .ok (some path) ∧
      RunPath W (fun c => ws c = .checked false) path := by
  obtain ⟨path, h1, h2⟩ := (explore_done_iff h hc ws).1 hd
  refine ⟨path, h1, ?_⟩
  obtain ⟨-, -, h3⟩ := C10_path_sound h _ _ h1
  refine runPath_strengthen h3 fun x hp _ hf => ?_
  have := h2 x hp
  simp only [optimistic, decide_eq_false_iff_not] at hf
  cases hw : ws x with
  | unchecked => exact absurd hw this
  | checked b => cases b with
    | false => rfl
    | true => exact absurd hw hf

/-- **C16 (part that holds).** The exploration stops exactly when the optimistic path exists and neither
a wall position nor a cell centre on it is reported as unknown; in particular it stops when the caller
reports no cell centre as unknown and every wall position on the path is known to be open. -/
theorem C16_stop_iff {W start goals} (h : Request W start goals) {current : Coord}
    (hc : Valid W current) (ws : Coord → WallState) :
    (explore W start goals current ws = .ok (.ok none) ↔
      ∃ path, plan W start goals (optimistic ws) = .ok (some path) ∧
        ∀ x, PassedBy path x → ws x ≠ .unchecked) ∧
    ((∀ x : Coord, x.x % 2 = 0 → x.y % 2 = 0 → ws x ≠ .unchecked) →
      ∀ path, plan W start goals (optimistic ws) = .ok (some path) →
      (∀ x, PassedBy path x → Valid W x → ws x = .checked false) →
      explore W start goals current ws = .ok (.ok none)) := by
  refine ⟨explore_done_iff h hc ws, fun hcen path hp hk => ?_⟩
  rw [explore_done_iff h hc ws]
  refine ⟨path, hp, fun x hx => ?_⟩
  obtain ⟨hh, -, h3⟩ := C10_path_sound h _ _ hp
  cases path with
  | nil => simp at hh
  | cons a l =>
    simp only [List.head?_cons, Option.some.injEq] at hh
    subst hh
    rcases passedBy_run h.start h3 hx with ⟨hv, -⟩ | ⟨h1, h2, -⟩
    · rw [hk x hx hv]; simp
    · exact hcen x h1 h2

/-- **C17 (part that holds).** The answer of `shortest_path` depends only on the answers given for
wall coordinates. -/
theorem C17_plan_valid_only {W start goals} (h : Request W start goals) {isWall isWall' : Coord → Bool}
    (heq : ∀ c, Valid W c → isWall c = isWall' c) :
    plan W start goals isWall = plan W start goals isWall' := by
  obtain ⟨r, h1, h2⟩ := plan_eq h isWall
  obtain ⟨r', h1', h2'⟩ := plan_eq h isWall'
  rw [planOf_congr h.width h.start heq, h1'] at h1
  cases h1
  rw [h2, h2']

/-- **C18.** -/
theorem C18_candidates {W start goals} (h : Request W start goals) {current : Coord}
    (hc : Valid W current) (ws : Coord → WallState) (cmd : Commander)
    (hcmd : explore W start goals current ws = .ok (.ok (some cmd))) :
    -- the candidates are the adjacent walls not known to exist, each once
    cmd.candidates.Nodup ∧ cmd.candidates.length ≤ 6 ∧
    (∀ d, d ∈ cmd.candidates ↔ Adjacent W current d ∧ ws d ≠ .checked true) ∧
    -- the first one starts a shortest walk to an interesting wall
    (∃ path, plan W start goals (optimistic ws) = .ok (some path) ∧
      ∃ first rest, cmd.candidates.head? = some first ∧
        AdjPath W (fun c => ws c ≠ .checked true) (current :: first :: rest) ∧
        (∃ t, (first :: rest).getLast? = some t ∧ t ≠ current ∧
          Interesting (fun x => ws x = .unchecked) path t) ∧
        ∀ other t, AdjPath W (fun c => ws c ≠ .checked true) (current :: other) →
          (current :: other).getLast? = some t → t ≠ current →
          Interesting (fun x => ws x = .unchecked) path t → (first :: rest).length ≤ other.length) ∧
    -- then come the walls adjacent to the first, then the others
    ∃ first near far, cmd.candidates = first :: near ++ far ∧
      (∀ d ∈ near, Adjacent W first d) ∧ ∀ d ∈ far, ¬ Adjacent W first d := by
  rcases explore_cases h hc ws with ⟨-, h1⟩ | ⟨path, hp, ⟨-, h1⟩ | ⟨-, goal, hgoal, h1⟩⟩
  · rw [hcmd] at h1; cases h1
  · rw [hcmd] at h1; cases h1
  · have hspec := gBfs_spec (adj := nbrs W ws) (goal := goal) (s := current) (QUE_MAX + 2)
    unfold nearOf at h1
    revert h1 hspec
    cases gBfs (nbrs W ws) goal current (QUE_MAX + 2) with
    | none => simp
    | some o => cases o with
      | none => intro h _; rw [hcmd] at h; cases h
      | some p =>
        rintro h1 ⟨t, hw, hne, hg, hmin⟩
        rw [hcmd] at h1
        simp only [Except.ok.injEq, Option.some.injEq] at h1
        subst h1
        obtain ⟨hm, l, hl⟩ := second_mem hw hne
        have hcur : current ∉ nbrs W ws current := by
          intro h; exact ((mem_nbrs hc).1 h).1.2.2.1 rfl
        have hperm := arranged_perm nbrs_nodup hm hcur
        refine ⟨hperm.nodup_iff.2 nbrs_nodup, hperm.length_eq ▸ nbrs_length,
          fun d => by rw [hperm.mem_iff, mem_nbrs hc], ?_, ?_⟩
        · refine ⟨path, hp, second p, l, rfl, ?_, ⟨t, ?_, hne, ?_⟩, ?_⟩
          · obtain ⟨l', h2, h3⟩ := hw.fchain
            rw [← hl, h2]
            exact (adjPath_fchain hc).1 h3
          · have := hw.getLast
            rw [hl] at this
            simpa using this
          · exact (hgoal t (nbrs_walk_valid hc hw)).1 hg
          · intro other t' ho hlast hne' hint
            obtain ⟨v, h2, h3⟩ := ((adjPath_fchain hc).2 ho).walk (.nil)
            rw [hlast] at h3; cases h3
            have h2' : Walk (nbrs W ws) current t' (current :: other) := by simpa using h2
            have h4 := sle_length (hmin t' _ h2' hne'
              ((hgoal t' (nbrs_walk_valid hc h2')).2 hint))
            have h5 := hw.ranks_length
            have h6 := h2'.ranks_length
            rw [hl] at h5
            simp only [List.length_cons] at h5 h6 ⊢
            rw [hl] at h4
            omega
        · have hsv := nbrs_valid hc hm
          refine ⟨second p, _, _, rfl, ?_, ?_⟩
          · intro d hd
            simp only [List.mem_filter, Bool.and_eq_true] at hd
            exact (isNeighbor_iff h.width.le hsv (nbrs_valid hc hd.1)).1 hd.2.1
          · intro d hd hadj
            simp only [List.mem_filter, Bool.and_eq_true, Bool.not_eq_true'] at hd
            rw [(isNeighbor_iff h.width.le hsv (nbrs_valid hc hd.1)).2 hadj] at hd
            simp at hd

/-- **C19.** -/
theorem C19_unreachable_iff {W start goals} (h : Request W start goals) {current : Coord}
    (hc : Valid W current) (ws : Coord → WallState) :
    explore W start goals current ws = .ok (.error .unreachable) ↔
      (¬ ∃ path : List Coord, path.head? = some start ∧
        (∃ g ∈ goals, g ≠ start ∧ path.getLast? = some g) ∧
        RunPath W (fun c => ws c ≠ .checked true) path) ∨
      ∃ path, plan W start goals (optimistic ws) = .ok (some path) ∧
        (∃ x, PassedBy path x ∧ ws x = .unchecked) ∧
        ¬ ∃ walk t, AdjPath W (fun c => ws c ≠ .checked true) (current :: walk) ∧
          (current :: walk).getLast? = some t ∧ t ≠ current ∧
          Interesting (fun x => ws x = .unchecked) path t := by
  have hno := C12_complete h (optimistic ws)
  have hfree : (fun c => optimistic ws c = false) = fun c => ws c ≠ .checked true := by
    funext c; simp [optimistic]
  rw [hfree] at hno
  rw [← hno]
  rcases explore_cases h hc ws with ⟨h0, h1⟩ | ⟨path, hp, ⟨h2, h1⟩ | ⟨h2, goal, hgoal, h1⟩⟩
  · simp [h1, h0]
  · rw [h1, hp]
    simp only [Except.ok.injEq, reduceCtorEq, Option.some.injEq, false_or, false_iff]
    rintro ⟨p, rfl, ⟨x, x1, x2⟩, -⟩
    exact h2 x x1 x2
  · have hspec := gBfs_spec (adj := nbrs W ws) (goal := goal) (s := current) (QUE_MAX + 2)
    unfold nearOf at h1
    rw [hp]
    simp only [Except.ok.injEq, Option.some.injEq, reduceCtorEq, false_or]
    revert h1 hspec
    cases gBfs (nbrs W ws) goal current (QUE_MAX + 2) with
    | none => simp
    | some o => cases o with
      | none =>
        intro h1 hs
        simp only at hs h1
        simp only [h1, true_iff]
        refine ⟨path, rfl, h2, ?_⟩
        rintro ⟨walk, t, w1, w2, w3, w4⟩
        obtain ⟨v, h2, h3⟩ := ((adjPath_fchain hc).2 w1).walk (.nil)
        rw [w2] at h3; cases h3
        have h2' : Walk (nbrs W ws) current t (current :: walk) := by simpa using h2
        have := hs t _ h2' w3
        rw [(hgoal t (nbrs_walk_valid hc h2')).2 w4] at this
        cases this
      | some p =>
        rintro h1 ⟨t, hw, hne, hg, -⟩
        simp only at h1
        rw [h1]
        simp only [Except.ok.injEq, reduceCtorEq, false_iff]
        rintro ⟨p', rfl, -, hn⟩
        obtain ⟨l, rfl, hl⟩ := hw.fchain
        exact hn ⟨l, t, (adjPath_fchain hc).1 hl, hw.getLast, hne,
          (hgoal t (nbrs_walk_valid hc hw)).1 hg⟩

/-! ## Commander -/

/-- **C20.** -/
theorem C20_next_coordinate (cmd : Commander) (ws : Coord → WallState) :
    (∀ c, cmd.nextCoordinate ws = .ok (some c) ↔ ∃ before after, cmd.candidates = before ++ c :: after ∧
      ws c = .checked false ∧ ∀ b ∈ before, ws b = .checked true) ∧
    (cmd.nextCoordinate ws = .ok none ↔ ∃ before c after, cmd.candidates = before ++ c :: after ∧
      ws c = .unchecked ∧ ∀ b ∈ before, ws b = .checked true) ∧
    (cmd.nextCoordinate ws = .error .unreachable ↔ ∀ c ∈ cmd.candidates, ws c = .checked true) ∧
    (∀ c, cmd.forceNextCoordinate ws = some c ↔ ∃ before after,
      cmd.candidates = before ++ c :: after ∧ ws c = .checked false ∧
        ∀ b ∈ before, ws b ≠ .checked false) ∧
    (cmd.forceNextCoordinate ws = none ↔ ∀ c ∈ cmd.candidates, ws c ≠ .checked false) := by
  obtain ⟨l⟩ := cmd
  simp only [Commander.nextCoordinate, Commander.forceNextCoordinate]
  have key : ∀ {P Q : Coord → Prop} {x : Coord} {l : List Coord} {c : Coord},
      (∃ before after, x :: l = before ++ c :: after ∧ P c ∧ ∀ b ∈ before, Q b) ↔
        (x = c ∧ P c) ∨ (Q x ∧ ∃ before after, l = before ++ c :: after ∧ P c ∧ ∀ b ∈ before, Q b) := by
    intro P Q x l c
    constructor
    · rintro ⟨before, after, h1, h2, h3⟩
      cases before with
      | nil => simp at h1; exact .inl ⟨h1.1, h2⟩
      | cons b bs =>
        simp only [List.cons_append, List.cons.injEq] at h1
        obtain ⟨rfl, h1⟩ := h1
        exact .inr ⟨h3 _ (by simp), bs, after, h1, h2, fun b hb => h3 b (by simp [hb])⟩
    · rintro (⟨rfl, h⟩ | ⟨h0, before, after, h1, h2, h3⟩)
      · exact ⟨[], l, rfl, h, by simp⟩
      · exact ⟨x :: before, after, by simp [h1], h2, by simp; exact ⟨h0, h3⟩⟩
  induction l with
  | nil => simp [nextCoordinateAux]
  | cons x l ih =>
    obtain ⟨i1, i2, i3, i4, i5⟩ := ih
    have key2 : ∀ {P Q : Coord → Prop}, (∃ before c after, x :: l = before ++ c :: after ∧ P c ∧
        ∀ b ∈ before, Q b) ↔ P x ∨ (Q x ∧ ∃ before c after, l = before ++ c :: after ∧ P c ∧
          ∀ b ∈ before, Q b) := by
      intro P Q
      constructor
      · rintro ⟨b, c, a, h⟩
        rcases key.1 ⟨b, a, h⟩ with ⟨rfl, h⟩ | ⟨h, b, a, h'⟩
        · exact .inl h
        · exact .inr ⟨h, b, c, a, h'⟩
      · rintro (h | ⟨h, b, c, a, h'⟩)
        · exact ⟨[], x, l, rfl, h, by simp⟩
        · obtain ⟨b, a, h⟩ := key.2 (.inr ⟨h, b, a, h'⟩)
          exact ⟨b, c, a, h⟩
    refine ⟨fun c => ?_, ?_, ?_, fun c => ?_, ?_⟩
    · rw [key (P := fun c => ws c = .checked false) (Q := fun c => ws c = .checked true), ← i1]
      conv_lhs => unfold nextCoordinateAux
      cases hx : ws x with
      | unchecked => simp; rintro rfl; simp [hx]
      | checked b =>
        cases b
        · simp; rintro rfl; exact hx
        · simp; rintro rfl h; simp [hx] at h
    · rw [key2 (P := fun c => ws c = .unchecked) (Q := fun c => ws c = .checked true), ← i2]
      conv_lhs => unfold nextCoordinateAux
      cases hx : ws x with
      | unchecked => simp
      | checked b => cases b <;> simp
    · simp only [List.forall_mem_cons]
      rw [← i3]
      conv_lhs => unfold nextCoordinateAux
      cases hx : ws x with
      | unchecked => simp
      | checked b => cases b <;> simp
    · rw [key (P := fun c => ws c = .checked false) (Q := fun c => ws c ≠ .checked false), ← i4, List.find?_cons]
      by_cases hx : ws x = .checked false
      · simp [hx]; rintro rfl; exact hx
      · simp [hx]; rintro rfl h; exact absurd h hx
    · simp only [List.forall_mem_cons]
      rw [← i5, List.find?_cons]
      by_cases hx : ws x = .checked false <;> simp [hx]

/-! ## Completeness of the exploration -/

/-- Every recorded wall state is true in the maze. -/
def Truthful (W : Nat) (maze : Coord → Bool) (ws : Coord → WallState) : Prop :=
  ∀ c b, Valid W c → ws c = .checked b → maze c = b

/-- **C23.** -/
theorem C23_complete_optimal {W start goals} (h : Request W start goals) {current : Coord}
    (hc : Valid W current) (ws : Coord → WallState) (maze : Coord → Bool) (ht : Truthful W maze ws)
    (hd : explore W start goals current ws = .ok (.ok none)) :
    ∃ path, plan W start goals maze = .ok (some path) ∧
      plan W start goals (pessimistic ws) = .ok (some path) ∧
      RunPath W (fun c => ws c = .checked false) path ∧
      ∀ other : List Coord, other.head? = some start →
        (∃ g ∈ goals, g ≠ start ∧ other.getLast? = some g) →
        RunPath W (fun c => maze c = false) other → path.length ≤ other.length := by
  obtain ⟨path, hp, hk⟩ := C15_done_known h hc ws hd
  have hhead := (C10_path_sound h _ _ hp).1
  obtain ⟨r, hr1, hr2⟩ := plan_eq h (optimistic ws)
  rw [hp] at hr2
  simp only [Except.ok.injEq] at hr2
  subst hr2
  have main : ∀ isWall : Coord → Bool,
      (∀ d, Valid W d → optimistic ws d = true → isWall d = true) →
      (∀ d, Valid W d → ws d = .checked false → isWall d = false) →
      plan W start goals isWall = .ok (some path) := by
    intro isWall m1 m2
    cases path with
    | nil => simp at hhead
    | cons a l =>
      simp only [List.head?_cons, Option.some.injEq] at hhead
      subst hhead
      have hrp : RunPath W (fun c => isWall c = false) (a :: l) :=
        runPath_strengthen hk fun x _ hv hf => m2 x hv hf
      obtain ⟨v, hw, -⟩ := walk_of_runPath h.width h.start hrp
      have := planOf_sub h.width h.start m1 hr1 ⟨v, hw⟩
      obtain ⟨r, e1, e2⟩ := plan_eq h isWall
      rw [this] at e1; cases e1
      exact e2
  have hmaze := main maze
    (fun d hd h1 => ht d true hd (by simpa [optimistic] using h1))
    (fun d hd h1 => ht d false hd h1)
  refine ⟨path, hmaze, main (pessimistic ws) ?_ ?_, hk, ?_⟩
  · intro d _ h1
    have : ws d = .checked true := by simpa [optimistic] using h1
    simp [pessimistic, this]
  · intro d _ h1; simp [pessimistic, h1]
  · intro other h1 h2 h3
    exact C11_path_minimal h maze path hmaze other h1 h2 h3

end Verif.Props
