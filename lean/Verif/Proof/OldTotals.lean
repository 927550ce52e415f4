import Verif.Proof.OldCands
/-! The candidates of the former search. -/
namespace Verif.Proof.OldS
open Verif Verif.Spec Verif.Old Verif.Old.Search Verif.Proof.OldN
open Verif.Run (Node satAdd)

variable {W : Nat} {b : Belief} {cost : Pattern → Nat} {cur : Node} {convert : Pattern → R Nat}

/-- Position of a search node in the tables. -/
def ixOf (W : Nat) (n : Node) : Nat := n.x + 2 * W * (n.y + 2 * W * sdir n.posture)
/-- Its identifier. -/
def nmOf (W : Nat) (n : Node) : Nat := 2 * packOf W n + 1
/-- Its predecessors. -/
def predsOf (W : Nat) (b : Belief) (cost : Pattern → Nat) (n : Node) : List (Node × Nat) :=
  (sseen W b.present n false).map fun e => (e.1, cost e.2)
/-- The poses that may be the next one. -/
def Next (W : Nat) (b : Belief) (cur n : Node) : Prop := ∃ k, SearchMove W (posBlocked b.present) cur k n

theorem openPose_legal (h : OpenPose W isWall n) (ht : MovesTo n k m) (hm : SearchLegal W m) : SearchLegal W n := by
  obtain ⟨h2, h3⟩ := (turns_iff_back hm (turns_kind ht)).mp ⟨ht, openPose_range h⟩
  rw [h2]
  exact nodeTo_legal hm false (mirror_moves (turns_kind ht)) h3

theorem mem_predsOf {n m : Node} {w : Nat} (hn : SearchLegal W n) : (m, w) ∈ predsOf W b cost n ↔
    OpenPose W (posBlocked b.present) m ∧ ∃ k, MovesTo m k n ∧ w = cost (kindPattern k) := by
  unfold predsOf
  rw [List.mem_map]
  constructor
  · rintro ⟨⟨m', p⟩, h1, h2⟩
    obtain ⟨k, rfl, ht, ho⟩ := (mem_sseen_false hn m' p).mp h1
    simp only [Prod.mk.injEq] at h2
    obtain ⟨rfl, rfl⟩ := h2
    exact ⟨ho, k, ht, rfl⟩
  · rintro ⟨ho, k, ht, rfl⟩
    exact ⟨(m, kindPattern k), (mem_sseen_false hn m _).mpr ⟨k, rfl, ht, ho⟩, rfl⟩

theorem net (hW : Supported W) (hc : ∀ p, Occurs W p → convert p = .ok (cost p)) :
    Net (searchMaze W b.present convert) (searchCoding W) (SearchLegal W) (ixOf W) (nmOf W) (predsOf W b cost) where
  index u hu := sindex_eq hW hu
  lt u hu := sindex_lt hW hu
  inj u v hu hv h := sindex_inj hu hv h
  id u hu := nodeId_eq hW hu.1 hu.2.1
  ofId u hu := nodeOfId_eq hW hu.1 hu.2.1
  pred u hu := search_eq hW hu false hc
  closed u hu e he := by
    obtain ⟨ho, k, ht, -⟩ := (mem_predsOf hu).mp he
    exact openPose_legal ho ht hu

/-- A number for each search node. -/
def codeOf (W : Nat) (n : Node) : Nat := n.x / 2 + W * (n.y + 2 * W * sdir n.posture)

theorem codeOf_inj {n m : Node} (hn : SearchLegal W n) (hm : SearchLegal W m) (h : codeOf W n = codeOf W m) : n = m := by
  have key : ∀ n : Node, SearchLegal W n → codeOf W n % W = n.x / 2 ∧ codeOf W n / W % (2 * W) = n.y ∧ codeOf W n / W / (2 * W) = sdir n.posture := by
    intro n hn
    obtain ⟨h1, h2, -⟩ := hn
    have hW : 0 < W := by omega
    have e : codeOf W n / W = n.y + 2 * W * sdir n.posture := by
      unfold codeOf
      rw [Nat.add_mul_div_left _ _ hW, Nat.div_eq_of_lt (by omega)]
      omega
    refine ⟨?_, ?_, ?_⟩
    · unfold codeOf
      rw [Nat.add_mul_mod_self_left, Nat.mod_eq_of_lt (by omega)]
    · rw [e, Nat.add_mul_mod_self_left, Nat.mod_eq_of_lt h2]
    · rw [e, Nat.add_mul_div_left _ _ (by omega), Nat.div_eq_of_lt h2]
      omega
  obtain ⟨a1, a2, a3⟩ := key n hn
  obtain ⟨b1, b2, b3⟩ := key m hm
  rw [h] at a1 a2 a3
  refine sindex_inj hn hm ?_
  have e1 : n.x / 2 = m.x / 2 := a1.symm.trans b1
  have e2 : n.y = m.y := a2.symm.trans b2
  have e3 : sdir n.posture = sdir m.posture := a3.symm.trans b3
  have e4 : n.x = m.x := by
    obtain ⟨-, -, h⟩ := hn
    obtain ⟨-, -, h'⟩ := hm
    omega
  rw [e4, e2, e3]

theorem codeOf_lt {n : Node} (hn : SearchLegal W n) : codeOf W n < 4 * (W * W) := by
  obtain ⟨h1, h2, -⟩ := hn
  have hd : sdir n.posture ≤ 1 := by unfold sdir; split <;> omega
  have h3 : n.y + 2 * W * sdir n.posture + 1 ≤ 2 * W + 2 * W := by
    have := Nat.mul_le_mul_left (2 * W) hd
    omega
  have h4 := Nat.mul_le_mul_left W h3
  have h5 : W * (2 * W + 2 * W) = 4 * (W * W) := by
    rw [Nat.mul_add, Nat.mul_left_comm]; omega
  unfold codeOf
  rw [Nat.mul_add] at h4
  omega

theorem few_nodes {X : List Node} (hX : X.Nodup) (h : ∀ u ∈ X, SearchLegal W u) : X.length ≤ 4 * (W * W) := by
  have h1 : (X.map (codeOf W)).Nodup := (List.nodup_map_iff_inj_on hX).mpr fun a ha c hc he => codeOf_inj (h a ha) (h c hc) he
  have h2 : (X.map (codeOf W)).Subperm (List.range (4 * (W * W))) := by
    apply List.Nodup.subperm h1
    intro i hi
    obtain ⟨u, hu, rfl⟩ := List.mem_map.mp hi
    exact List.mem_range.mpr (codeOf_lt (h u hu))
  simpa using h2.length_le

theorem few_edges {X : List Node} (hX : X.Nodup) (h : ∀ u ∈ X, SearchLegal W u) : inCount (predsOf W b cost) X ≤ 16 * (W * W) := by
  have h1 := few_nodes hX h
  have h2 : ∀ Y : List Node, inCount (predsOf W b cost) Y ≤ 4 * Y.length := by
    intro Y
    induction Y with
    | nil => simp [inCount]
    | cons v Y ih =>
      have := sseen_length (W := W) (blocked := b.present) (n := v) (s := false)
      unfold inCount at ih ⊢
      simp only [List.map_cons, List.sum_cons, List.length_cons]
      have e : (predsOf W b cost v).length = (sseen W b.present v false).length := by simp [predsOf]
      omega
  have := h2 X
  omega

theorem trip_into {u v : Node} {p : List Node} {c : Nat} (hv : SearchLegal W v) :
    Trip (into (predsOf W b cost) (Next W b cur)) u p c v ↔ Trip (wayEdges W (posBlocked b.present) cost cur) u p c v := by
  constructor
  · intro h
    suffices H : SearchLegal W u ∧ Trip (wayEdges W (posBlocked b.present) cost cur) u p c v from H.2
    induction h with
    | here u => exact ⟨hv, .here u⟩
    | @step u x v w c p hE _ ih =>
      obtain ⟨hx, ht⟩ := ih hv
      obtain ⟨hns, hm⟩ := hE
      obtain ⟨ho, k, h1, h2⟩ := (mem_predsOf hx).mp hm
      exact ⟨openPose_legal ho h1 hx, .step ⟨ho, ⟨k, h1, h2⟩, hns⟩ ht⟩
  · intro h
    suffices H : SearchLegal W u ∧ Trip (into (predsOf W b cost) (Next W b cur)) u p c v from H.2
    induction h with
    | here u => exact ⟨hv, .here u⟩
    | @step u x v w c p hE _ ih =>
      obtain ⟨hx, ht⟩ := ih hv
      obtain ⟨ho, ⟨k, h1, h2⟩, hns⟩ := hE
      exact ⟨openPose_legal ho h1 hx, .step ⟨hns, (mem_predsOf hx).mpr ⟨ho, k, h1, h2⟩⟩ ht⟩

/-- The distances after the main loop. -/
theorem dists (hW : Supported W) (hc : ∀ p, Occurs W p → convert p = .ok (cost p)) {Q : Queue Nat} (L : QueueLaws Q HEAP_MAX) {MAX : Nat}
    (hM : 0 < MAX) {S : List Node} (hS : ∀ v ∈ S, SearchLegal W v) (hlen : S.length ≤ NODE_MAX) {cands : List (Node × Nat)}
    (hcand : ∀ u, SearchLegal W u → ((cands.any fun c => c.1 == u) = true ↔ Next W b cur u)) :
    (∃ s s', Search.seeds (searchCoding W) Q S ⟨fun _ => MAX, Q.empty⟩ = .ok s ∧
      Search.loop (searchMaze W b.present convert) (searchCoding W) Q MAX cands Search.FUEL s = .ok s' ∧
      (∀ u, SearchLegal W u → s'.dist (ixOf W u) ≤ MAX) ∧
      (∀ u, SearchLegal W u → s'.dist (ixOf W u) < MAX →
        ∃ p v, Trip (wayEdges W (posBlocked b.present) cost cur) u p (s'.dist (ixOf W u)) v ∧ v ∈ S) ∧
      ∀ u p c v, Trip (wayEdges W (posBlocked b.present) cost cur) u p c v → v ∈ S → s'.dist (ixOf W u) ≤ c) ∨
    (HEAP_MAX < S.length + 16 * (W * W) ∧ (Search.seeds (searchCoding W) Q S ⟨fun _ => MAX, Q.empty⟩ = .error .capacity ∨
      ∃ s, Search.seeds (searchCoding W) Q S ⟨fun _ => MAX, Q.empty⟩ = .ok s ∧
      Search.loop (searchMaze W b.present convert) (searchCoding W) Q MAX cands Search.FUEL s = .error .capacity)) := by
  have N := net (b := b) (cost := cost) hW hc
  have h0 : CInv (SearchLegal W) (ixOf W) (nmOf W) (predsOf W b cost) L MAX (Next W b cur) [] 0 [] (fun _ => False) ([] : List Node).length
      ⟨fun _ => MAX, Q.empty⟩ := by
    refine ⟨fun _ _ => Nat.le_refl _, ?_, ?_, ?_, by simp, List.nodup_nil, by simp, by simp, ?_⟩
    · intro u _ h; simp only at h; omega
    · intro e he; simp only [L.elems_empty] at he; cases he
    · intro u _ h; simp only at h; omega
    · simp [L.elems_empty]
  have hW2 : W * W ≤ 32 * 32 := Nat.mul_le_mul hW.le hW.le
  rcases seeds_inv N hM S [] _ (by simp) hS h0 with ⟨s, h1, h2⟩ | ⟨h1, h2⟩
  · rw [List.nil_append] at h2
    have hK : ∀ X : List Node, X.Nodup → (∀ u ∈ X, SearchLegal W u) → S.length + inCount (predsOf W b cost) X ≤ S.length + 16 * (W * W) :=
      fun X hX h => Nat.add_le_add_left (few_edges hX h) _
    have e1 : NODE_MAX = 16384 := rfl
    have e2 : Search.FUEL = 128 * 16384 + 8192 + 1 := rfl
    rcases loop_inv N hS hcand hK Search.FUEL 0 0 S.length [] s h2 (by simp [inCount]) (by omega) with
      ⟨s', m, k, X, h3, h4, h5⟩ | ⟨h3, h4⟩
    · left
      obtain ⟨h6, h7⟩ := final_dist N h4 h5
      refine ⟨s, s', h1, h3, h4.le, ?_, ?_⟩
      · intro u hu hd
        obtain ⟨p, v, ht, hv⟩ := h6 u hu hd
        exact ⟨p, v, (trip_into (hS v hv)).mp ht, hv⟩
      · intro u p c v ht hv
        exact h7 u p c v ((trip_into (hS v hv)).mpr ht) (hS v hv) hv
    · exact Or.inr ⟨h4, Or.inr ⟨s, h1, h3⟩⟩
  · refine Or.inr ⟨?_, Or.inl h1⟩
    rw [List.nil_append] at h2
    omega

/-! ## The list of candidates -/

/-- The successors of the current pose with the cost of the move. -/
def succsOf (W : Nat) (b : Belief) (cost : Pattern → Nat) (n : Node) : List (Node × Nat) :=
  (sseen W b.present n true).map fun e => (e.1, cost e.2)

theorem mem_succsOf {n m : Node} {w : Nat} (hn : SearchLegal W n) : (m, w) ∈ succsOf W b cost n ↔
    ∃ k, SearchMove W (posBlocked b.present) n k m ∧ w = cost (kindPattern k) := by
  unfold succsOf
  rw [List.mem_map]
  constructor
  · rintro ⟨⟨m', p⟩, h1, h2⟩
    obtain ⟨k, rfl, h⟩ := (mem_sseen_true hn m' p).mp h1
    simp only [Prod.mk.injEq] at h2
    obtain ⟨rfl, rfl⟩ := h2
    exact ⟨k, h, rfl⟩
  · rintro ⟨k, h, rfl⟩
    exact ⟨(m, kindPattern k), (mem_sseen_true hn m _).mpr ⟨k, rfl, h⟩, rfl⟩

theorem turns_unique {n m : Node} {k k' : SearchKind} (hn : SearchLegal W n) (h : MovesTo n k m) (h' : MovesTo n k' m) : k = k' := by
  have ha := axis hn
  obtain ⟨x, y, p⟩ := n
  simp only [List.mem_cons, List.not_mem_nil, or_false] at ha
  rcases ha with rfl | rfl | rfl | rfl <;> cases k <;> cases k' <;> first
    | rfl
    | exact h.elim
    | exact h'.elim
    | (simp only [MovesTo, rightOf, heading] at h h'
       have := h.2.2.symm.trans h'.2.2
       simp at this)

theorem sseen_sublist {n : Node} (s : Bool) : ((sseen W b.present n s).map (·.1)).Sublist (moves.map (nodeTo n s)) := by
  unfold sseen
  generalize moves = l
  induction l with
  | nil => simp
  | cons k l ih =>
    simp only [List.flatMap_cons, List.flatMap_append, List.map_append, List.map_cons]
    have : ((entry W n s k).flatMap (visible b.present)).map (·.1) = [] ∨ ((entry W n s k).flatMap (visible b.present)).map (·.1) = [nodeTo n s k] := by
      unfold entry
      split
      · simp only [List.flatMap_cons, List.flatMap_nil, List.append_nil, visible_wall_eq]
        split
        · exact Or.inl rfl
        · exact Or.inr (by simp [visible])
      · exact Or.inl rfl
    rcases this with h | h
    · rw [h]
      exact ih.cons _
    · rw [h]
      exact ih.cons_cons _

theorem succs_nodup {n : Node} (hn : SearchLegal W n) : ((succsOf W b cost n).map (·.1)).Nodup := by
  have e : (succsOf W b cost n).map (·.1) = (sseen W b.present n true).map (·.1) := by simp [succsOf, List.map_map, Function.comp_def]
  rw [e]
  refine (sseen_sublist true).nodup ?_
  have : ((moves.map (nodeTo n true)).map Node.posture).Nodup := by
    have ha := axis hn
    simp only [moves, List.map_cons, List.map_nil, nodeTo, codeMove]
    simp only [List.mem_cons, List.not_mem_nil, or_false] at ha
    rcases ha with h | h | h | h <;> rw [h] <;> decide
  exact List.Nodup.of_map _ this

theorem totals_eq (hW : Supported W) {MAX : Nat} {dist : Nat → Nat} : ∀ l : List (Node × Nat), (∀ e ∈ l, SearchLegal W e.1) →
    Search.totals (searchCoding W) MAX dist l = .ok (l.map fun e => (e.1, satAdd MAX e.2 (dist (ixOf W e.1))))
  | [], _ => rfl
  | (n, c) :: rest, h => by
    unfold Search.totals
    have hn := h (n, c) (by simp)
    have e : (searchCoding W).index n = .ok (ixOf W n) := sindex_eq hW hn
    have hlt : ixOf W n < NODE_MAX := sindex_lt hW hn
    simp only [e, bind, Except.bind, arrGet, if_pos hlt]
    rw [totals_eq hW rest (fun x hx => h x (by simp [hx]))]
    rfl

theorem next_eq (P : Config) (hW : Supported P.W) (hc : ∀ p, Occurs P.W p → P.convert p = .ok (cost p)) (L : QueueLaws P.Q HEAP_MAX)
    (hM : 0 < P.MAX) (hsort : SortsByCost P.sort) (hcur : SearchLegal P.W cur) {path S : List Node} (hpath : shortestPath P b = .ok (some path))
    (hfind : findUnchecked P.W b path = .ok S) (hS : ∀ v ∈ S, SearchLegal P.W v) (hlen : S.length ≤ NODE_MAX) :
    (∃ r, nextCandidates P b cur = .ok r ∧
      match r with
      | some l => l ≠ [] ∧ Ranks P.W (posBlocked b.present) cost P.MAX cur S l
      | none => ∀ n t, Total P.W (posBlocked b.present) cost cur S n t → P.MAX ≤ t) ∨
    (nextCandidates P b cur = .error .capacity ∧ HEAP_MAX < S.length + 16 * (P.W * P.W)) := by
  have hsucc : (searchMaze P.W b.present P.convert).successors cur = .ok (succsOf P.W b cost cur) := search_eq hW hcur true hc
  have hlen4 : ¬ CANDIDATES_MAX < (succsOf P.W b cost cur).length := by
    have := sseen_length (W := P.W) (blocked := b.present) (n := cur) (s := true)
    have e : (succsOf P.W b cost cur).length = (sseen P.W b.present cur true).length := by simp [succsOf]
    have : CANDIDATES_MAX = 4 := rfl
    omega
  have hcand : ∀ u, SearchLegal P.W u → (((succsOf P.W b cost cur).any fun c => c.1 == u) = true ↔ Next P.W b cur u) := by
    intro u _
    rw [List.any_eq_true]
    constructor
    · rintro ⟨⟨m, w⟩, h1, h2⟩
      have : m = u := by simpa using h2
      subst this
      obtain ⟨k, h, -⟩ := (mem_succsOf hcur).mp h1
      exact ⟨k, h⟩
    · rintro ⟨k, h⟩
      exact ⟨(u, cost (kindPattern k)), (mem_succsOf hcur).mpr ⟨k, h, rfl⟩, by simp⟩
  have hlegal : ∀ e ∈ succsOf P.W b cost cur, SearchLegal P.W e.1 := by
    rintro ⟨m, w⟩ he
    obtain ⟨k, h, -⟩ := (mem_succsOf hcur).mp he
    exact turns_legal hcur h.1 (openPose_range h.2).1 (openPose_range h.2).2
  unfold nextCandidates
  rw [hpath]
  simp only [bind, Except.bind, hfind, hsucc]
  rw [if_neg hlen4]
  rcases dists (b := b) (cost := cost) (cur := cur) hW hc L hM hS hlen hcand with ⟨s, s', h1, h2, h3, h4, h5⟩ | ⟨h1, h2⟩
  · left
    rw [h1]
    simp only
    rw [h2]
    simp only
    rw [totals_eq hW _ hlegal]
    simp only [pure, Except.pure]
    -- what passes the filter
    have hmem : ∀ n t, (n, t) ∈ ((succsOf P.W b cost cur).map fun e => (e.1, satAdd P.MAX e.2 (s'.dist (ixOf P.W e.1)))).filter
        (fun e => decide (e.2 < P.MAX)) ↔ LeastTotal P.W (posBlocked b.present) cost cur S n t ∧ t < P.MAX := by
      intro n t
      rw [List.mem_filter, List.mem_map]
      simp only [decide_eq_true_eq]
      constructor
      · rintro ⟨⟨⟨m, w⟩, he, h6⟩, hlt⟩
        simp only [Prod.mk.injEq] at h6
        obtain ⟨rfl, rfl⟩ := h6
        refine ⟨?_, hlt⟩
        obtain ⟨k, hk, rfl⟩ := (mem_succsOf hcur).mp he
        have hL := hlegal _ he
        simp only at hL
        have e : satAdd P.MAX (cost (kindPattern k)) (s'.dist (ixOf P.W m)) = cost (kindPattern k) + s'.dist (ixOf P.W m) := by
          unfold satAdd at hlt ⊢; omega
        rw [e] at hlt ⊢
        obtain ⟨p, v, ht, hv⟩ := h4 m hL (by omega)
        refine ⟨⟨k, p, _, v, hk, ht, hv, rfl⟩, ?_⟩
        rintro t' ⟨k', p', c', v', hk', ht', hv', rfl⟩
        rw [turns_unique hcur hk'.1 hk.1]
        exact Nat.add_le_add_left (h5 m p' c' v' ht' hv') _
      · rintro ⟨⟨⟨k, p, c, v, hk, ht, hv, rfl⟩, hmin⟩, hlt⟩
        have he := (mem_succsOf (cost := cost) hcur).mpr ⟨k, hk, rfl⟩
        have hL := hlegal _ he
        simp only at hL
        refine ⟨⟨(n, cost (kindPattern k)), he, ?_⟩, hlt⟩
        have hd := h5 n p c v ht hv
        obtain ⟨p', v', ht', hv'⟩ := h4 n hL (by omega)
        have := hmin _ ⟨k, p', _, v', hk, ht', hv', rfl⟩
        simp only [Prod.mk.injEq, true_and]
        unfold satAdd
        omega
    have hnodup : ((((succsOf P.W b cost cur).map fun e => (e.1, satAdd P.MAX e.2 (s'.dist (ixOf P.W e.1)))).filter
        (fun e => decide (e.2 < P.MAX))).map (·.1)).Nodup := by
      have h6 : ((succsOf P.W b cost cur).map fun e => (e.1, satAdd P.MAX e.2 (s'.dist (ixOf P.W e.1)))).map (·.1) =
          (succsOf P.W b cost cur).map (·.1) := by simp [List.map_map, Function.comp_def]
      have h7 := succs_nodup (b := b) (cost := cost) hcur
      rw [← h6] at h7
      exact (List.Sublist.map _ List.filter_sublist).nodup h7
    generalize hF : ((succsOf P.W b cost cur).map fun e => (e.1, satAdd P.MAX e.2 (s'.dist (ixOf P.W e.1)))).filter
        (fun e => decide (e.2 < P.MAX)) = F at hmem hnodup
    by_cases hE : F = []
    · refine ⟨none, ?_, ?_⟩
      · rw [hE]; rfl
      · intro n t ht
        by_contra hlt
        obtain ⟨k, p, c, v, hk, htr, hv, rfl⟩ := ht
        have hL := turns_legal hcur hk.1 (openPose_range hk.2).1 (openPose_range hk.2).2
        have hd := h5 n p c v htr hv
        obtain ⟨p', v', ht', hv'⟩ := h4 n hL (by omega)
        have : (n, cost (kindPattern k) + s'.dist (ixOf P.W n)) ∈ F := by
          rw [hmem]
          refine ⟨⟨⟨k, p', _, v', hk, ht', hv', rfl⟩, ?_⟩, by omega⟩
          rintro t' ⟨k', q', c', w', hk', hq', hw', rfl⟩
          rw [turns_unique hcur hk'.1 hk.1]
          exact Nat.add_le_add_left (h5 n q' c' w' hq' hw') _
        rw [hE] at this
        cases this
    · refine ⟨some ((P.sort F).map (·.1)), ?_, ?_⟩
      · have : F.isEmpty = false := by simpa using hE
        simp [this]
      · obtain ⟨hp, hs⟩ := hsort F
        refine ⟨?_, P.sort F, rfl, ?_, hs, ?_⟩
        · intro h
          rw [List.map_eq_nil_iff] at h
          rw [h] at hp
          exact hE hp.nil_eq.symm
        · exact (hp.map _).nodup_iff.mpr hnodup
        · intro n t
          rw [hp.mem_iff]
          exact hmem n t
  · right
    refine ⟨?_, h1⟩
    rcases h2 with h2 | ⟨s, h2, h3⟩
    · rw [h2]
    · rw [h2]
      simp only
      rw [h3]

end Verif.Proof.OldS
