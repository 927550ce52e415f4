import Verif.Proof.OldWalls
import Verif.Spec.OldSolver
/-! The costs of the candidates in the former search: distances to the nodes to be checked. -/
namespace Verif.Proof.OldS
open Verif Verif.Spec Verif.Old Verif.Old.Search
open Verif.Run (Node satAdd)

/-- The nodes and their codes, and the lists of predecessors. -/
structure Net (G : Graph Node) (C : Coding Node Nat) (Ok : Node → Prop) (ix nm : Node → Nat) (P : Node → List (Node × Nat)) : Prop where
  index : ∀ u, Ok u → C.index u = .ok (ix u)
  lt : ∀ u, Ok u → ix u < NODE_MAX
  inj : ∀ u v, Ok u → Ok v → ix u = ix v → u = v
  id : ∀ u, Ok u → C.id u = .ok (nm u)
  ofId : ∀ u, Ok u → C.ofId (nm u) = .ok u
  pred : ∀ u, Ok u → G.predecessors u = .ok (P u)
  closed : ∀ u, Ok u → ∀ e ∈ P u, Ok e.1

/-- The edges that are followed backwards: those into nodes that are not candidates. -/
def into (P : Node → List (Node × Nat)) (stop : Node → Prop) : Edges Node := fun u w v => ¬ stop v ∧ (u, w) ∈ P v

variable {G : Graph Node} {C : Coding Node Nat} {Ok : Node → Prop} {ix nm : Node → Nat} {P : Node → List (Node × Nat)}
  {Q : Queue Nat} {L : QueueLaws Q HEAP_MAX} {MAX : Nat} {stop : Node → Prop} {S : List Node}

/-- The invariant of the loops: `X` are the nodes whose predecessors have been relaxed, `cur` those for
which this is going on, `k` bounds the number of entries. -/
structure CInv (Ok : Node → Prop) (ix nm : Node → Nat) (P : Node → List (Node × Nat)) (L : QueueLaws Q HEAP_MAX) (MAX : Nat)
    (stop : Node → Prop) (S : List Node) (m : Nat) (X : List Node) (cur : Node → Prop) (k : Nat) (s : Search.St Q) : Prop where
  le : ∀ u, Ok u → s.dist (ix u) ≤ MAX
  ach : ∀ u, Ok u → s.dist (ix u) < MAX → ∃ p v, Trip (into P stop) u p (s.dist (ix u)) v ∧ v ∈ S
  entry : ∀ e ∈ L.elems s.heap, ∃ u, Ok u ∧ e.2 = nm u ∧ s.dist (ix u) ≤ e.1 ∧ e.1 < MAX ∧ m ≤ e.1
  todo : ∀ u, Ok u → s.dist (ix u) < MAX → u ∈ X ∨ stop u ∨ cur u ∨ (s.dist (ix u), nm u) ∈ L.elems s.heap
  xok : ∀ u ∈ X, Ok u ∧ ¬ stop u ∧ s.dist (ix u) ≤ m
  nodup : X.Nodup
  req : ∀ v ∈ X, ∀ e ∈ P v, s.dist (ix e.1) ≤ satAdd MAX (s.dist (ix v)) e.2
  seeds : ∀ v ∈ S, s.dist (ix v) = 0
  count : (L.elems s.heap).length ≤ k

theorem nm_inj (N : Net G C Ok ix nm P) {u v : Node} (hu : Ok u) (hv : Ok v) (h : nm u = nm v) : u = v := by
  have h1 := N.ofId u hu
  have h2 := N.ofId v hv
  rw [h] at h1
  exact Except.ok.inj (h1.symm.trans h2)

theorem satAdd_le (MAX a w : Nat) : satAdd MAX a w ≤ MAX := by unfold satAdd; omega

/-- Relaxation of a list of edges into `v`. -/
theorem relax_inv (N : Net G C Ok ix nm P) (hS : ∀ v ∈ S, Ok v) {m : Nat} {X : List Node} {cur : Node → Prop} {v : Node} {c : Nat} (hv : Ok v) (hs : ¬ stop v)
    (hc : c < MAX) (hm : m ≤ c) :
    ∀ (l done : List (Node × Nat)) (k : Nat) (s : Search.St Q), (∀ e ∈ l, e ∈ P v) → (∀ e ∈ done, Ok e.1) → s.dist (ix v) = c →
      CInv Ok ix nm P L MAX stop S m X cur k s → (∀ e ∈ done, s.dist (ix e.1) ≤ satAdd MAX c e.2) →
      (∃ s', Search.relax C Q MAX c l s = .ok s' ∧ CInv Ok ix nm P L MAX stop S m X cur (k + l.length) s' ∧ s'.dist (ix v) = c ∧
        ∀ e ∈ done ++ l, s'.dist (ix e.1) ≤ satAdd MAX c e.2) ∨
      (Search.relax C Q MAX c l s = .error .capacity ∧ HEAP_MAX < k + l.length)
  | [], done, k, s, _, _, hd, hI, hR => Or.inl ⟨s, rfl, hI, hd, by simpa using hR⟩
  | (u, w) :: rest, done, k, s, hl, hdone, hd, hI, hR => by
    have hmem := hl (u, w) (by simp)
    have hu : Ok u := N.closed v hv _ hmem
    unfold Search.relax
    simp only [bind, Except.bind, N.index u hu, arrGet, if_pos (N.lt u hu)]
    by_cases hlt : satAdd MAX c w < s.dist (ix u)
    · rw [if_pos hlt]
      have hcw : satAdd MAX c w = c + w := by
        have := hI.le u hu
        unfold satAdd at hlt ⊢
        omega
      have hne : u ≠ v := by
        rintro rfl
        rw [hd, hcw] at hlt
        omega
      have huX : u ∉ X := by
        intro h
        have := (hI.xok u h).2.2
        omega
      simp only [arrSet, if_pos (N.lt u hu), N.id u hu, Search.St.push]
      by_cases hfull : (L.elems s.heap).length < HEAP_MAX
      · obtain ⟨h', hp, hperm⟩ := L.push_ok s.heap (satAdd MAX c w, nm u) hfull
        rw [hp]
        simp only
        have hdist : ∀ x, Ok x → (if ix x = ix u then satAdd MAX c w else s.dist (ix x)) = if x = u then c + w else s.dist (ix x) := by
          intro x hx
          by_cases hxu : x = u
          · subst hxu; simp [hcw]
          · rw [if_neg hxu, if_neg (fun h => hxu (N.inj x u hx hu h))]
        have hI' : CInv Ok ix nm P L MAX stop S m X cur (k + 1)
            ⟨fun i => if i = ix u then satAdd MAX c w else s.dist i, h'⟩ := by
          refine ⟨?_, ?_, ?_, ?_, ?_, hI.nodup, ?_, ?_, ?_⟩
          · intro x hx
            simp only
            split
            · exact satAdd_le _ _ _
            · exact hI.le x hx
          · intro x hx h
            simp only at h ⊢
            rw [hdist x hx] at h ⊢
            by_cases hxu : x = u
            · subst hxu
              rw [if_pos rfl] at h ⊢
              obtain ⟨p, t, ht, hS⟩ := hI.ach v hv (by omega)
              rw [hd] at ht
              rw [Nat.add_comm]
              exact ⟨_, t, Trip.step ⟨hs, hmem⟩ ht, hS⟩
            · rw [if_neg hxu] at h ⊢
              exact hI.ach x hx h
          · intro e he
            simp only at he ⊢
            rcases List.mem_cons.mp (hperm.mem_iff.mp he) with rfl | he
            · refine ⟨u, hu, rfl, ?_, ?_, ?_⟩
              · simp
              · have := hI.le u hu
                simp only
                omega
              · simp only
                omega
            · obtain ⟨x, hx, h1, h2, h3, h4⟩ := hI.entry e he
              refine ⟨x, hx, h1, ?_, h3, h4⟩
              rw [hdist x hx]
              split
              · rename_i hxu
                subst hxu
                omega
              · exact h2
          · intro x hx h
            simp only at h ⊢
            rw [hdist x hx] at h ⊢
            by_cases hxu : x = u
            · subst hxu
              rw [if_pos rfl]
              refine Or.inr (Or.inr (Or.inr (hperm.mem_iff.mpr ?_)))
              rw [hcw]
              simp
            · rw [if_neg hxu] at h ⊢
              rcases hI.todo x hx h with h | h | h | h
              · exact Or.inl h
              · exact Or.inr (Or.inl h)
              · exact Or.inr (Or.inr (Or.inl h))
              · exact Or.inr (Or.inr (Or.inr (hperm.mem_iff.mpr (by simp [h]))))
          · intro x hx
            obtain ⟨h1, h2, h3⟩ := hI.xok x hx
            refine ⟨h1, h2, ?_⟩
            simp only
            rw [hdist x h1, if_neg (fun h : x = u => huX (h ▸ hx))]
            exact h3
          · intro x hx e he
            have h1 := (hI.xok x hx).1
            have h2 := N.closed x h1 e he
            simp only
            rw [hdist x h1, if_neg (fun h : x = u => huX (h ▸ hx)), hdist e.1 h2]
            refine Nat.le_trans ?_ (hI.req x hx e he)
            split
            · rename_i heq
              rw [heq]
              omega
            · exact Nat.le_refl _
          · intro x hx
            simp only
            rw [hdist x (hS x hx), if_neg]
            · exact hI.seeds x hx
            · rintro rfl
              have := hI.seeds x hx
              omega
          · rw [hperm.length_eq]
            simp only [List.length_cons]
            have := hI.count
            omega
        have hd' : (if ix v = ix u then satAdd MAX c w else s.dist (ix v)) = c := by
          rw [hdist v hv, if_neg (Ne.symm hne), hd]
        have hR' : ∀ e ∈ done ++ [(u, w)], (if ix e.1 = ix u then satAdd MAX c w else s.dist (ix e.1)) ≤ satAdd MAX c e.2 := by
          intro e he
          rcases List.mem_append.mp he with h | h
          · rw [hdist e.1 (hdone e h)]
            refine Nat.le_trans ?_ (hR e h)
            split
            · rename_i heq
              rw [heq]
              omega
            · exact Nat.le_refl _
          · rw [List.mem_singleton.mp h]
            simp
        rcases relax_inv N hS hv hs hc hm rest (done ++ [(u, w)]) (k + 1) _ (fun e he => hl e (by simp [he])) (by
          intro e he
          rcases List.mem_append.mp he with h | h
          · exact hdone e h
          · rw [List.mem_singleton.mp h]; exact hu) hd' hI' hR' with ⟨s', h1, h2, h3, h4⟩ | ⟨h1, h2⟩
        · refine Or.inl ⟨s', h1, ?_, h3, ?_⟩
          · simpa [Nat.add_assoc, Nat.add_comm 1] using h2
          · simpa using h4
        · exact Or.inr ⟨h1, by simp only [List.length_cons]; omega⟩
      · rw [L.push_full _ _ (by omega)]
        refine Or.inr ⟨rfl, ?_⟩
        have := hI.count
        simp only [List.length_cons]
        omega
    · rw [if_neg hlt]
      rcases relax_inv N hS hv hs hc hm rest (done ++ [(u, w)]) k s (fun e he => hl e (by simp [he])) (by
          intro e he
          rcases List.mem_append.mp he with h | h
          · exact hdone e h
          · rw [List.mem_singleton.mp h]; exact hu) hd hI (by
          intro e he
          rcases List.mem_append.mp he with h | h
          · exact hR e h
          · rw [List.mem_singleton.mp h]; simp only; omega) with ⟨s', h1, h2, h3, h4⟩ | ⟨h1, h2⟩
      · refine Or.inl ⟨s', h1, ?_, h3, by simpa using h4⟩
        refine ⟨h2.le, h2.ach, h2.entry, h2.todo, h2.xok, h2.nodup, h2.req, h2.seeds, ?_⟩
        have := h2.count
        simp only [List.length_cons]
        omega
      · exact Or.inr ⟨h1, by simp only [List.length_cons]; omega⟩

theorem relax_noop (N : Net G C Ok ix nm P) {c : Nat} : ∀ (l : List (Node × Nat)) (s : Search.St Q),
    (∀ e ∈ l, Ok e.1 ∧ s.dist (ix e.1) ≤ satAdd MAX c e.2) → Search.relax C Q MAX c l s = .ok s
  | [], s, _ => rfl
  | (u, w) :: rest, s, h => by
    obtain ⟨hu, hd⟩ := h (u, w) (by simp)
    unfold Search.relax
    simp only [bind, Except.bind, N.index u hu, arrGet, if_pos (N.lt u hu)]
    rw [if_neg (by simp only at hd; omega)]
    exact relax_noop N rest s (fun e he => h e (by simp [he]))

theorem satAdd_mono {MAX a b w : Nat} (h : a ≤ b) : satAdd MAX a w ≤ satAdd MAX b w := by unfold satAdd; omega

/-- The number of edges into some nodes. -/
def inCount (P : Node → List (Node × Nat)) (X : List Node) : Nat := (X.map fun v => (P v).length).sum

theorem loop_inv (N : Net G C Ok ix nm P) (hS : ∀ v ∈ S, Ok v) {cands : List (Node × Nat)}
    (hstop : ∀ u, Ok u → ((cands.any fun c => c.1 == u) = true ↔ stop u)) {K : Nat}
    (hK : ∀ X : List Node, X.Nodup → (∀ u ∈ X, Ok u) → S.length + inCount P X ≤ K) :
    ∀ (fuel pops m k : Nat) (X : List Node) (s : Search.St Q), CInv Ok ix nm P L MAX stop S m X (fun _ => False) k s → k + pops = S.length + inCount P X →
      K < fuel + pops →
      (∃ s' m' k' X', Search.loop G C Q MAX cands fuel s = .ok s' ∧ CInv Ok ix nm P L MAX stop S m' X' (fun _ => False) k' s' ∧ L.elems s'.heap = []) ∨
      (Search.loop G C Q MAX cands fuel s = .error .capacity ∧ HEAP_MAX < K)
  | 0, pops, m, k, X, s, hI, hp, hf => by
    have := hK X hI.nodup (fun u hu => (hI.xok u hu).1)
    omega
  | fuel + 1, pops, m, k, X, s, hI, hp, hf => by
    unfold Search.loop
    cases hq : Q.pop s.heap with
    | none => exact Or.inl ⟨s, m, k, X, rfl, hI, L.pop_none _ hq⟩
    | some e =>
      obtain ⟨⟨c, i⟩, h'⟩ := e
      obtain ⟨hperm, hmin⟩ := L.pop_some _ _ _ hq
      have hlen := hperm.length_eq
      have hcnt := hI.count
      simp only [List.length_cons] at hlen
      have hKX := hK X hI.nodup (fun u hu => (hI.xok u hu).1)
      obtain ⟨u, hu, hiu, hdu, hcM, hmc⟩ := hI.entry (c, i) (hperm.mem_iff.mpr (by simp))
      simp only at hiu hdu hcM hmc
      subst hiu
      simp only [N.ofId u hu, bind, Except.bind]
      have hsub : ∀ e ∈ L.elems h', e ∈ L.elems s.heap := fun e he => hperm.mem_iff.mpr (by simp [he])
      have hentry : ∀ e ∈ L.elems h', ∃ u, Ok u ∧ e.2 = nm u ∧ s.dist (ix u) ≤ e.1 ∧ e.1 < MAX ∧ c ≤ e.1 := by
        intro e he
        obtain ⟨x, h1, h2, h3, h4, -⟩ := hI.entry e (hsub e he)
        exact ⟨x, h1, h2, h3, h4, hmin e (hsub e he)⟩
      have hxok : ∀ x ∈ X, Ok x ∧ ¬ stop x ∧ s.dist (ix x) ≤ c := fun x hx =>
        ⟨(hI.xok x hx).1, (hI.xok x hx).2.1, Nat.le_trans (hI.xok x hx).2.2 hmc⟩
      have htodo : ∀ x, Ok x → s.dist (ix x) < MAX → x ∈ X ∨ stop x ∨ (s.dist (ix x), nm x) ∈ L.elems h' ∨ x = u := by
        intro x hx hd
        rcases hI.todo x hx hd with h | h | h | h
        · exact Or.inl h
        · exact Or.inr (Or.inl h)
        · exact h.elim
        · rcases List.mem_cons.mp (hperm.mem_iff.mp h) with h | h
          · exact Or.inr (Or.inr (Or.inr (nm_inj N hx hu (Prod.ext_iff.mp h).2)))
          · exact Or.inr (Or.inr (Or.inl h))
      by_cases hst : stop u
      · rw [if_pos ((hstop u hu).mpr hst)]
        refine loop_inv N hS hstop hK fuel (pops + 1) c (k - 1) X _ ?_ (by omega) (by omega)
        refine ⟨hI.le, hI.ach, hentry, ?_, hxok, hI.nodup, hI.req, hI.seeds, by simp only; omega⟩
        intro x hx hd
        rcases htodo x hx hd with h | h | h | h
        · exact Or.inl h
        · exact Or.inr (Or.inl h)
        · exact Or.inr (Or.inr (Or.inr h))
        · exact Or.inr (Or.inl (h ▸ hst))
      · rw [if_neg (fun h => hst ((hstop u hu).mp h)), N.pred u hu]
        simp only
        by_cases hX : u ∈ X
        · rw [relax_noop N (P u) ⟨s.dist, h'⟩ (fun e he => ⟨N.closed u hu e he, Nat.le_trans (hI.req u hX e he) (satAdd_mono (hxok u hX).2.2)⟩)]
          simp only
          refine loop_inv N hS hstop hK fuel (pops + 1) c (k - 1) X _ ?_ (by omega) (by omega)
          refine ⟨hI.le, hI.ach, hentry, ?_, hxok, hI.nodup, hI.req, hI.seeds, by simp only; omega⟩
          intro x hx hd
          rcases htodo x hx hd with h | h | h | h
          · exact Or.inl h
          · exact Or.inr (Or.inl h)
          · exact Or.inr (Or.inr (Or.inr h))
          · exact Or.inl (h ▸ hX)
        · have hcu : s.dist (ix u) = c := by
            rcases hI.todo u hu (by omega) with h | h | h | h
            · exact absurd h hX
            · exact absurd h hst
            · exact h.elim
            · have := hmin _ h
              simp only at this
              omega
          have hmid : CInv Ok ix nm P L MAX stop S c X (fun x => x = u) (k - 1) ⟨s.dist, h'⟩ := by
            refine ⟨hI.le, hI.ach, hentry, ?_, hxok, hI.nodup, hI.req, hI.seeds, by simp only; omega⟩
            intro x hx hd
            rcases htodo x hx hd with h | h | h | h
            · exact Or.inl h
            · exact Or.inr (Or.inl h)
            · exact Or.inr (Or.inr (Or.inr h))
            · exact Or.inr (Or.inr (Or.inl h))
          have hcount : inCount P (u :: X) = (P u).length + inCount P X := by simp [inCount]
          have hnd : (u :: X).Nodup := List.nodup_cons.mpr ⟨hX, hI.nodup⟩
          have hK' := hK (u :: X) hnd (by
            intro x hx
            rcases List.mem_cons.mp hx with rfl | hx
            · exact hu
            · exact (hI.xok x hx).1)
          rcases relax_inv N hS hu hst hcM (Nat.le_refl c) (P u) [] (k - 1) ⟨s.dist, h'⟩ (fun _ h => h) (by simp) hcu hmid (by simp) with
            ⟨s', h1, h2, h3, h4⟩ | ⟨h1, h2⟩
          · rw [h1]
            simp only
            refine loop_inv N hS hstop hK fuel (pops + 1) c (k - 1 + (P u).length) (u :: X) s' ?_ (by omega) (by omega)
            refine ⟨h2.le, h2.ach, h2.entry, ?_, ?_, hnd, ?_, h2.seeds, h2.count⟩
            · intro x hx hd
              rcases h2.todo x hx hd with h | h | h | h
              · exact Or.inl (by simp [h])
              · exact Or.inr (Or.inl h)
              · exact Or.inl (by simp [h])
              · exact Or.inr (Or.inr (Or.inr h))
            · intro x hx
              rcases List.mem_cons.mp hx with rfl | hx
              · exact ⟨hu, hst, by omega⟩
              · exact h2.xok x hx
            · intro x hx e he
              rcases List.mem_cons.mp hx with rfl | hx
              · rw [h3]
                exact h4 e (by simpa using he)
              · exact h2.req x hx e he
          · rw [h1]
            exact Or.inr ⟨rfl, by omega⟩

/-- The initial state, after the nodes to be checked have been entered. -/
theorem seeds_inv (N : Net G C Ok ix nm P) (hM : 0 < MAX) : ∀ (T : List Node) (S₀ : List Node) (s : Search.St Q),
    (∀ v ∈ S₀, Ok v) → (∀ v ∈ T, Ok v) → CInv Ok ix nm P L MAX stop S₀ 0 [] (fun _ => False) S₀.length s →
    (∃ s', Search.seeds C Q T s = .ok s' ∧ CInv Ok ix nm P L MAX stop (S₀ ++ T) 0 [] (fun _ => False) (S₀ ++ T).length s') ∨
    (Search.seeds C Q T s = .error .capacity ∧ HEAP_MAX < (S₀ ++ T).length)
  | [], S₀, s, _, _, hI => Or.inl ⟨s, rfl, by simpa using hI⟩
  | v :: T, S₀, s, h0, hT, hI => by
    have hv := hT v (by simp)
    unfold Search.seeds
    simp only [bind, Except.bind, N.index v hv, arrSet, if_pos (N.lt v hv), N.id v hv, Search.St.push]
    by_cases hfull : (L.elems s.heap).length < HEAP_MAX
    · obtain ⟨h', hp, hperm⟩ := L.push_ok s.heap (0, nm v) hfull
      rw [hp]
      simp only
      have hdist : ∀ x, Ok x → (if ix x = ix v then 0 else s.dist (ix x)) = if x = v then 0 else s.dist (ix x) := by
        intro x hx
        by_cases hxu : x = v
        · subst hxu; simp
        · rw [if_neg hxu, if_neg (fun h => hxu (N.inj x v hx hv h))]
      have hI' : CInv Ok ix nm P L MAX stop (S₀ ++ [v]) 0 [] (fun _ => False) (S₀ ++ [v]).length
          ⟨fun i => if i = ix v then 0 else s.dist i, h'⟩ := by
        refine ⟨?_, ?_, ?_, ?_, by simp, List.nodup_nil, by simp, ?_, ?_⟩
        · intro x hx
          simp only
          split
          · omega
          · exact hI.le x hx
        · intro x hx h
          simp only at h ⊢
          rw [hdist x hx] at h ⊢
          by_cases hxu : x = v
          · subst hxu
            rw [if_pos rfl]
            exact ⟨[x], x, Trip.here x, by simp⟩
          · rw [if_neg hxu] at h ⊢
            obtain ⟨p, t, ht, hS⟩ := hI.ach x hx h
            exact ⟨p, t, ht, by simp [hS]⟩
        · intro e he
          simp only at he ⊢
          rcases List.mem_cons.mp (hperm.mem_iff.mp he) with rfl | he
          · exact ⟨v, hv, rfl, by simp, hM, Nat.zero_le _⟩
          · obtain ⟨x, hx, h1, h2, h3, h4⟩ := hI.entry e he
            refine ⟨x, hx, h1, ?_, h3, h4⟩
            rw [hdist x hx]
            split
            · exact Nat.zero_le _
            · exact h2
        · intro x hx h
          simp only at h ⊢
          rw [hdist x hx] at h ⊢
          by_cases hxu : x = v
          · subst hxu
            rw [if_pos rfl]
            exact Or.inr (Or.inr (Or.inr (hperm.mem_iff.mpr (by simp))))
          · rw [if_neg hxu] at h ⊢
            rcases hI.todo x hx h with h | h | h | h
            · cases h
            · exact Or.inr (Or.inl h)
            · exact h.elim
            · exact Or.inr (Or.inr (Or.inr (hperm.mem_iff.mpr (by simp [h]))))
        · intro x hx
          simp only
          rcases List.mem_append.mp hx with h | h
          · rw [hdist x (h0 x h)]
            split
            · rfl
            · exact hI.seeds x h
          · rw [List.mem_singleton.mp h, if_pos rfl]
        · rw [hperm.length_eq]
          have := hI.count
          simp only [List.length_cons, List.length_append, List.length_nil]
          omega
      have := seeds_inv N hM T (S₀ ++ [v]) _ (by
        intro x hx
        rcases List.mem_append.mp hx with h | h
        · exact h0 x h
        · rw [List.mem_singleton.mp h]; exact hv) (fun x hx => hT x (by simp [hx])) hI'
      simpa using this
    · rw [L.push_full _ _ (by omega)]
      refine Or.inr ⟨rfl, ?_⟩
      have := hI.count
      simp only [List.length_cons, List.length_append]
      omega

/-- What the distances are in the end. -/
theorem final_dist {m k : Nat} {X : List Node} {s : Search.St Q} (N : Net G C Ok ix nm P)
    (hI : CInv Ok ix nm P L MAX stop S m X (fun _ => False) k s) (he : L.elems s.heap = []) :
    (∀ u, Ok u → s.dist (ix u) < MAX → ∃ p v, Trip (into P stop) u p (s.dist (ix u)) v ∧ v ∈ S) ∧
    ∀ u p c v, Trip (into P stop) u p c v → Ok v → v ∈ S → s.dist (ix u) ≤ c := by
  refine ⟨hI.ach, ?_⟩
  intro u p c v ht hv hS
  suffices h : Ok u ∧ s.dist (ix u) ≤ c from h.2
  induction ht with
  | here u => exact ⟨hv, by rw [hI.seeds u hS]⟩
  | @step u x v w c p hE _ ih =>
    obtain ⟨hx, hd⟩ := ih hv hS
    obtain ⟨hns, hm⟩ := hE
    have hu := N.closed x hx _ hm
    refine ⟨hu, ?_⟩
    by_cases hlt : s.dist (ix x) < MAX
    · have hX : x ∈ X := by
        rcases hI.todo x hx hlt with h | h | h | h
        · exact h
        · exact absurd h hns
        · exact h.elim
        · rw [he] at h; cases h
      have := hI.req x hX _ hm
      simp only at this
      unfold satAdd at this
      omega
    · have := hI.le u hu
      omega

end Verif.Proof.OldS
