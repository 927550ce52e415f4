import Verif.Spec.OldSolver
import Mathlib.Data.List.Nodup
import Mathlib.Data.List.Perm.Subperm
/-! The main loop of the former solver. -/
namespace Verif.Proof.OldD
open Verif Verif.Old Verif.Old.Dijkstra Verif.Spec

variable {α ι : Type} {G : Graph α} {C : Coding α ι} {Q : Queue ι} {MAX : Nat} {goals : List α}
  {goal0 start : α} {Node : α → Prop}

/-- The value of a call that does not panic. -/
def val {β : Type} (d : β) : R β → β
  | .ok b => b
  | .error _ => d

/-- Index of a node. -/
def ix (C : Coding α ι) (u : α) : Nat := val 0 (C.index u)
/-- Distance of a node from the first goal. -/
def far (G : Graph α) (goal0 u : α) : Nat := val 0 (G.distance u goal0)
/-- Edges out of a node. -/
def out (G : Graph α) (u : α) : List (α × Nat) := val [] (G.successors u)

section
variable (S : Sound G C MAX goal0 Node)
include S

theorem ix_eq {u : α} (h : Node u) : C.index u = .ok (ix C u) ∧ ix C u < NODE_MAX := by
  obtain ⟨i, h1, h2⟩ := S.index u h
  simp only [ix, h1, val]
  exact ⟨trivial, h2⟩

theorem ix_inj {u v : α} (hu : Node u) (hv : Node v) (h : ix C u = ix C v) : u = v :=
  S.inj u v hu hv (by rw [(ix_eq S hu).1, (ix_eq S hv).1, h])

theorem far_eq {u : α} (h : Node u) : G.distance u goal0 = .ok (far G goal0 u) ∧ far G goal0 u ≤ MAX := by
  obtain ⟨i, h1, h2⟩ := S.dist u h
  simp only [far, h1, val]
  exact ⟨trivial, h2⟩

theorem out_eq {u : α} (h : Node u) :
    G.successors u = .ok (out G u) ∧ (out G u).length ≤ EDGE_MAX ∧ ∀ e ∈ out G u, Node e.1 := by
  obtain ⟨i, h1, h2, h3⟩ := S.succ u h
  simp only [out, h1, val]
  exact ⟨trivial, h2, h3⟩

theorem charged_iff {u : α} (h : Node u) {w : Nat} {v : α} :
    charged G goal0 u w v ↔ ∃ e, (v, e) ∈ out G u ∧ w = e + far G goal0 v := by
  obtain ⟨h1, -, h3⟩ := out_eq S h
  constructor
  · rintro ⟨e, d, ⟨l, hl, hm⟩, hd, rfl⟩
    rw [h1] at hl
    cases hl
    refine ⟨e, hm, ?_⟩
    rw [(far_eq S (h3 _ hm)).1] at hd
    cases hd
    rfl
  · rintro ⟨e, hm, rfl⟩
    exact ⟨e, _, ⟨_, h1, hm⟩, (far_eq S (h3 _ hm)).1, rfl⟩

theorem charged_node {u : α} (h : Node u) {w : Nat} {v : α} (hc : charged G goal0 u w v) : Node v := by
  obtain ⟨e, hm, -⟩ := (charged_iff S h).mp hc
  exact (out_eq S h).2.2 _ hm

end

/-- The identifier `i` stands for the node `u`. -/
def Names (C : Coding α ι) (i : ι) (u : α) : Prop := C.id u = .ok i ∧ C.ofId i = .ok u

theorem Names.eq {i : ι} {u v : α} (h : Names C i u) (h' : Names C i v) : u = v := by
  have := h.2; rw [h'.2] at this; cases this; rfl

theorem Names.id_eq {i j : ι} {u : α} (h : Names C i u) (h' : Names C j u) : i = j := by
  have := h.1; rw [h'.1] at this; cases this; rfl

/-- Every node but the start was first expanded after its predecessor (latest first). -/
def Tree (C : Coding α ι) (prev : Nat → Option ι) (start : α) : List α → Prop
  | [] => True
  | v :: X => Tree C prev start X ∧ (v = start ∨ ∃ u ∈ X, ∃ i, Names C i u ∧ prev (ix C v) = some i)

theorem Tree.congr {prev prev' : Nat → Option ι} : ∀ {X : List α},
    (∀ v ∈ X, prev' (ix C v) = prev (ix C v)) → Tree C prev start X → Tree C prev' start X
  | [], _, _ => trivial
  | v :: X, h, ⟨h1, h2⟩ => ⟨Tree.congr (fun u hu => h u (by simp [hu])) h1, by rw [h v (by simp)]; exact h2⟩

/-- The invariant of the main loop: `m` is the last cost popped, `X` the nodes expanded so far (latest first), `Req`
the edges relaxed so far. -/
structure Inv (G : Graph α) (C : Coding α ι) (L : QueueLaws Q HEAP_MAX) (MAX : Nat) (goals : List α) (goal0 start : α)
    (Node : α → Prop) (m : Nat) (X : List α) (Req : Edges α) (s : St Q) : Prop where
  D0 : s.dist (ix C start) = far G goal0 start
  P0 : s.prev (ix C start) = none
  m0 : far G goal0 start ≤ m
  le_max : ∀ v, Node v → s.dist (ix C v) ≤ MAX
  none_max : ∀ v, Node v → v ≠ start → s.prev (ix C v) = none → s.dist (ix C v) = MAX
  par : ∀ v, Node v → v ≠ start → ∀ i, s.prev (ix C v) = some i → ∃ u ∈ X, Names C i u ∧
    (∃ w, charged G goal0 u w v ∧ s.dist (ix C v) = s.dist (ix C u) + w) ∧ s.dist (ix C v) < MAX
  xnode : ∀ u ∈ X, Node u
  nodup : X.Nodup
  xm : ∀ u ∈ X, s.dist (ix C u) ≤ m
  xgoal : ∀ u ∈ X, u ∉ goals
  tree : Tree C s.prev start X
  ent : ∀ e ∈ L.elems s.heap, ∃ v, Node v ∧ Names C e.2 v ∧ s.dist (ix C v) ≤ e.1 ∧ m ≤ e.1 ∧ (v = start ∨ e.1 < MAX)
  cntX : ∀ v ∈ X, ∀ i, Names C i v → (s.dist (ix C v), i) ∉ L.elems s.heap
  enodup : (L.elems s.heap).Nodup
  pend : ∀ v, Node v → v ∉ X → (v = start ∨ s.dist (ix C v) < MAX) → ∀ i, Names C i v →
    (s.dist (ix C v), i) ∈ L.elems s.heap
  req : ∀ u w v, Req u w v → u ∈ X ∧ Node v ∧ s.dist (ix C v) ≤ Run.satAdd MAX (s.dist (ix C u)) w

variable {L : QueueLaws Q HEAP_MAX}

/-- What the relaxation of one edge does. -/
def Relaxed (G : Graph α) (C : Coding α ι) (L : QueueLaws Q HEAP_MAX) (MAX : Nat) (goal0 : α) (c : Nat) (u : α)
    (e : α × Nat) (s s' : St Q) : Prop :=
  (s.dist (ix C e.1) ≤ Run.satAdd MAX c (e.2 + far G goal0 e.1) ∧ s' = s) ∨
  (Run.satAdd MAX c (e.2 + far G goal0 e.1) < s.dist (ix C e.1) ∧ ∃ i j, Names C i e.1 ∧ Names C j u ∧
    (L.elems s'.heap).Perm ((Run.satAdd MAX c (e.2 + far G goal0 e.1), i) :: L.elems s.heap) ∧
    s'.dist = (fun k => if k = ix C e.1 then Run.satAdd MAX c (e.2 + far G goal0 e.1) else s.dist k) ∧
    s'.prev = (fun k => if k = ix C e.1 then some j else s.prev k))

theorem Relaxed.len {c : Nat} {u : α} {e : α × Nat} {s s' : St Q} (h : Relaxed G C L MAX goal0 c u e s s') :
    (L.elems s'.heap).length ≤ (L.elems s.heap).length + 1 := by
  rcases h with ⟨-, rfl⟩ | ⟨-, i, j, -, -, hp, -⟩
  · omega
  · rw [hp.length_eq, List.length_cons]; omega

theorem names (S : Sound G C MAX goal0 Node) {u : α} (h : Node u) : ∃ i, Names C i u := S.code u h

/-- One round of `relax`. -/
theorem relax_step (S : Sound G C MAX goal0 Node) (L : QueueLaws Q HEAP_MAX) (c : Nat) (u : α) (hu : Node u)
    (e : α × Nat) (he : e ∈ out G u) (l : List (α × Nat)) (s : St Q) :
    (∃ s', Relaxed G C L MAX goal0 c u e s s' ∧ relax G C Q MAX goal0 c u (e :: l) s = relax G C Q MAX goal0 c u l s') ∨
    (HEAP_MAX ≤ (L.elems s.heap).length ∧ relax G C Q MAX goal0 c u (e :: l) s = .error .capacity) := by
  obtain ⟨v, w⟩ := e
  have hv : Node v := (out_eq S hu).2.2 _ he
  have hw : w + far G goal0 v ≤ MAX := S.fits u _ v hu ((charged_iff S hu).mpr ⟨w, he, rfl⟩)
  obtain ⟨i, hi⟩ := names S hv
  obtain ⟨j, hj⟩ := names S hu
  obtain ⟨x1, x2⟩ := ix_eq S hv
  rw [relax, (far_eq S hv).1]
  simp only [bind, Except.bind, if_neg (Nat.not_lt.mpr hw), x1, arrGet, arrSet, if_pos x2, hi.1, hj.1]
  by_cases hd : Run.satAdd MAX c (w + far G goal0 v) < s.dist (ix C v)
  · rw [if_pos hd]
    unfold St.push
    by_cases hl : (L.elems s.heap).length < HEAP_MAX
    · obtain ⟨h', h1, h2⟩ := L.push_ok s.heap (Run.satAdd MAX c (w + far G goal0 v), i) hl
      simp only [h1]
      exact Or.inl ⟨_, Or.inr ⟨hd, i, j, hi, hj, h2, rfl, rfl⟩, rfl⟩
    · rw [L.push_full s.heap _ (by omega)]
      exact Or.inr ⟨by omega, rfl⟩
  · rw [if_neg hd]
    exact Or.inl ⟨s, Or.inl ⟨Nat.not_lt.mp hd, rfl⟩, rfl⟩

theorem relaxed_inv (S : Sound G C MAX goal0 Node) (hstart : Node start) {m : Nat} {X : List α} {Req : Edges α}
    {s s' : St Q} (hI : Inv G C L MAX goals goal0 start Node m X Req s) {u : α} {e : α × Nat} (hu : u ∈ X)
    (hc : s.dist (ix C u) = m) (he : e ∈ out G u) (hr : Relaxed G C L MAX goal0 m u e s s') :
    Inv G C L MAX goals goal0 start Node m X (fun a b c => Req a b c ∨ (a = u ∧ b = e.2 + far G goal0 e.1 ∧ c = e.1)) s' ∧
    s'.dist (ix C u) = m := by
  obtain ⟨v, w⟩ := e
  have hun := hI.xnode u hu
  have hv : Node v := (out_eq S hun).2.2 _ he
  have hch : charged G goal0 u (w + far G goal0 v) v := (charged_iff S hun).mpr ⟨w, he, rfl⟩
  simp only at *
  unfold Relaxed at hr
  simp only at hr
  generalize w + far G goal0 v = k at *
  rcases hr with ⟨hd, rfl⟩ | ⟨hd, i, j, hi, hj, hp, hD, hP⟩
  · refine ⟨{ hI with req := ?_ }, hc⟩
    rintro a b c (h | ⟨rfl, rfl, rfl⟩)
    · exact hI.req a b c h
    · exact ⟨hu, hv, by rw [hc]; exact hd⟩
  · have hmax := hI.le_max v hv
    have hex : Run.satAdd MAX m k = m + k := by unfold Run.satAdd at *; omega
    rw [hex] at hd hp hD
    have hvX : v ∉ X := fun h => by have := hI.xm v h; omega
    have hvs : v ≠ start := fun h => by subst h; have := hI.D0; have := hI.m0; omega
    have hne : ∀ x, Node x → x ≠ v → ix C x ≠ ix C v := fun x hx hxv h => hxv (ix_inj S hx hv h)
    have hXne : ∀ x ∈ X, ix C x ≠ ix C v := fun x hx => hne x (hI.xnode x hx) (fun h => hvX (h ▸ hx))
    have hmem : ∀ e, e ∈ L.elems s'.heap ↔ e = (m + k, i) ∨ e ∈ L.elems s.heap := by
      intro e
      rw [hp.mem_iff, List.mem_cons]
    have hfresh : (m + k, i) ∉ L.elems s.heap := by
      intro h
      obtain ⟨x, hx, h1, h2, -⟩ := hI.ent _ h
      have : x = v := h1.eq hi
      subst this
      simp only at h2
      omega
    refine ⟨⟨?_, ?_, hI.m0, ?_, ?_, ?_, hI.xnode, hI.nodup, ?_, hI.xgoal, ?_, ?_, ?_, ?_, ?_, ?_⟩, ?_⟩
    · simp only [hD, if_neg (hne start hstart (Ne.symm hvs))]; exact hI.D0
    · simp only [hP, if_neg (hne start hstart (Ne.symm hvs))]; exact hI.P0
    · intro x hx
      simp only [hD]
      split
      · omega
      · exact hI.le_max x hx
    · intro x hx hxs
      simp only [hD, hP]
      split
      · intro h; cases h
      · exact hI.none_max x hx hxs
    · intro x hx hxs a
      simp only [hD, hP]
      by_cases hxv : x = v
      · subst hxv
        simp only [if_true]
        intro ha
        cases ha
        exact ⟨u, hu, hj, ⟨k, hch, by rw [if_neg (hXne u hu), hc]⟩, by omega⟩
      · simp only [if_neg (hne x hx hxv)]
        intro ha
        obtain ⟨y, hy, h1, ⟨k', h2, h3⟩, h4⟩ := hI.par x hx hxs a ha
        exact ⟨y, hy, h1, ⟨k', h2, by rw [if_neg (hXne y hy)]; exact h3⟩, h4⟩
    · intro x hx
      simp only [hD, if_neg (hXne x hx)]
      exact hI.xm x hx
    · refine Tree.congr (fun x hx => ?_) hI.tree
      simp only [hP, if_neg (hXne x hx)]
    · intro e he
      rcases (hmem e).mp he with rfl | he
      · exact ⟨v, hv, hi, by simp [hD], by simp, Or.inr (by simp only; omega)⟩
      · obtain ⟨x, hx, h1, h2, h3, h4⟩ := hI.ent e he
        refine ⟨x, hx, h1, ?_, h3, h4⟩
        simp only [hD]
        split
        · rename_i hxv
          have : x = v := ix_inj S hx hv hxv
          subst this
          omega
        · exact h2
    · intro x hx a ha
      simp only [hD, if_neg (hXne x hx)]
      rw [hmem]
      rintro (h | h)
      · have : a = i := (Prod.mk.inj h).2
        subst this
        exact hvX (ha.eq hi ▸ hx)
      · exact hI.cntX x hx a ha h
    · exact hp.nodup_iff.mpr (List.nodup_cons.mpr ⟨hfresh, hI.enodup⟩)
    · intro x hx hxX hxd a ha
      rw [hmem]
      by_cases hxv : x = v
      · subst hxv
        left
        rw [ha.id_eq hi]
        simp [hD]
      · simp only [hD, if_neg (hne x hx hxv)] at hxd ⊢
        exact Or.inr (hI.pend x hx hxX hxd a ha)
    · rintro a b c (h | ⟨rfl, rfl, rfl⟩)
      · obtain ⟨h1, h2, h3⟩ := hI.req a b c h
        refine ⟨h1, h2, ?_⟩
        simp only [hD, if_neg (hXne a h1)]
        split
        · rename_i hcv
          have : c = v := ix_inj S h2 hv hcv
          subst this
          omega
        · exact h3
      · refine ⟨hu, hv, ?_⟩
        simp only [hD, if_true, if_neg (hXne a hu), hc, hex]
        exact Nat.le_refl _
    · simp only [hD, if_neg (hXne u hu)]
      exact hc

theorem relaxAll (S : Sound G C MAX goal0 Node) (hstart : Node start) {m : Nat} {X : List α} {u : α} (hu : u ∈ X) :
    ∀ (l : List (α × Nat)) (Req : Edges α) (s : St Q), Inv G C L MAX goals goal0 start Node m X Req s →
      s.dist (ix C u) = m → (∀ e ∈ l, e ∈ out G u) →
      (∃ s', relax G C Q MAX goal0 m u l s = .ok s' ∧
        Inv G C L MAX goals goal0 start Node m X
          (fun a b c => Req a b c ∨ (a = u ∧ ∃ e, (c, e) ∈ l ∧ b = e + far G goal0 c)) s' ∧
        (L.elems s'.heap).length ≤ (L.elems s.heap).length + l.length) ∨
      (relax G C Q MAX goal0 m u l s = .error .capacity ∧ HEAP_MAX < (L.elems s.heap).length + l.length)
  | [], Req, s, hI, _, _ => by
    refine Or.inl ⟨s, rfl, { hI with req := fun a b c h => ?_ }, by simp⟩
    rcases h with h | ⟨_, e, h, _⟩
    · exact hI.req a b c h
    · cases h
  | (v, k) :: l, Req, s, hI, hc, hl => by
    have hun := hI.xnode u hu
    rcases relax_step S L m u hun (v, k) (hl _ (by simp)) l s with ⟨s', hr, hq⟩ | ⟨h1, h2⟩
    · obtain ⟨i1, i2⟩ := relaxed_inv S hstart hI hu hc (hl _ (by simp)) hr
      have hlen := hr.len
      rcases relaxAll S hstart hu l _ s' i1 i2 (fun e he => hl e (by simp [he])) with ⟨s2, e1, e2, e3⟩ | ⟨e1, e2⟩
      · refine Or.inl ⟨s2, by rw [hq, e1], { e2 with req := fun a b c h => e2.req a b c ?_ }, by
          rw [List.length_cons]; omega⟩
        rcases h with h | ⟨rfl, e, h, he⟩
        · exact Or.inl (Or.inl h)
        · rcases List.mem_cons.mp h with h | h
          · obtain ⟨rfl, rfl⟩ := Prod.mk.inj h
            exact Or.inl (Or.inr ⟨rfl, he, rfl⟩)
          · exact Or.inr ⟨rfl, e, h, he⟩
      · exact Or.inr ⟨by rw [hq, e1], by rw [List.length_cons]; omega⟩
    · exact Or.inr ⟨h2, by rw [List.length_cons]; omega⟩

/-- All edges out of `X`. -/
def AllEdges (G : Graph α) (goal0 : α) (X : List α) : Edges α := fun a b c => a ∈ X ∧ charged G goal0 a b c

theorem pop_stale {m : Nat} {X : List α} {Req : Edges α} {s : St Q}
    (hI : Inv G C L MAX goals goal0 start Node m X Req s) {c : Nat} {i : ι} {h : Q.H}
    (hpop : Q.pop s.heap = some ((c, i), h)) {v : α} (hi : Names C i v) (hst : s.dist (ix C v) < c) :
    Inv G C L MAX goals goal0 start Node m X Req { s with heap := h } := by
  obtain ⟨hp, hmin⟩ := L.pop_some _ _ _ hpop
  refine { hI with ent := ?_, cntX := ?_, enodup := ?_, pend := ?_ }
  · exact fun e he => hI.ent e (hp.mem_iff.mpr (by simp [he]))
  · exact fun x hx a ha he => hI.cntX x hx a ha (hp.mem_iff.mpr (by simp [he]))
  · exact (List.nodup_cons.mp (hp.nodup_iff.mp hI.enodup)).2
  · intro x hx hxX hlt a ha
    rcases List.mem_cons.mp (hp.mem_iff.mp (hI.pend x hx hxX hlt a ha)) with h2 | h2
    · obtain ⟨h3, h4⟩ := Prod.mk.inj h2
      subst h4
      have : x = v := ha.eq hi
      subst this
      omega
    · exact h2

theorem pop_fresh {m : Nat} {X : List α} {s : St Q}
    (hI : Inv G C L MAX goals goal0 start Node m X (AllEdges G goal0 X) s) {c : Nat} {i : ι} {h : Q.H}
    (hpop : Q.pop s.heap = some ((c, i), h)) {v : α} (hv : Node v) (hi : Names C i v)
    (hst : s.dist (ix C v) = c) (hg : v ∉ goals) :
    v ∉ X ∧ Inv G C L MAX goals goal0 start Node c (v :: X) (AllEdges G goal0 X) { s with heap := h } := by
  obtain ⟨hp, hmin⟩ := L.pop_some _ _ _ hpop
  have hmem : (c, i) ∈ L.elems s.heap := hp.mem_iff.mpr (by simp)
  have hvX : v ∉ X := fun hx => hI.cntX v hx i hi (by rw [hst]; exact hmem)
  obtain ⟨w, hw, h1, h2, h3, h4⟩ := hI.ent _ hmem
  simp only at h1 h2 h3 h4
  have hwv : w = v := h1.eq hi
  subst hwv
  have hzero := (List.nodup_cons.mp (hp.nodup_iff.mp hI.enodup))
  refine ⟨hvX, { hI with m0 := ?_, par := ?_, xnode := ?_, nodup := ?_, xm := ?_, xgoal := ?_, tree := ?_, ent := ?_, cntX := ?_, enodup := hzero.2, pend := ?_, req := ?_ }⟩
  · exact Nat.le_trans hI.m0 h3
  · intro x hx hxs j hj
    obtain ⟨u, hu, h⟩ := hI.par x hx hxs j hj
    exact ⟨u, by simp [hu], h⟩
  · intro u hu
    rcases List.mem_cons.mp hu with rfl | hu
    · exact hv
    · exact hI.xnode u hu
  · exact List.nodup_cons.mpr ⟨hvX, hI.nodup⟩
  · intro u hu
    rcases List.mem_cons.mp hu with rfl | hu
    · exact Nat.le_of_eq hst
    · exact Nat.le_trans (hI.xm u hu) h3
  · intro u hu
    rcases List.mem_cons.mp hu with rfl | hu
    · exact hg
    · exact hI.xgoal u hu
  · refine ⟨hI.tree, ?_⟩
    by_cases hvs : w = start
    · exact Or.inl hvs
    · right
      cases hpv : s.prev (ix C w) with
      | none =>
        have := hI.none_max w hv hvs hpv
        rcases h4 with h4 | h4
        · exact absurd h4 hvs
        · omega
      | some j =>
        obtain ⟨u, hu, hj, -⟩ := hI.par w hv hvs j hpv
        exact ⟨u, hu, j, hj, by simp only [hpv]⟩
  · intro e he
    have he' := hp.mem_iff.mpr (List.mem_cons_of_mem _ he)
    obtain ⟨x, hx, q1, q2, q3, q4⟩ := hI.ent e he'
    exact ⟨x, hx, q1, q2, hmin e he', q4⟩
  · intro u hu a ha he
    rcases List.mem_cons.mp hu with rfl | hu
    · rw [ha.id_eq hi] at he
      simp only [hst] at he
      exact hzero.1 he
    · exact hI.cntX u hu a ha (hp.mem_iff.mpr (List.mem_cons_of_mem _ he))
  · intro x hx hxX hlt a ha
    have hw1 : x ≠ w := fun h => hxX (by simp [h])
    have hw2 : x ∉ X := fun h => hxX (by simp [h])
    rcases List.mem_cons.mp (hp.mem_iff.mp (hI.pend x hx hw2 hlt a ha)) with h2 | h2
    · obtain ⟨-, h4⟩ := Prod.mk.inj h2
      subst h4
      exact absurd (ha.eq hi) hw1
    · exact h2
  · intro a b d hab
    obtain ⟨q1, q2, q3⟩ := hI.req a b d hab
    exact ⟨by simp [q1], q2, q3⟩

/-- How the main loop ends. -/
def Ends (G : Graph α) (C : Coding α ι) (L : QueueLaws Q HEAP_MAX) (MAX : Nat) (goals : List α) (goal0 start : α)
    (Node : α → Prop) (r : Option α) (s' : St Q) : Prop :=
  ∃ m X s, Inv G C L MAX goals goal0 start Node m X (AllEdges G goal0 X) s ∧ s.dist = s'.dist ∧ s.prev = s'.prev ∧
    match r with
    | none => L.elems s.heap = []
    | some g => Node g ∧ g ∈ goals ∧ (g = start ∨ s.dist (ix C g) < MAX) ∧
        ∀ e ∈ L.elems s.heap, s.dist (ix C g) ≤ e.1

/-- Number of edges out of the nodes of a list. -/
def degs (G : Graph α) (X : List α) : Nat := (X.map fun u => (out G u).length).sum

theorem length_le (S : Sound G C MAX goal0 Node) {X : List α} (h : X.Nodup) (hX : ∀ u ∈ X, Node u) :
    X.length ≤ NODE_MAX := by
  have h1 : (X.map (ix C)).Nodup := by
    refine List.Nodup.map_on ?_ h
    intro a ha b hb hab
    exact ix_inj S (hX a ha) (hX b hb) hab
  have h2 : (X.map (ix C)) ⊆ List.range NODE_MAX := by
    intro i hi
    obtain ⟨u, hu, rfl⟩ := List.mem_map.mp hi
    exact List.mem_range.mpr (ix_eq S (hX u hu)).2
  have h3 := (List.Nodup.subperm h1 h2).length_le
  simpa using h3

theorem mainLoop_spec [DecidableEq α] (S : Sound G C MAX goal0 Node) (hstart : Node start) :
    ∀ (fuel m : Nat) (X : List α) (s : St Q),
      Inv G C L MAX goals goal0 start Node m X (AllEdges G goal0 X) s →
      (L.elems s.heap).length + EDGE_MAX * (NODE_MAX - X.length) < fuel →
      (L.elems s.heap).length ≤ 1 + degs G X →
      (∃ r s', mainLoop G C Q MAX goals goal0 fuel s = .ok (r, s') ∧ Ends G C L MAX goals goal0 start Node r s') ∨
      (mainLoop G C Q MAX goals goal0 fuel s = .error .capacity ∧
        ∃ Y : List α, Y.Nodup ∧ (∀ u ∈ Y, Node u) ∧ HEAP_MAX ≤ degs G Y)
  | 0, _, _, _, _, h, _ => by omega
  | fuel + 1, m, X, s, hI, hf, hz => by
    unfold mainLoop
    cases hpop : Q.pop s.heap with
    | none => exact Or.inl ⟨none, s, rfl, m, X, s, hI, rfl, rfl, L.pop_none _ hpop⟩
    | some p =>
      obtain ⟨⟨c, i⟩, h⟩ := p
      obtain ⟨hp, hmin⟩ := L.pop_some _ _ _ hpop
      have hlen := hp.length_eq
      rw [List.length_cons] at hlen
      obtain ⟨v, hv, h1, h2, h3, h4⟩ := hI.ent (c, i) (hp.mem_iff.mpr (by simp))
      simp only at h1 h2 h3 h4
      obtain ⟨x1, x2⟩ := ix_eq S hv
      simp only [h1.2, x1, arrGet, if_pos x2, bind, Except.bind]
      by_cases hst : s.dist (ix C v) < c
      · rw [if_pos hst]
        exact mainLoop_spec S hstart fuel m X _ (pop_stale hI hpop h1 hst) (by simp only; omega) (by simp only; omega)
      · rw [if_neg hst]
        have hst' : s.dist (ix C v) = c := by omega
        by_cases hg : v ∈ goals
        · rw [if_pos hg]
          refine Or.inl ⟨_, _, rfl, m, X, s, hI, rfl, rfl, hv, hg, ?_, ?_⟩
          · rcases h4 with h4 | h4
            · exact Or.inl h4
            · exact Or.inr (by omega)
          · intro e he
            rw [hst']
            exact hmin e he
        · rw [if_neg hg]
          obtain ⟨o1, o2, o3⟩ := out_eq S hv
          simp only [o1]
          obtain ⟨hvX, hI1⟩ := pop_fresh hI hpop hv h1 hst' hg
          have hnd := hI1.nodup
          have hdeg : degs G (v :: X) = (out G v).length + degs G X := by simp [degs]
          rcases relaxAll S hstart (by simp) (out G v) _ _ hI1 hst' (fun e he => he) with ⟨s2, e1, e2, e3⟩ | ⟨e1, e2⟩
          · simp only [e1]
            have hI3 : Inv G C L MAX goals goal0 start Node c (v :: X) (AllEdges G goal0 (v :: X)) s2 := by
              refine { e2 with req := fun a b d hab => e2.req a b d ?_ }
              obtain ⟨ha, hab⟩ := hab
              rcases List.mem_cons.mp ha with rfl | ha
              · right
                obtain ⟨e, he, rfl⟩ := (charged_iff S hv).mp hab
                exact ⟨rfl, e, he, rfl⟩
              · exact Or.inl ⟨ha, hab⟩
            have hXN := length_le S hI3.nodup hI3.xnode
            rw [List.length_cons] at hXN
            have hsub : EDGE_MAX * (NODE_MAX - X.length) = EDGE_MAX * (NODE_MAX - (X.length + 1)) + EDGE_MAX := by
              rw [show NODE_MAX - X.length = (NODE_MAX - (X.length + 1)) + 1 by omega, Nat.mul_add, Nat.mul_one]
            simp only at e3
            exact mainLoop_spec S hstart fuel c (v :: X) s2 hI3 (by rw [List.length_cons]; omega) (by omega)
          · simp only [e1]
            simp only at e2
            exact Or.inr ⟨trivial, v :: X, hI1.nodup, hI1.xnode, by omega⟩

end Verif.Proof.OldD
