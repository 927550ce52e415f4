import Verif.Proof.RunTraj
import Verif.Spec.Heap
/-! The main loop of the run planner. -/
namespace Verif.Proof
open Verif Verif.Run Verif.Spec

variable {W MAX : Nat} {isWall : Search.Coord → Bool} {isGoal : Node → Bool} {cost : EdgeKind → Nat} {ops : HeapOps}

/-- Identifier of a node. -/
def nid (W : Nat) (n : Node) : Nat := 2 * slotOf W n + 1

theorem idIndex_nid (W : Nat) (n : Node) : idIndex (nid W n) = slotOf W n := by
  unfold idIndex nid; rw [Nat.shiftRight_eq_div_pow]; omega

theorem nid_inj (hW : Supported W) {n m : Node} (hn : Legal W n) (hm : Legal W m) (h : nid W n = nid W m) : n = m :=
  slotOf_inj W hW n m hn hm (by unfold nid at h; omega)

theorem slot_lt (hW : Supported W) {n : Node} (hn : Legal W n) : slotOf W n < QUE_MAX :=
  Nat.lt_of_lt_of_le (slotOf_lt W n hn) (slots_le W hW)

/-- What the relaxation of one edge does. -/
def relaxOne (W MAX : Nat) (ops : HeapOps) (cost : EdgeKind → Nat) (c : Nat) (u : Node) (e : Node × EdgeKind)
    (s : St ops) : St ops :=
  if s.dist (slotOf W e.1) ≤ satAdd MAX c (cost e.2) then s
  else
    let s' := s.push (satAdd MAX c (cost e.2), nid W e.1)
    { s' with
      dist := fun j => if j = slotOf W e.1 then satAdd MAX c (cost e.2) else s'.dist j
      prev := fun j => if j = slotOf W e.1 then some (nid W u) else s'.prev j }

theorem push_dist (s : St ops) (e : Nat × Nat) : (s.push e).dist = s.dist ∧ (s.push e).prev = s.prev := by
  unfold St.push; split <;> exact ⟨rfl, rfl⟩

theorem relax_eq (hW : Supported W) (c : Nat) (u : Node) :
    ∀ (l : List (Node × EdgeKind)) (s : St ops), (∀ e ∈ l, Legal W e.1) →
      relax W MAX ops cost c (nid W u) l s = .ok (l.foldl (fun s e => relaxOne W MAX ops cost c u e s) s)
  | [], s, _ => rfl
  | (v, k) :: l, s, h => by
    have hv : Legal W v := h (v, k) (by simp)
    have hs := slot_lt hW hv
    have ih := relax_eq hW c u l
    unfold relax
    rw [toId_eq W hW v hv]
    show (do
      let d ← arrGet QUE_MAX s.dist (idIndex (nid W v))
      if d ≤ satAdd MAX c (cost k) then relax W MAX ops cost c (nid W u) l s
      else do
        let dist ← arrSet QUE_MAX (s.push (satAdd MAX c (cost k), nid W v)).dist (idIndex (nid W v)) (satAdd MAX c (cost k))
        let prev ← arrSet QUE_MAX (s.push (satAdd MAX c (cost k), nid W v)).prev (idIndex (nid W v)) (some (nid W u))
        relax W MAX ops cost c (nid W u) l
          { s.push (satAdd MAX c (cost k), nid W v) with dist := dist, prev := prev }) = _
    rw [idIndex_nid]
    unfold arrGet arrSet
    simp only [if_pos hs, bind, Except.bind]
    rw [List.foldl_cons]
    by_cases hd : s.dist (slotOf W v) ≤ satAdd MAX c (cost k)
    · rw [if_pos hd, ih s (fun e he => h e (by simp [he]))]
      congr 2
      unfold relaxOne
      simp only [if_pos hd]
    · rw [if_neg hd, ih _ (fun e he => h e (by simp [he]))]
      congr 2
      unfold relaxOne
      simp only [if_neg hd]


/-- Every node but the start was first expanded after its predecessor (latest first). -/
def Tree (W : Nat) (prev : Nat → Option Nat) (start : Node) : List Node → Prop
  | [] => True
  | v :: X => Tree W prev start X ∧ (v = start ∨ ∃ u ∈ X, prev (slotOf W v) = some (nid W u))

theorem Tree.congr {prev prev' : Nat → Option Nat} {start : Node} : ∀ {X : List Node},
    (∀ v ∈ X, prev' (slotOf W v) = prev (slotOf W v)) → Tree W prev start X → Tree W prev' start X
  | [], _, _ => trivial
  | v :: X, h, ⟨h1, h2⟩ => ⟨Tree.congr (fun u hu => h u (by simp [hu])) h1, by rw [h v (by simp)]; exact h2⟩

/-- The invariant of the main loop: `m` is the last cost popped, `X` the nodes expanded so far (latest first), `Req`
the edges relaxed so far. -/
structure Inv (L : HeapLaws ops QUE_MAX) (W MAX : Nat) (isWall : Search.Coord → Bool) (isGoal : Node → Bool)
    (cost : EdgeKind → Nat) (start : Node) (m : Nat) (X : List Node) (Req : Node → EdgeKind → Node → Prop)
    (s : St ops) : Prop where
  D0 : s.dist (slotOf W start) = 0
  P0 : s.prev (slotOf W start) = some (nid W start)
  le_max : ∀ v, Legal W v → s.dist (slotOf W v) ≤ MAX
  none_max : ∀ v, Legal W v → s.prev (slotOf W v) = none → s.dist (slotOf W v) = MAX
  par : ∀ v, Legal W v → v ≠ start → ∀ i, s.prev (slotOf W v) = some i → ∃ u ∈ X, i = nid W u ∧
    (∃ k, Drivable W isWall u k v ∧ s.dist (slotOf W v) = s.dist (slotOf W u) + cost k) ∧ s.dist (slotOf W v) < MAX
  xlegal : ∀ u ∈ X, Legal W u
  nodup : X.Nodup
  xm : ∀ u ∈ X, s.dist (slotOf W u) ≤ m
  xgoal : ∀ u ∈ X, isGoal u = false
  tree : Tree W s.prev start X
  ent : ∀ e ∈ L.elems s.heap, ∃ v, Legal W v ∧ e.2 = nid W v ∧ s.dist (slotOf W v) ≤ e.1 ∧ m ≤ e.1 ∧ e.1 < MAX
  cntX : ∀ v ∈ X, (s.dist (slotOf W v), nid W v) ∉ L.elems s.heap
  cnt : ∀ v, Legal W v → (L.elems s.heap).count (s.dist (slotOf W v), nid W v) ≤ 1
  pend : s.dropped = false → ∀ v, Legal W v → v ∉ X → s.dist (slotOf W v) < MAX →
    (s.dist (slotOf W v), nid W v) ∈ L.elems s.heap
  req : ∀ u k v, Req u k v → u ∈ X ∧ Legal W v ∧ s.dist (slotOf W v) ≤ satAdd MAX (s.dist (slotOf W u)) (cost k)

variable {L : HeapLaws ops QUE_MAX} {start : Node}

theorem push_cases (L : HeapLaws ops QUE_MAX) (s : St ops) (e : Nat × Nat) :
    ((L.elems (s.push e).heap).Perm (e :: L.elems s.heap) ∧ (s.push e).dropped = s.dropped) ∨
    (QUE_MAX ≤ (L.elems s.heap).length ∧ (s.push e).heap = s.heap ∧ (s.push e).dropped = true) := by
  unfold St.push
  by_cases h : (L.elems s.heap).length < QUE_MAX
  · obtain ⟨h', h1, h2⟩ := L.push_ok s.heap e h
    rw [h1]
    exact Or.inl ⟨h2, rfl⟩
  · rw [L.push_full s.heap e (by omega)]
    exact Or.inr ⟨by omega, rfl, rfl⟩

theorem relaxOne_inv (hW : Supported W) {m : Nat} {X : List Node} {Req : Node → EdgeKind → Node → Prop} {s : St ops}
    (hI : Inv L W MAX isWall isGoal cost start m X Req s) (hstart : Legal W start) (u v : Node) (k : EdgeKind)
    (hu : u ∈ X) (hc : s.dist (slotOf W u) = m) (hv : Drivable W isWall u k v) :
    Inv L W MAX isWall isGoal cost start m X (fun a b c => Req a b c ∨ (a = u ∧ b = k ∧ c = v))
      (relaxOne W MAX ops cost m u (v, k) s) ∧
    (relaxOne W MAX ops cost m u (v, k) s).dist (slotOf W u) = m := by
  have hvl : Legal W v := drivable_legal (hI.xlegal u hu) k v hv
  unfold relaxOne
  simp only
  by_cases hd : s.dist (slotOf W v) ≤ satAdd MAX m (cost k)
  · rw [if_pos hd]
    refine ⟨{ hI with req := ?_ }, hc⟩
    rintro a b c (h | ⟨rfl, rfl, rfl⟩)
    · exact hI.req a b c h
    · exact ⟨hu, hvl, by rw [hc]; exact hd⟩
  · rw [if_neg hd]
    have hmax := hI.le_max v hvl
    have hex : satAdd MAX m (cost k) = m + cost k := by unfold satAdd at *; omega
    have hlt : m + cost k < s.dist (slotOf W v) := by omega
    have hvX : v ∉ X := fun h => by have := hI.xm v h; omega
    have hvs : v ≠ start := fun h => by subst h; have := hI.D0; omega
    have hne : ∀ w, Legal W w → w ≠ v → slotOf W w ≠ slotOf W v := fun w hw hwv h =>
      hwv (slotOf_inj W hW w v hw hvl h)
    have hXne : ∀ w ∈ X, slotOf W w ≠ slotOf W v := fun w hw => hne w (hI.xlegal w hw) (fun h => hvX (h ▸ hw))
    rw [hex]
    obtain ⟨pd, pp⟩ := push_dist s (m + cost k, nid W v)
    -- entries of the new heap
    have hmem : ∀ e, e ∈ L.elems (s.push (m + cost k, nid W v)).heap → e = (m + cost k, nid W v) ∨ e ∈ L.elems s.heap := by
      intro e he
      rcases push_cases L s (m + cost k, nid W v) with ⟨hp, _⟩ | ⟨_, hh, _⟩
      · have := hp.mem_iff.mp he
        simpa using this
      · rw [hh] at he; exact Or.inr he
    have hmem' : ∀ e, e ∈ L.elems s.heap → e ∈ L.elems (s.push (m + cost k, nid W v)).heap := by
      intro e he
      rcases push_cases L s (m + cost k, nid W v) with ⟨hp, _⟩ | ⟨_, hh, _⟩
      · exact hp.mem_iff.mpr (by simp [he])
      · rw [hh]; exact he
    have hcount : ∀ e, e ≠ (m + cost k, nid W v) →
        (L.elems (s.push (m + cost k, nid W v)).heap).count e = (L.elems s.heap).count e := by
      intro e he
      rcases push_cases L s (m + cost k, nid W v) with ⟨hp, _⟩ | ⟨_, hh, _⟩
      · rw [hp.count_eq, List.count_cons_of_ne (Ne.symm he)]
      · rw [hh]
    -- no entry with the new distance yet
    have hfresh : (m + cost k, nid W v) ∉ L.elems s.heap := by
      intro h
      obtain ⟨w, hw, h1, h2, -⟩ := hI.ent _ h
      have : w = v := nid_inj hW hw hvl h1.symm
      subst this
      simp only at h2
      omega
    refine ⟨⟨?_, ?_, ?_, ?_, ?_, hI.xlegal, hI.nodup, ?_, hI.xgoal, ?_, ?_, ?_, ?_, ?_, ?_⟩, ?_⟩
    · simp only [if_neg (hne start hstart (Ne.symm hvs)), pd]; exact hI.D0
    · simp only [if_neg (hne start hstart (Ne.symm hvs)), pp]; exact hI.P0
    · intro w hw
      simp only [pd]
      split
      · omega
      · exact hI.le_max w hw
    · intro w hw
      simp only [pd, pp]
      split
      · intro h; cases h
      · exact hI.none_max w hw
    · intro w hw hws i
      simp only [pd, pp]
      by_cases hwv : w = v
      · subst hwv
        simp only [if_true]
        intro hi
        refine ⟨u, hu, by simpa using hi.symm, ⟨k, hv, ?_⟩, by omega⟩
        rw [if_neg (hXne u hu), hc]
      · simp only [if_neg (hne w hw hwv)]
        intro hi
        obtain ⟨x, hx, h1, ⟨k', h2, h3⟩, h4⟩ := hI.par w hw hws i hi
        exact ⟨x, hx, h1, ⟨k', h2, by rw [if_neg (hXne x hx)]; exact h3⟩, h4⟩
    · intro w hw
      simp only [if_neg (hXne w hw), pd]
      exact hI.xm w hw
    · refine Tree.congr (fun w hw => ?_) hI.tree
      simp only [if_neg (hXne w hw), pp]
    · intro e he
      rcases hmem e he with rfl | he
      · refine ⟨v, hvl, rfl, ?_, by simp, ?_⟩
        · simp
        · simp only; omega
      · obtain ⟨w, hw, h1, h2, h3, h4⟩ := hI.ent e he
        refine ⟨w, hw, h1, ?_, h3, h4⟩
        simp only [pd]
        split
        · rename_i hwv
          have : w = v := slotOf_inj W hW w v hw hvl hwv
          subst this
          omega
        · exact h2
    · intro w hw
      simp only [if_neg (hXne w hw), pd]
      intro he
      rcases hmem _ he with he | he
      · have : nid W w = nid W v := (Prod.mk.inj he).2
        exact hvX (nid_inj hW (hI.xlegal w hw) hvl this ▸ hw)
      · exact hI.cntX w hw he
    · intro w hw
      simp only [pd]
      by_cases hwv : w = v
      · subst hwv
        simp only [if_true]
        rcases push_cases L s (m + cost k, nid W w) with ⟨hp, _⟩ | ⟨_, hh, _⟩
        · rw [hp.count_eq, List.count_cons_self, List.count_eq_zero_of_not_mem hfresh]
        · rw [hh, List.count_eq_zero_of_not_mem hfresh]; omega
      · simp only [if_neg (hne w hw hwv)]
        rw [hcount]
        · exact hI.cnt w hw
        · intro he
          exact hwv (nid_inj hW hw hvl (Prod.mk.inj he).2)
    · intro hdr w hw hwX
      simp only [pd]
      rcases push_cases L s (m + cost k, nid W v) with ⟨hp, hdr'⟩ | ⟨_, hh, hdr'⟩
      · by_cases hwv : w = v
        · subst hwv
          simp only [if_true]
          intro _
          exact hp.mem_iff.mpr (by simp)
        · simp only [if_neg (hne w hw hwv)]
          intro hlt
          exact hmem' _ (hI.pend (by rw [← hdr']; exact hdr) w hw hwX hlt)
      · simp only [hdr'] at hdr
        cases hdr
    · rintro a b c (h | ⟨rfl, rfl, rfl⟩)
      · obtain ⟨h1, h2, h3⟩ := hI.req a b c h
        refine ⟨h1, h2, ?_⟩
        simp only [if_neg (hXne a h1), pd]
        split
        · rename_i hcv
          have : c = v := slotOf_inj W hW c v h2 hvl hcv
          subst this
          omega
        · exact h3
      · refine ⟨hu, hvl, ?_⟩
        simp only [if_true, if_neg (hXne a hu), pd, hc, hex]
        exact Nat.le_refl _
    · simp only [if_neg (hXne u hu), pd]
      exact hc

theorem relaxOne_len (L : HeapLaws ops QUE_MAX) (c : Nat) (u : Node) (e : Node × EdgeKind) (s : St ops) :
    (L.elems (relaxOne W MAX ops cost c u e s).heap).length ≤ (L.elems s.heap).length + 1 ∧
    ((L.elems s.heap).length < QUE_MAX → (relaxOne W MAX ops cost c u e s).dropped = s.dropped) := by
  unfold relaxOne
  split
  · exact ⟨by omega, fun _ => rfl⟩
  · simp only
    rcases push_cases L s (satAdd MAX c (cost e.2), nid W e.1) with ⟨hp, hd⟩ | ⟨hl, hh, hd⟩
    · exact ⟨by rw [hp.length_eq]; simp, fun _ => hd⟩
    · exact ⟨by rw [hh]; omega, fun h => by omega⟩

theorem relaxAll_inv (hW : Supported W) {m : Nat} {X : List Node} (hstart : Legal W start) (u : Node) (hu : u ∈ X) :
    ∀ (l : List (Node × EdgeKind)) (Req : Node → EdgeKind → Node → Prop) (s : St ops),
      Inv L W MAX isWall isGoal cost start m X Req s → s.dist (slotOf W u) = m →
      (∀ e ∈ l, Drivable W isWall u e.2 e.1) →
      Inv L W MAX isWall isGoal cost start m X (fun a b c => Req a b c ∨ (a = u ∧ (c, b) ∈ l))
        (l.foldl (fun s e => relaxOne W MAX ops cost m u e s) s)
  | [], Req, s, hI, _, _ => by
    refine { hI with req := fun a b c h => ?_ }
    rcases h with h | ⟨_, h⟩
    · exact hI.req a b c h
    · cases h
  | (v, k) :: l, Req, s, hI, hc, hl => by
    obtain ⟨h1, h2⟩ := relaxOne_inv hW hI hstart u v k hu hc (hl (v, k) (by simp))
    have h3 := relaxAll_inv hW hstart u hu l _ _ h1 h2 (fun e he => hl e (by simp [he]))
    refine { h3 with req := fun a b c h => h3.req a b c ?_ }
    rcases h with h | ⟨rfl, h⟩
    · exact Or.inl (Or.inl h)
    · rcases List.mem_cons.mp h with h | h
      · obtain ⟨rfl, rfl⟩ := Prod.mk.inj h
        exact Or.inl (Or.inr ⟨rfl, rfl, rfl⟩)
      · exact Or.inr ⟨rfl, h⟩

theorem relaxAll_len (L : HeapLaws ops QUE_MAX) (c : Nat) (u : Node) : ∀ (l : List (Node × EdgeKind)) (s : St ops),
    (L.elems (l.foldl (fun s e => relaxOne W MAX ops cost c u e s) s).heap).length ≤ (L.elems s.heap).length + l.length ∧
    ((L.elems s.heap).length + l.length ≤ QUE_MAX →
      (l.foldl (fun s e => relaxOne W MAX ops cost c u e s) s).dropped = s.dropped)
  | [], s => ⟨by simp, fun _ => rfl⟩
  | e :: l, s => by
    have h1 := relaxOne_len (W := W) (MAX := MAX) (cost := cost) L c u e s
    have h2 := relaxAll_len L c u l (relaxOne W MAX ops cost c u e s)
    rw [List.foldl_cons, List.length_cons]
    refine ⟨by omega, fun h => ?_⟩
    rw [h2.2 (by omega), h1.2 (by omega)]


/-- All edges out of `X`. -/
def AllEdges (W : Nat) (isWall : Search.Coord → Bool) (X : List Node) (a : Node) (b : EdgeKind) (c : Node) : Prop :=
  a ∈ X ∧ Drivable W isWall a b c

/-- How the main loop ends. -/
def Ends (L : HeapLaws ops QUE_MAX) (W MAX : Nat) (isWall : Search.Coord → Bool) (isGoal : Node → Bool)
    (cost : EdgeKind → Nat) (start : Node) (r : Option Nat) (s' : St ops) : Prop :=
  ∃ m X s, Inv L W MAX isWall isGoal cost start m X (AllEdges W isWall X) s ∧
    s.dist = s'.dist ∧ s.prev = s'.prev ∧ s.dropped = s'.dropped ∧
    match r with
    | none => L.elems s.heap = []
    | some i => ∃ g, Legal W g ∧ i = nid W g ∧ isGoal g = true ∧ g ∉ X ∧ s.dist (slotOf W g) < MAX ∧
        s.prev (slotOf W g) ≠ none ∧ ∀ e ∈ L.elems s.heap, s.dist (slotOf W g) ≤ e.1

/-- Popping a stale entry keeps the invariant. -/
theorem pop_stale {m : Nat} {X : List Node} {Req : Node → EdgeKind → Node → Prop} {s : St ops}
    (hI : Inv L W MAX isWall isGoal cost start m X Req s) (c i : Nat) (h : ops.H)
    (hpop : ops.pop s.heap = some ((c, i), h)) (hW : Supported W)
    (v : Node) (hv : Legal W v) (hi : i = nid W v) (hst : s.dist (slotOf W v) < c) :
    Inv L W MAX isWall isGoal cost start m X Req { s with heap := h } := by
  obtain ⟨hp, hmin⟩ := L.pop_some _ _ _ hpop
  refine { hI with ent := ?_, cntX := ?_, cnt := ?_, pend := ?_ }
  · exact fun e he => hI.ent e (hp.mem_iff.mpr (by simp [he]))
  · exact fun w hw he => hI.cntX w hw (hp.mem_iff.mpr (by simp [he]))
  · intro w hw
    have h1 := hI.cnt w hw
    rw [hp.count_eq] at h1
    have h2 := List.count_le_count_cons (a := (s.dist (slotOf W w), nid W w)) (b := (c, i)) (l := L.elems h)
    simp only
    omega
  · intro hd w hw hwX hlt
    have h1 := hp.mem_iff.mp (hI.pend hd w hw hwX hlt)
    rcases List.mem_cons.mp h1 with h2 | h2
    · obtain ⟨h3, h4⟩ := Prod.mk.inj h2
      rw [hi] at h4
      have : w = v := nid_inj hW hw hv h4
      subst this
      omega
    · exact h2

/-- Popping the entry of a node that is not yet expanded, and marking the node as expanded. -/
theorem pop_fresh {m : Nat} {X : List Node} {s : St ops}
    (hI : Inv L W MAX isWall isGoal cost start m X (AllEdges W isWall X) s) (c i : Nat) (h : ops.H)
    (hpop : ops.pop s.heap = some ((c, i), h)) (hW : Supported W)
    (v : Node) (hv : Legal W v) (hi : i = nid W v) (hst : s.dist (slotOf W v) = c) (hg : isGoal v = false) :
    v ∉ X ∧
    Inv L W MAX isWall isGoal cost start c (v :: X) (AllEdges W isWall X) { s with heap := h } := by
  obtain ⟨hp, hmin⟩ := L.pop_some _ _ _ hpop
  have hmem : (c, i) ∈ L.elems s.heap := hp.mem_iff.mpr (by simp)
  have hvX : v ∉ X := fun hx => hI.cntX v hx (by rw [hst, ← hi]; exact hmem)
  obtain ⟨w, hw, h1, h2, h3, h4⟩ := hI.ent _ hmem
  have hzero : (c, i) ∉ L.elems h := by
    intro hc
    have := hI.cnt v hv
    rw [hst, ← hi, hp.count_eq, List.count_cons_self] at this
    have := List.count_pos_iff.mpr hc
    omega
  refine ⟨hvX, { hI with par := ?_, xlegal := ?_, nodup := ?_, xm := ?_, xgoal := ?_, tree := ?_, ent := ?_, cntX := ?_, cnt := ?_, pend := ?_, req := ?_ }⟩
  · intro x hx hxs j hj
    obtain ⟨u, hu, h⟩ := hI.par x hx hxs j hj
    exact ⟨u, by simp [hu], h⟩
  · intro u hu
    rcases List.mem_cons.mp hu with rfl | hu
    · exact hv
    · exact hI.xlegal u hu
  · exact List.nodup_cons.mpr ⟨hvX, hI.nodup⟩
  · intro u hu
    rcases List.mem_cons.mp hu with rfl | hu
    · exact Nat.le_of_eq hst
    · exact Nat.le_trans (hI.xm u hu) h3
  · intro u hu
    rcases List.mem_cons.mp hu with rfl | hu
    · exact hg
    · exact hI.xgoal u hu
  · refine ⟨hI.tree, ?_⟩
    by_cases hvs : v = start
    · exact Or.inl hvs
    · right
      cases hpv : s.prev (slotOf W v) with
      | none => have := hI.none_max v hv hpv; simp only at h4; omega
      | some j =>
        obtain ⟨u, hu, rfl, -⟩ := hI.par v hv hvs j hpv
        exact ⟨u, hu, by simp only [hpv]⟩
  · intro e he
    have he' := hp.mem_iff.mpr (List.mem_cons_of_mem _ he)
    obtain ⟨x, hx, q1, q2, q3, q4⟩ := hI.ent e he'
    exact ⟨x, hx, q1, q2, hmin e he', q4⟩
  · intro u hu he
    rcases List.mem_cons.mp hu with rfl | hu
    · simp only [hst, ← hi] at he
      exact hzero he
    · exact hI.cntX u hu (hp.mem_iff.mpr (List.mem_cons_of_mem _ he))
  · intro w hw
    have h1 := hI.cnt w hw
    rw [hp.count_eq] at h1
    have h2 := List.count_le_count_cons (a := (s.dist (slotOf W w), nid W w)) (b := (c, i)) (l := L.elems h)
    simp only
    omega
  · intro hd w hw hwX hlt
    have hw1 : w ≠ v := fun h => hwX (by simp [h])
    have hw2 : w ∉ X := fun h => hwX (by simp [h])
    have h1 := hp.mem_iff.mp (hI.pend hd w hw hw2 hlt)
    rcases List.mem_cons.mp h1 with h2 | h2
    · obtain ⟨h3, h4⟩ := Prod.mk.inj h2
      rw [hi] at h4
      exact absurd (nid_inj hW hw hv h4) hw1
    · exact h2
  · intro a b d hab
    obtain ⟨q1, q2, q3⟩ := hI.req a b d hab
    exact ⟨by simp [q1], q2, q3⟩

theorem mainLoop_spec (hW : Supported W) (hstart : Legal W start) (deg N : Nat)
    (hdeg : ∀ n, Legal W n → ∀ l, n.successors W isWall = .ok l → l.length ≤ deg)
    (hN : ∀ X : List Node, X.Nodup → (∀ u ∈ X, Legal W u) → X.length ≤ N) :
    ∀ (fuel m : Nat) (X : List Node) (s : St ops),
      Inv L W MAX isWall isGoal cost start m X (AllEdges W isWall X) s →
      (L.elems s.heap).length + deg * (N - X.length) < fuel →
      ∃ r s', mainLoop W MAX ops isGoal isWall cost fuel s = .ok (r, s') ∧
        Ends L W MAX isWall isGoal cost start r s' ∧
        ((L.elems s.heap).length + deg * (N - X.length) ≤ QUE_MAX → s.dropped = false → s'.dropped = false)
  | 0, _, _, _, _, h => by omega
  | fuel + 1, m, X, s, hI, hf => by
    unfold mainLoop
    cases hpop : ops.pop s.heap with
    | none =>
      exact ⟨none, s, rfl, ⟨m, X, s, hI, rfl, rfl, rfl, L.pop_none _ hpop⟩, fun _ h => h⟩
    | some p =>
      obtain ⟨⟨c, i⟩, h⟩ := p
      obtain ⟨hp, hmin⟩ := L.pop_some _ _ _ hpop
      have hlen := hp.length_eq
      rw [List.length_cons] at hlen
      obtain ⟨v, hv, h1, h2, h3, h4⟩ := hI.ent (c, i) (hp.mem_iff.mpr (by simp))
      simp only at h1 h2 h3 h4
      have hs := slot_lt hW hv
      subst h1
      simp only [idIndex_nid, arrGet, if_pos hs, bind, Except.bind]
      by_cases hst : s.dist (slotOf W v) < c
      · rw [if_pos hst]
        have hI' := pop_stale hI c _ h hpop hW v hv rfl hst
        obtain ⟨r, s', e1, e2, e3⟩ := mainLoop_spec hW hstart deg N hdeg hN fuel m X _ hI' (by simp only; omega)
        exact ⟨r, s', e1, e2, fun q1 q2 => e3 (by simp only; omega) q2⟩
      · rw [if_neg hst]
        have hst' : s.dist (slotOf W v) = c := by omega
        have hof : Node.ofId W (nid W v) = .ok v := ofId_slot W hW v hv
        simp only [hof]
        cases hg : isGoal v with
        | true =>
          simp only [if_true]
          refine ⟨_, _, rfl, ⟨m, X, s, hI, rfl, rfl, rfl, v, hv, rfl, hg, ?_, by omega, ?_, ?_⟩, fun _ h => h⟩
          · intro hx
            have := hI.xgoal v hx
            rw [hg] at this; cases this
          · intro hn
            have := hI.none_max v hv hn
            omega
          · intro e he
            rw [hst']
            exact hmin e he
        | false =>
          simp only [Bool.false_eq_true, if_false]
          obtain ⟨l, hl, -, hmem⟩ := successors_iff (isWall := isWall) hW hv
          have hld := hdeg v hv l hl
          have hdr : ∀ e ∈ l, Drivable W isWall v e.2 e.1 := fun e he => (hmem e.1 e.2).mp he
          have hleg : ∀ e ∈ l, Legal W e.1 := fun e he => drivable_legal hv _ _ (hdr e he)
          simp only [hl]
          rw [relax_eq hW c v l _ hleg]
          obtain ⟨hvX, hI1⟩ := pop_fresh hI c _ h hpop hW v hv rfl hst' hg
          have hI2 := relaxAll_inv hW hstart v (by simp) l _ _ hI1 hst' hdr
          have hI3 : Inv L W MAX isWall isGoal cost start c (v :: X) (AllEdges W isWall (v :: X))
              (l.foldl (fun s e => relaxOne W MAX ops cost c v e s) { s with heap := h }) := by
            refine { hI2 with req := fun a b d hab => hI2.req a b d ?_ }
            obtain ⟨ha, hab⟩ := hab
            rcases List.mem_cons.mp ha with rfl | ha
            · exact Or.inr ⟨rfl, (hmem d b).mpr hab⟩
            · exact Or.inl ⟨ha, hab⟩
          have hXN := hN (v :: X) hI3.nodup hI3.xlegal
          rw [List.length_cons] at hXN
          have hln := relaxAll_len (W := W) (MAX := MAX) (cost := cost) L c v l { s with heap := h }
          simp only at hln
          have hsub : deg * (N - X.length) = deg * (N - (X.length + 1)) + deg := by
            rw [show N - X.length = (N - (X.length + 1)) + 1 by omega, Nat.mul_add, Nat.mul_one]
          obtain ⟨r, s', e1, e2, e3⟩ := mainLoop_spec hW hstart deg N hdeg hN fuel c (v :: X) _ hI3
            (by rw [List.length_cons]; omega)
          refine ⟨r, s', e1, e2, fun q1 q2 => e3 (by rw [List.length_cons]; omega) ?_⟩
          rw [hln.2 (by omega)]
          exact q2

end Verif.Proof
