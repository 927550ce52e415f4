import Verif.Proof.Dijkstra
import Mathlib.Data.Finset.Card
import Mathlib.Data.List.Nodup
/-! The result of the run planner. -/
namespace Verif.Proof
open Verif Verif.Run Verif.Spec

variable {W MAX : Nat} {isWall : Search.Coord → Bool} {isGoal : Node → Bool} {cost : EdgeKind → Nat} {ops : HeapOps}
variable {L : HeapLaws ops QUE_MAX} {start : Node}

/-! ### Counting poses -/

/-- Numbers the legal poses. -/
def legalCode (W : Nat) (n : Node) : Nat :=
  dirNum n.posture + 4 * (if n.y % 2 = 0 then n.x + 2 * W * (n.y / 2) else 2 * W * W + (n.x / 2 + W * (n.y / 2)))

theorem legalCode_lt (n : Node) (h : Legal W n) : legalCode W n < 12 * W * W := by
  obtain ⟨hx, hy, h⟩ := h
  have hd := dirNum_lt n.posture
  have hq : n.y / 2 + 1 ≤ W := by omega
  have h1 : 2 * W * (n.y / 2 + 1) ≤ 2 * W * W := Nat.mul_le_mul_left _ hq
  have h2 : W * (n.y / 2 + 1) ≤ W * W := Nat.mul_le_mul_left _ hq
  rw [Nat.mul_add, Nat.mul_one] at h1 h2
  have e1 : 2 * W * W = 2 * (W * W) := Nat.mul_assoc _ _ _
  have e2 : 12 * W * W = 12 * (W * W) := Nat.mul_assoc _ _ _
  unfold legalCode
  split <;> omega

theorem divmod_unique {A a b a' b' : Nat} (ha : a < A) (ha' : a' < A) (h : a + A * b = a' + A * b') : a = a' ∧ b = b' := by
  have h1 : (a + A * b) % A = a := by rw [Nat.add_mul_mod_self_left, Nat.mod_eq_of_lt ha]
  have h2 : (a' + A * b') % A = a' := by rw [Nat.add_mul_mod_self_left, Nat.mod_eq_of_lt ha']
  have h3 : (a + A * b) / A = b := by rw [Nat.add_mul_div_left _ _ (by omega), Nat.div_eq_of_lt ha]; omega
  have h4 : (a' + A * b') / A = b' := by rw [Nat.add_mul_div_left _ _ (by omega), Nat.div_eq_of_lt ha']; omega
  rw [h] at h1 h3
  exact ⟨h1.symm.trans h2, h3.symm.trans h4⟩

theorem legalCode_inj (n m : Node) (hn : Legal W n) (hm : Legal W m) (h : legalCode W n = legalCode W m) : n = m := by
  obtain ⟨x, y, p⟩ := n
  obtain ⟨x', y', p'⟩ := m
  have hd := dirNum_lt p
  have hd' := dirNum_lt p'
  unfold legalCode at h
  obtain ⟨hx, hy, hq⟩ := hn
  obtain ⟨hx', hy', hq'⟩ := hm
  simp only at *
  obtain ⟨e1, e2⟩ := divmod_unique hd hd' h
  have hb : ∀ z, z < 2 * W → 2 * W * (z / 2) + 2 * W ≤ 2 * W * W := fun z hz => by
    have : 2 * W * (z / 2 + 1) ≤ 2 * W * W := Nat.mul_le_mul_left _ (by omega)
    rwa [Nat.mul_add, Nat.mul_one] at this
  have hxy : x = x' ∧ y = y' := by
    have b1 := hb y hy
    have b2 := hb y' hy'
    by_cases hy2 : y % 2 = 0 <;> by_cases hy2' : y' % 2 = 0
    · rw [if_pos hy2, if_pos hy2'] at e2
      obtain ⟨q1, q2⟩ := divmod_unique hx hx' e2
      omega
    · rw [if_pos hy2, if_neg hy2'] at e2
      omega
    · rw [if_neg hy2, if_pos hy2'] at e2
      omega
    · rw [if_neg hy2, if_neg hy2'] at e2
      obtain ⟨q1, q2⟩ := divmod_unique (A := W) (by omega) (by omega) (Nat.add_left_cancel e2)
      have hxe : x % 2 = 0 := by omega
      have hxe' : x' % 2 = 0 := by omega
      omega
  obtain ⟨rfl, rfl⟩ := hxy
  congr 1
  rcases hq with ⟨h1, h2, h3⟩ | ⟨h1, h3⟩ <;> rcases hq' with ⟨h1', h2', h3'⟩ | ⟨h1', h3'⟩
  · clear h e2 hb; revert h3 h3' e1; cases p <;> cases p' <;> simp [dirNum]
  · omega
  · omega
  · clear h e2 hb; revert h3 h3' e1; cases p <;> cases p' <;> simp [dirNum]

theorem legal_count (X : List Node) (hn : X.Nodup) (hl : ∀ u ∈ X, Legal W u) : X.length ≤ 12 * W * W := by
  have h1 : (X.map (legalCode W)).Nodup := hn.map_on fun a ha b hb h => legalCode_inj a b (hl a ha) (hl b hb) h
  have h2 : (X.map (legalCode W)) ⊆ List.range (12 * W * W) := by
    intro c hc
    obtain ⟨a, ha, rfl⟩ := List.mem_map.mp hc
    exact List.mem_range.mpr (legalCode_lt a (hl a ha))
  have h3 := (h1.subperm h2).length_le
  simpa using h3

/-! ### Paths -/

theorem FastPath.snoc {l : List Node} {c : Nat} (h : FastPath W isWall cost l c) :
    ∀ {u v : Node} {k : EdgeKind}, l.getLast? = some u → Drivable W isWall u k v →
      FastPath W isWall cost (l ++ [v]) (c + cost k) := by
  induction h with
  | single n =>
    intro u v k hu hd
    simp only [List.getLast?_singleton, Option.some.injEq] at hu
    subst hu
    rw [Nat.zero_add]
    exact FastPath.cons n v k [] 0 hd (FastPath.single v)
  | cons n m k' l c hd' _ ih =>
    intro u v k hu hd
    rw [Nat.add_assoc]
    refine FastPath.cons n m k' (l ++ [v]) _ hd' (ih ?_ hd)
    rwa [List.getLast?_cons_cons] at hu

/-- A chain of predecessors back to the start. -/
def Chain (W : Nat) (prev : Nat → Option Nat) (start : Node) : List Node → Prop
  | [] => False
  | [v] => v = start
  | v :: u :: l => v ≠ start ∧ prev (slotOf W v) = some (nid W u) ∧ Chain W prev start (u :: l)

theorem chain_exists {prev : Nat → Option Nat} : ∀ {X : List Node}, Tree W prev start X → X.Nodup →
    ∀ v ∈ X, ∃ l, Chain W prev start (v :: l) ∧ (v :: l).Nodup ∧ ∀ x ∈ v :: l, x ∈ X
  | w :: X, ⟨ht, hw⟩, hn, v, hv => by
    obtain ⟨hwX, hn'⟩ := List.nodup_cons.mp hn
    rcases List.mem_cons.mp hv with rfl | hv
    · by_cases hs : v = start
      · exact ⟨[], hs, by simp, by simp⟩
      · rcases hw with h | ⟨u, hu, hp⟩
        · exact absurd h hs
        · obtain ⟨l, h1, h2, h3⟩ := chain_exists ht hn' u hu
          refine ⟨u :: l, ⟨hs, hp, h1⟩, List.nodup_cons.mpr ⟨fun h => hwX (h3 v h), h2⟩, ?_⟩
          intro x hx
          rcases List.mem_cons.mp hx with rfl | hx
          · simp
          · exact List.mem_cons_of_mem _ (h3 x hx)
    · obtain ⟨l, h1, h2, h3⟩ := chain_exists ht hn' v hv
      exact ⟨l, h1, h2, fun x hx => List.mem_cons_of_mem _ (h3 x hx)⟩

theorem backLoop_eq (hW : Supported W) {prev : Nat → Option Nat} (h0 : prev (slotOf W start) = some (nid W start))
    (hstart : Legal W start) :
    ∀ (fuel : Nat) (v : Node) (l path : List Node), Chain W prev start (v :: l) → (∀ x ∈ v :: l, Legal W x) →
      PATH_MAX + 1 ≤ fuel + path.length → path.length ≤ PATH_MAX →
      backLoop W prev (nid W start) fuel (nid W v) path =
        if path.length + (v :: l).length ≤ PATH_MAX then .ok (path ++ v :: l) else .error .capacity
  | 0, v, l, path, _, _, hf, hp => by omega
  | fuel + 1, v, l, path, hc, hl, hf, hp => by
    have hv := hl v (by simp)
    have hs := slot_lt hW hv
    have hof : Node.ofId W (nid W v) = .ok v := ofId_slot W hW v hv
    unfold backLoop
    simp only [idIndex_nid, arrGet, if_pos hs, bind, Except.bind]
    cases l with
    | nil =>
      have hvs : v = start := hc
      subst hvs
      simp only [h0, hof, pushCap]
      by_cases hfull : path.length < PATH_MAX
      · rw [if_pos hfull, if_pos (by simp; omega)]
        simp
      · rw [if_neg hfull, if_neg (by simp; omega)]
    | cons u l =>
      obtain ⟨hvs, hpv, hc⟩ := hc
      simp only [hpv, hof, pushCap]
      by_cases hfull : path.length < PATH_MAX
      · rw [if_pos hfull]
        have hne : nid W v ≠ nid W start := fun h => hvs (nid_inj hW hv hstart h)
        simp only [if_neg hne]
        rw [backLoop_eq hW h0 hstart fuel u l (path ++ [v]) hc (fun x hx => hl x (List.mem_cons_of_mem _ hx))
          (by simp; omega) (by simp; omega)]
        simp only [List.length_append, List.length_cons, List.length_nil, List.append_assoc, List.cons_append, List.nil_append]
        by_cases h : path.length + (0 + 1) + (l.length + 1) ≤ PATH_MAX
        · rw [if_pos h, if_pos (by omega)]
        · rw [if_neg h, if_neg (by omega)]
      · rw [if_neg hfull, if_neg (by simp; omega)]

/-- A chain is a path driven backwards, with the distances as costs. -/
theorem chain_path {m : Nat} {X : List Node} {Req : Node → EdgeKind → Node → Prop} {s : St ops}
    (hI : Inv L W MAX isWall isGoal cost start m X Req s) (hW : Supported W) :
    ∀ (l : List Node) (v : Node), (∀ x ∈ v :: l, Legal W x) → Chain W s.prev start (v :: l) →
      FastPath W isWall cost (v :: l).reverse (s.dist (slotOf W v)) ∧ (v :: l).reverse.head? = some start ∧
        (v :: l).reverse.getLast? = some v
  | [], v, _, hc => by
    have : v = start := hc
    subst this
    rw [hI.D0]
    exact ⟨FastPath.single v, rfl, rfl⟩
  | u :: l, v, hl, hc => by
    obtain ⟨hvs, hpv, hc⟩ := hc
    obtain ⟨u', hu', h1, ⟨k, h2, h3⟩, -⟩ := hI.par v (hl v (by simp)) hvs _ hpv
    have : u = u' := nid_inj hW (hl u (by simp)) (hI.xlegal u' hu') h1
    subst this
    obtain ⟨q1, q2, q3⟩ := chain_path hI hW l u (fun x hx => hl x (List.mem_cons_of_mem _ hx)) hc
    rw [List.reverse_cons, h3]
    refine ⟨FastPath.snoc q1 q3 h2, ?_, by simp⟩
    rw [List.head?_append, q2]
    rfl

/-- Along any path, distances are bounded by the costs, or an entry of the queue is. -/
theorem path_bound {m : Nat} {X : List Node} {s : St ops}
    (hI : Inv L W MAX isWall isGoal cost start m X (AllEdges W isWall X) s) (hd : s.dropped = false) (B : Nat)
    (hB : ∀ e ∈ L.elems s.heap, B ≤ e.1) {l : List Node} {c : Nat} (h : FastPath W isWall cost l c) :
    ∀ (a g : Node) (d : Nat), l.head? = some a → l.getLast? = some g → Legal W a → s.dist (slotOf W a) ≤ min d MAX →
      (g ∉ X → min B MAX ≤ d + c) ∧ (s.dist (slotOf W g) ≤ min (d + c) MAX ∨ min B MAX ≤ d + c) := by
  induction h with
  | single n =>
    intro a g d ha hg hal hda
    simp only [List.head?_cons, Option.some.injEq, List.getLast?_singleton] at ha hg
    subst ha hg
    refine ⟨fun hX => ?_, Or.inl (by simpa using hda)⟩
    by_cases hlt : s.dist (slotOf W n) < MAX
    · have := hB _ (hI.pend hd n hal hX hlt)
      simp only at this
      omega
    · omega
  | cons n v k l c hdr _ ih =>
    intro a g d ha hg hal hda
    simp only [List.head?_cons, Option.some.injEq] at ha
    subst ha
    rw [List.getLast?_cons_cons] at hg
    by_cases hX : n ∈ X
    · obtain ⟨-, hv, hle⟩ := hI.req n k v ⟨hX, hdr⟩
      have := ih v g (d + cost k) rfl hg hv (by unfold satAdd at hle; omega)
      rwa [Nat.add_assoc] at this
    · have hb : min B MAX ≤ d + (cost k + c) := by
        by_cases hlt : s.dist (slotOf W n) < MAX
        · have := hB _ (hI.pend hd n hal hX hlt)
          simp only at this
          omega
        · omega
      exact ⟨fun _ => hb, Or.inr hb⟩

/-- The state before the main loop. -/
def init (W MAX : Nat) (ops : HeapOps) (start : Node) : St ops :=
  (⟨fun j => if j = slotOf W start then 0 else MAX, fun j => if j = slotOf W start then some (nid W start) else none,
    ops.empty, false⟩ : St ops).push (0, nid W start)

theorem init_inv (L : HeapLaws ops QUE_MAX) (hW : Supported W) (hstart : Legal W start) (hM : 0 < MAX) :
    Inv L W MAX isWall isGoal cost start 0 [] (AllEdges W isWall []) (init W MAX ops start) ∧
    (L.elems (init W MAX ops start).heap).length = 1 ∧ (init W MAX ops start).dropped = false := by
  obtain ⟨h', h1, h2⟩ := L.push_ok ops.empty (0, nid W start) (by rw [L.elems_empty]; decide)
  rw [L.elems_empty] at h2
  have he : L.elems h' = [(0, nid W start)] := List.perm_singleton.mp h2
  have hi : init W MAX ops start = ⟨fun j => if j = slotOf W start then 0 else MAX,
      fun j => if j = slotOf W start then some (nid W start) else none, h', false⟩ := by
    unfold init St.push
    simp only [h1]
  rw [hi]
  have hs : ∀ v, Legal W v → v ≠ start → slotOf W v ≠ slotOf W start := fun v hv h e =>
    h (slotOf_inj W hW v start hv hstart e)
  refine ⟨⟨by simp, by simp, ?_, ?_, ?_, by simp, by simp, by simp, by simp, trivial, ?_, by simp, ?_, ?_, ?_⟩, by simp [he], rfl⟩
  · intro v _; simp only; split <;> omega
  · intro v hv
    simp only
    split
    · intro h; cases h
    · intro _; rfl
  · intro v hv hvs i hi
    simp only [if_neg (hs v hv hvs)] at hi
    cases hi
  · intro e hme
    rw [he] at hme
    simp only [List.mem_singleton] at hme
    subst hme
    exact ⟨start, hstart, rfl, by simp, by simp, hM⟩
  · intro v hv
    rw [he]
    refine Nat.le_trans List.count_le_length (by simp)
  · intro _ v hv _ hlt
    by_cases hvs : v = start
    · subst hvs
      simp [he]
    · simp only [if_neg (hs v hv hvs)] at hlt
      omega
  · rintro a b c ⟨h, -⟩
    cases h

/-- The whole planner, up to the extraction of the path. -/
theorem shortestPath_eq (L : HeapLaws ops QUE_MAX) (hW : Supported W) (hstart : Legal W start) (hM : 0 < MAX) :
    ∃ r s', Ends L W MAX isWall isGoal cost start r s' ∧ (W ≤ 8 → s'.dropped = false) ∧
      shortestPath W MAX ops start isGoal isWall cost =
        match r with
        | none => .ok (none, s'.dropped)
        | some g => (do
            let path ← backLoop W s'.prev (nid W start) (PATH_MAX + 1) g []
            let d ← arrGet QUE_MAX s'.dist (idIndex g)
            return (some (path.reverse, d), s'.dropped)) := by
  have hW1 := hW.le
  have hdeg : ∀ n, Legal W n → ∀ l, n.successors W isWall = .ok l → l.length ≤ max (W + 8) (2 * W + 2) := by
    intro n hn l hl
    obtain ⟨l', h1, h2, -⟩ := successors_iff (isWall := isWall) hW hn
    rw [hl] at h1
    cases h1
    exact h2
  obtain ⟨hI, hlen, hdr⟩ := init_inv (isWall := isWall) (isGoal := isGoal) (cost := cost) L hW hstart hM
  have hNW : 12 * W * W ≤ 12288 ∧ (W ≤ 8 → 12 * W * W ≤ 768) := by
    rcases hW.cases with rfl | rfl | rfl | rfl | rfl | rfl <;> decide
  have hprod : max (W + 8) (2 * W + 2) * (12 * W * W - ([] : List Node).length) ≤ 68 * 12288 :=
    Nat.mul_le_mul (by omega) (by simp; omega)
  have hprod' : W ≤ 8 → max (W + 8) (2 * W + 2) * (12 * W * W - ([] : List Node).length) ≤ 18 * 768 := fun h =>
    Nat.mul_le_mul (by omega) (by have := hNW.2 h; simp; omega)
  obtain ⟨r, s', e1, e2, e3⟩ := mainLoop_spec hW hstart _ (12 * W * W) hdeg (fun X h1 h2 => legal_count X h1 h2) FUEL 0 []
    (init W MAX ops start) hI (by rw [hlen]; show _ < 68 * 16384 + 2; omega)
  refine ⟨r, s', e2, fun h => e3 (by rw [hlen]; have := hprod' h; show _ ≤ 16384; omega) hdr, ?_⟩
  unfold shortestPath
  have hs := slot_lt hW hstart
  rw [toId_eq W hW start hstart]
  show (do
    let dist ← arrSet QUE_MAX (fun _ => MAX) (idIndex (nid W start)) 0
    let prev ← arrSet QUE_MAX (fun _ => (none : Option Nat)) (idIndex (nid W start)) (some (nid W start))
    let (goal, s) ← mainLoop W MAX ops isGoal isWall cost FUEL ((⟨dist, prev, ops.empty, false⟩ : St ops).push (0, nid W start))
    match goal with
    | none => return (none, s.dropped)
    | some goal => do
      let path ← backLoop W s.prev (nid W start) (PATH_MAX + 1) goal []
      let d ← arrGet QUE_MAX s.dist (idIndex goal)
      return (some (path.reverse, d), s.dropped)) = _
  rw [idIndex_nid]
  unfold arrSet
  simp only [if_pos hs, bind, Except.bind]
  have := e1
  unfold init at this
  rw [this]
  cases r <;> rfl

end Verif.Proof
