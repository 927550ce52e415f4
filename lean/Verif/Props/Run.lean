import Verif.Proof.RunPath
/-!
# Properties of the run planner (C25 – C31)
-/
namespace Verif.Props
open Verif Verif.Run Verif.Spec Verif.Proof

/-! ## C25 -/

/-- **C25.** For every value of `W`, `x`, `y` and every posture: `Node::new` succeeds exactly when `W` is a power of
two up to 64, the coordinates are below `2 W`, and the posture is axis-parallel at a cell centre or diagonal on a
wall; the node then has these coordinates and posture. -/
theorem C25_node_new (W x y : Nat) (hW : W < 256) (p : Posture) (n : Node) :
    Node.new W x y p = some n ↔ n = ⟨x, y, p⟩ ∧ (∃ k, k ≤ 6 ∧ W = 2 ^ k) ∧ Legal W ⟨x, y, p⟩ := by
  have hc : coordNew W x y = if (∃ k, k ≤ 6 ∧ W = 2 ^ k) ∧ x < 2 * W ∧ y < 2 * W then some (x, y) else none := by
    have hk := isPow2_iff W hW
    unfold coordNew
    cases hp : isPow2 W with
    | false =>
      have : ¬ ∃ k, k ≤ 6 ∧ W = 2 ^ k := by
        rintro ⟨k, h, e⟩
        have := hk.mpr ⟨k, by omega, e⟩
        rw [hp] at this; cases this
      simp only [Bool.not_false, Bool.true_or, if_true]
      rw [if_neg (fun h => this h.1)]
    | true =>
      obtain ⟨k, hk7, rfl⟩ := hk.mp hp
      by_cases h7 : k = 7
      · subst h7
        have e : (2 ^ 7) <<< 1 % 256 = 0 := by decide
        rw [e]
        simp only [Bool.not_true, Bool.false_or, Nat.zero_le, ge_iff_le, decide_true, Bool.true_or, if_true]
        rw [if_neg]
        · rintro ⟨⟨j, hj, e⟩, -⟩
          have : (2 : Nat) ^ j ≤ 2 ^ 6 := Nat.pow_le_pow_right (by omega) hj
          omega
      · have e : (2 ^ k) <<< 1 % 256 = 2 * 2 ^ k := by interval_cases k <;> first | decide | omega
        rw [e]
        by_cases hx : x < 2 * 2 ^ k <;> by_cases hy : y < 2 * 2 ^ k
        · rw [if_neg (by simp; omega), if_pos ⟨⟨k, by omega, rfl⟩, hx, hy⟩]
        · rw [if_pos (by simp; omega), if_neg (fun h => hy h.2.2)]
        · rw [if_pos (by simp; omega), if_neg (fun h => hx h.2.1)]
        · rw [if_pos (by simp; omega), if_neg (fun h => hx h.2.1)]
  unfold Node.new
  rw [hc]
  unfold Legal
  by_cases hin : (∃ k, k ≤ 6 ∧ W = 2 ^ k) ∧ x < 2 * W ∧ y < 2 * W
  · rw [if_pos hin]
    simp only [and_one]
    rcases Nat.mod_two_eq_zero_or_one x with hx | hx <;> rcases Nat.mod_two_eq_zero_or_one y with hy | hy <;>
      cases p <;> simp [hx, hy, hin, Nat.add_mod] <;> exact eq_comm
  · rw [if_neg hin]
    simp only [reduceCtorEq, false_iff]
    rintro ⟨-, h1, h2, h3, -⟩
    exact hin ⟨h1, h2, h3⟩

example : Node.new 4 2 6 .east = some ⟨2, 6, .east⟩ ∧ Node.new 4 3 6 .northEast = some ⟨3, 6, .northEast⟩ ∧
    Node.new 4 3 6 .east = none ∧ Node.new 128 0 0 .north = none := by decide

/-! ## C26 -/

/-- **C26.** Node identifiers: converting to an identifier never fails, its table slot lies below `16 W²` and inside
the tables, converting back gives the node, and the identifiers (and slots) of different nodes differ. -/
theorem C26_identifiers (W : Nat) (hW : Supported W) (n : Node) (hn : Legal W n) :
    ∃ i, n.toId W = .ok i ∧ Node.ofId W i = .ok n ∧ idIndex i < 16 * W * W ∧ idIndex i < QUE_MAX ∧
      0 < i ∧ i < 65536 ∧
      ∀ m j, Legal W m → m.toId W = .ok j → (idIndex i = idIndex j ∨ i = j) → n = m := by
  have h1 := slotOf_lt W n hn
  have h2 : 16 * W * W ≤ 16384 := slots_le W hW
  refine ⟨nid W n, toId_eq W hW n hn, ofId_slot W hW n hn, ?_, ?_, ?_, ?_, ?_⟩
  · rw [idIndex_nid]; exact h1
  · rw [idIndex_nid]; exact slot_lt hW hn
  · unfold nid; omega
  · unfold nid; omega
  · intro m j hm hj h
    rw [toId_eq W hW m hm] at hj
    cases hj
    rcases h with h | h
    · rw [idIndex_nid] at h
      have : idIndex (2 * slotOf W m + 1) = slotOf W m := idIndex_nid W m
      rw [this] at h
      exact slotOf_inj W hW n m hn hm h
    · exact nid_inj hW hn hm h

example : Supported 32 ∧ Legal 32 ⟨63, 62, .northWest⟩ ∧
    (Node.toId 32 ⟨63, 62, .northWest⟩).toOption = some 32639 := by
  refine ⟨⟨5, by decide⟩, by decide, by decide⟩

/-! ## C27 -/

/-- **C27.** The successors computed for a legal pose are exactly the drivable moves; the computation never panics,
stays within its buffer, and every end pose is legal. -/
theorem C27_successors (W : Nat) (hW : Supported W) (isWall : Search.Coord → Bool) (n : Node) (hn : Legal W n) :
    ∃ l, n.successors W isWall = .ok l ∧ l.length ≤ NEIGHBOR_MAX ∧
      (∀ m k, (m, k) ∈ l ↔ Drivable W isWall n k m) ∧ (∀ m k, (m, k) ∈ l → Legal W m) := by
  obtain ⟨l, h1, h2, h3⟩ := successors_iff (isWall := isWall) hW hn
  refine ⟨l, h1, ?_, h3, fun m k h => drivable_legal hn k m ((h3 m k).mp h)⟩
  have := hW.le
  show l.length ≤ 68
  omega

/-- In an empty maze the pose heading north-west in the bottom right corner can run along the whole diagonal. -/
example : ((Node.successors 4 ⟨7, 0, .northWest⟩ (fun _ => false)).toOption.map List.length) = some 9 ∧
    Legal 4 ⟨7, 0, .northWest⟩ := by decide +kernel

/-! ## C28 -/

/-- **C28.** Every move considered by the planner has a trajectory, of the same shape, length and side. -/
theorem C28_move_has_trajectory (W : Nat) (hW : Supported W) (isWall : Search.Coord → Bool) (n m : Node) (k : EdgeKind)
    (l : List (Node × EdgeKind)) (hn : Legal W n) (hl : n.successors W isWall = .ok l) (h : (m, k) ∈ l) :
    ∃ t, n.trajectoryKind m = .ok (some t) ∧ Leads n k m t := by
  obtain ⟨l', h1, -, h3⟩ := successors_iff (isWall := isWall) hW hn
  rw [hl] at h1
  cases h1
  have hd := (h3 m k).mp h
  have hm := drivable_legal hn k m hd
  obtain ⟨o, ho, hiff⟩ := trajectoryKind_iff (by have := hW.le; omega) m hn hm
  obtain ⟨crossed, ⟨f, s, fin, head, cr, q1, q2, q3, q4, q5, q6⟩, -⟩ := hd
  have hex : ∃ t, trajOf (n.x % 2 = 0 ∧ n.y % 2 = 0) (if cross f s < 0 then .right else .left) k = some t := by
    unfold Shape at q2
    by_cases hc : n.x % 2 = 0 ∧ n.y % 2 = 0
    · rw [if_pos hc] at q2
      cases q2 <;> simp [trajOf, hc]
    · rw [if_neg hc] at q2
      cases q2 <;> simp [trajOf, hc]
  obtain ⟨t, ht⟩ := hex
  have hleads : Leads n k m t := ⟨f, s, fin, head, cr, q1, q2, q3, q4, q5, ht⟩
  refine ⟨t, ?_, hleads⟩
  rw [ho, (hiff t).mpr ⟨k, hleads⟩]

/-- **C28, converse.** For any two poses, `trajectory_kind` does not panic, and returns a trajectory exactly when it
leads from the first pose to the second. -/
theorem C28_trajectory_exact (W : Nat) (hW : W ≤ 64) (n m : Node) (hn : Legal W n) (hm : Legal W m) :
    ∃ o, n.trajectoryKind m = .ok o ∧ ∀ t, o = some t ↔ ∃ k, Leads n k m t :=
  trajectoryKind_iff hW m hn hm

example : (Node.trajectoryKind ⟨3, 4, .northWest⟩ ⟨5, 6, .east⟩).toOption = some none ∧
    (Node.trajectoryKind ⟨3, 4, .northWest⟩ ⟨3, 6, .northEast⟩).toOption = some (some (.slalom .fastRunDiagonal90 .right)) ∧
    Legal 8 ⟨3, 4, .northWest⟩ ∧ Legal 8 ⟨3, 6, .northEast⟩ := by decide

/-! ## C29 – C31 -/

section Plan

variable (W MAX : Nat) (ops : HeapOps) (L : HeapLaws ops QUE_MAX) (start : Node) (isGoal : Node → Bool)
  (isWall : Search.Coord → Bool) (cost : EdgeKind → Nat)

include L in
/-- What the planner returns, in terms of the final state of its search. -/
theorem plan_cases (hW : Supported W) (hstart : Legal W start) (hM : 0 < MAX) :
    ∃ r s', Ends L W MAX isWall isGoal cost start r s' ∧ (W ≤ 8 → s'.dropped = false) ∧
      ((r = none ∧ shortestPath W MAX ops start isGoal isWall cost = .ok (none, s'.dropped)) ∨
       ∃ g l, r = some (nid W g) ∧ Legal W g ∧ isGoal g = true ∧ (g :: l).Nodup ∧ (∀ x ∈ g :: l, Legal W x) ∧
        Chain W s'.prev start (g :: l) ∧ s'.dist (slotOf W g) < MAX ∧
        FastPath W isWall cost (g :: l).reverse (s'.dist (slotOf W g)) ∧
        (g :: l).reverse.head? = some start ∧ (g :: l).reverse.getLast? = some g ∧
        shortestPath W MAX ops start isGoal isWall cost =
          if (g :: l).length ≤ PATH_MAX then .ok (some ((g :: l).reverse, s'.dist (slotOf W g)), s'.dropped)
          else .error .capacity) := by
  obtain ⟨r, s', hE, hd, heq⟩ := shortestPath_eq (isWall := isWall) (isGoal := isGoal) (cost := cost) L hW hstart hM
  refine ⟨r, s', hE, hd, ?_⟩
  obtain ⟨m, X, s, hI, e1, e2, e3, hr⟩ := hE
  cases r with
  | none => exact Or.inl ⟨rfl, heq⟩
  | some i =>
    obtain ⟨g, hg, rfl, hgoal, hgX, hlt, hpn, -⟩ := hr
    have hchain : ∃ l, Chain W s.prev start (g :: l) ∧ (g :: l).Nodup ∧ ∀ x ∈ g :: l, Legal W x := by
      by_cases hgs : g = start
      · exact ⟨[], hgs, by simp, by simpa using hg⟩
      · cases hpg : s.prev (slotOf W g) with
        | none => exact absurd hpg hpn
        | some j =>
          obtain ⟨u, hu, rfl, -⟩ := hI.par g hg hgs j hpg
          obtain ⟨l, q1, q2, q3⟩ := chain_exists hI.tree hI.nodup u hu
          refine ⟨u :: l, ⟨hgs, hpg, q1⟩, List.nodup_cons.mpr ⟨fun h => hgX (q3 g h), q2⟩, ?_⟩
          intro x hx
          rcases List.mem_cons.mp hx with rfl | hx
          · exact hg
          · exact hI.xlegal x (q3 x hx)
    obtain ⟨l, q1, q2, q3⟩ := hchain
    obtain ⟨p1, p2, p3⟩ := chain_path hI hW l g q3 q1
    rw [e1] at hlt p1
    rw [e2] at q1
    refine Or.inr ⟨g, l, rfl, hg, hgoal, q2, q3, q1, hlt, p1, p2, p3, ?_⟩
    rw [heq]
    simp only
    have hP0 := hI.P0
    rw [e2] at hP0
    rw [backLoop_eq hW hP0 hstart (PATH_MAX + 1) g l [] q1 q3 (by simp) (by simp)]
    simp only [List.length_nil, Nat.zero_add, List.nil_append]
    by_cases hlen : (g :: l).length ≤ PATH_MAX
    · rw [if_pos hlen, if_pos hlen, idIndex_nid]
      simp only [arrGet, if_pos (slot_lt hW hg)]
      rfl
    · rw [if_neg hlen, if_neg hlen]
      rfl

include L in
/-- **C29.** A path returned by `shortest_path` starts at the start, ends at a goal, consists of drivable moves, and
the returned cost is the exact sum of the costs of its moves (below the maximum of the cost type, so no saturation
has happened). This holds even if the queue dropped entries. -/
theorem C29_path_valid (hW : Supported W) (hstart : Legal W start) (hM : 0 < MAX) (path : List Node) (c : Nat)
    (dropped : Bool) (h : shortestPath W MAX ops start isGoal isWall cost = .ok (some (path, c), dropped)) :
    path.head? = some start ∧ (∃ g, path.getLast? = some g ∧ isGoal g = true) ∧ FastPath W isWall cost path c ∧
      c < MAX ∧ path.Nodup ∧ path.length ≤ PATH_MAX := by
  obtain ⟨r, s', -, -, ⟨-, h'⟩ | ⟨g, l, -, hg, hgoal, hnd, hl, -, hlt, hp, hh, hla, h'⟩⟩ :=
    plan_cases W MAX ops L start isGoal isWall cost hW hstart hM
  · rw [h] at h'; cases h'
  · rw [h] at h'
    split at h'
    · rename_i hlen
      simp only [Except.ok.injEq, Prod.mk.injEq, Option.some.injEq] at h'
      obtain ⟨⟨rfl, rfl⟩, -⟩ := h'
      exact ⟨hh, ⟨g, hla, hgoal⟩, hp, hlt, List.nodup_reverse.mpr hnd, by rw [List.length_reverse]; exact hlen⟩
    · cases h'

/-- A path of drivable moves from the start to a goal. -/
def GoalPath (path : List Node) (c : Nat) : Prop :=
  FastPath W isWall cost path c ∧ path.head? = some start ∧ ∃ g, path.getLast? = some g ∧ isGoal g = true

include L in
/-- **C30.** Whatever order the queue uses among entries of equal cost: if it dropped no entry, then a returned path is
a cheapest one, and nothing is returned exactly when every path to a goal costs at least the maximum of the cost
type. -/
theorem C30_cheapest (hW : Supported W) (hstart : Legal W start) (hM : 0 < MAX) (res : Option (List Node × Nat))
    (h : shortestPath W MAX ops start isGoal isWall cost = .ok (res, false)) :
    (∀ path c, res = some (path, c) → GoalPath W start isGoal isWall cost path c ∧
      ∀ path' c', GoalPath W start isGoal isWall cost path' c' → c ≤ c') ∧
    (res = none ↔ ∀ path' c', GoalPath W start isGoal isWall cost path' c' → MAX ≤ c') := by
  obtain ⟨r, s', hE, -, hcase⟩ := plan_cases W MAX ops L start isGoal isWall cost hW hstart hM
  obtain ⟨m, X, s, hI, e1, e2, e3, hr⟩ := hE
  rcases hcase with ⟨rfl, h'⟩ | ⟨g, l, rfl, hg, hgoal, hnd, hl, -, hlt, hp, hh, hla, h'⟩
  · rw [h] at h'
    simp only [Except.ok.injEq, Prod.mk.injEq] at h'
    obtain ⟨rfl, hdr⟩ := h'
    refine ⟨by simp, ?_⟩
    simp only [true_iff]
    rintro path' c' ⟨hp, hh, g, hla, hgoal⟩
    have hb := path_bound hI (by rw [e3, ← hdr]) MAX (by rw [hr]; simp) hp start g 0 hh hla hstart (by rw [hI.D0]; omega)
    have hgX : g ∉ X := fun hx => by
      have := hI.xgoal g hx
      rw [hgoal] at this; cases this
    have := hb.1 hgX
    omega
  · rw [h] at h'
    split at h'
    · simp only [Except.ok.injEq, Prod.mk.injEq] at h'
      obtain ⟨rfl, hdr⟩ := h'
      obtain ⟨g', hg', hid, hgoal', hgX', hlt', -, hmin⟩ := hr
      have : g = g' := nid_inj hW hg hg' hid
      subst this
      have hopt : ∀ path' c', GoalPath W start isGoal isWall cost path' c' → s'.dist (slotOf W g) ≤ c' := by
        rintro path' c' ⟨hp', hh', x, hx, hxg⟩
        have hb := path_bound hI (by rw [e3, ← hdr]) (s.dist (slotOf W g)) hmin hp' start x 0 hh' hx hstart
          (by rw [hI.D0]; omega)
        have hxX : x ∉ X := fun hx' => by
          have := hI.xgoal x hx'
          rw [hxg] at this; cases this
        have := hb.1 hxX
        rw [e1] at this
        omega
      refine ⟨?_, ?_⟩
      · rintro path c hpc
        simp only [Option.some.injEq, Prod.mk.injEq] at hpc
        obtain ⟨rfl, rfl⟩ := hpc
        exact ⟨⟨hp, hh, g, hla, hgoal⟩, hopt⟩
      · simp only [reduceCtorEq, false_iff]
        intro hall
        have := hall _ _ ⟨hp, hh, g, hla, hgoal⟩
        omega
    · cases h'

include L in
/-- **C31.** For mazes up to 8 × 8 the fixed capacities suffice for every maze and every cost function: the planner
neither panics nor drops a queue entry. -/
theorem C31_small_mazes (hW : Supported W) (h8 : W ≤ 8) (hstart : Legal W start) (hM : 0 < MAX) :
    ∃ res, shortestPath W MAX ops start isGoal isWall cost = .ok (res, false) := by
  obtain ⟨r, s', -, hd, ⟨-, h'⟩ | ⟨g, l, -, hg, hgoal, hnd, hl, -, hlt, hp, hh, hla, h'⟩⟩ :=
    plan_cases W MAX ops L start isGoal isWall cost hW hstart hM
  · rw [hd h8] at h'; exact ⟨_, h'⟩
  · rw [hd h8] at h'
    have hlen : (g :: l).length ≤ 12 * W * W := legal_count _ hnd hl
    have : 12 * W * W ≤ 768 := by
      rcases hW.cases with rfl | rfl | rfl | rfl | rfl | rfl <;> first | decide | omega
    rw [if_pos (by show _ ≤ 1024; omega)] at h'
    exact ⟨_, h'⟩

include L in
/-- **C31.** For every supported size the planner terminates, and the only panic possible is that the path it has found
has more than 1024 poses. -/
theorem C31_only_long_paths_panic (hW : Supported W) (hstart : Legal W start) (hM : 0 < MAX) :
    (∃ res dropped, shortestPath W MAX ops start isGoal isWall cost = .ok (res, dropped)) ∨
    (shortestPath W MAX ops start isGoal isWall cost = .error .capacity ∧
      ∃ path c, GoalPath W start isGoal isWall cost path c ∧ c < MAX ∧ PATH_MAX < path.length) := by
  obtain ⟨r, s', -, hd, ⟨-, h'⟩ | ⟨g, l, -, hg, hgoal, hnd, hl, -, hlt, hp, hh, hla, h'⟩⟩ :=
    plan_cases W MAX ops L start isGoal isWall cost hW hstart hM
  · exact Or.inl ⟨_, _, h'⟩
  · by_cases hlen : (g :: l).length ≤ PATH_MAX
    · rw [if_pos hlen] at h'; exact Or.inl ⟨_, _, h'⟩
    · rw [if_neg hlen] at h'
      exact Or.inr ⟨h', _, _, ⟨hp, hh, g, hla, hgoal⟩, hlt, by rw [List.length_reverse]; omega⟩

theorem fastPath_length {l : List Node} {c q : Nat} (hq : ∀ k, q ≤ cost k) (h : FastPath W isWall cost l c) :
    q * (l.length - 1) ≤ c := by
  induction h with
  | single n => simp
  | cons n m k l c _ _ ih =>
    have := hq k
    simp only [List.length_cons, Nat.add_sub_cancel] at ih ⊢
    rw [Nat.mul_add, Nat.mul_one]
    omega

include L in
/-- **C31.** For every supported size: if every move costs at least `q` and the maximum of the cost type is at most
`1024 q`, the planner does not panic. -/
theorem C31_bounded_costs (hW : Supported W) (hstart : Legal W start) (hM : 0 < MAX) (q : Nat) (hq : ∀ k, q ≤ cost k)
    (hqM : MAX ≤ 1024 * q) :
    ∃ res dropped, shortestPath W MAX ops start isGoal isWall cost = .ok (res, dropped) := by
  rcases C31_only_long_paths_panic W MAX ops L start isGoal isWall cost hW hstart hM with h | ⟨-, path, c, ⟨hp, -⟩, hc, hlen⟩
  · exact h
  · have h1 := fastPath_length W isWall cost hq hp
    have hlen' : 1024 < path.length := hlen
    have : q * 1024 ≤ q * (path.length - 1) := Nat.mul_le_mul_left _ (by omega)
    omega

end Plan

/-! ### Non-vacuity: a queue satisfying the laws, and a run of the planner -/

/-- A bounded list with minimum extraction. -/
def minIdx : List (Nat × Nat) → Option ((Nat × Nat) × List (Nat × Nat))
  | [] => none
  | e :: l =>
    match minIdx l with
    | none => some (e, [])
    | some (x, r) => if e.1 ≤ x.1 then some (e, x :: r) else some (x, e :: r)

def listHeap (cap : Nat) : HeapOps where
  H := List (Nat × Nat)
  empty := []
  push h e := if h.length < cap then some (e :: h) else none
  pop := minIdx

theorem minIdx_none : ∀ l, minIdx l = none → l = []
  | [], _ => rfl
  | e :: l, h => by
    unfold minIdx at h
    split at h
    · cases h
    · split at h <;> cases h

theorem minIdx_some : ∀ l e r, minIdx l = some (e, r) → l.Perm (e :: r) ∧ ∀ x ∈ l, e.1 ≤ x.1
  | [], e, r, h => by cases h
  | a :: l, e, r, h => by
    unfold minIdx at h
    split at h
    · rename_i hn
      have := minIdx_none l hn
      subst this
      cases h
      exact ⟨List.Perm.refl _, by simp⟩
    · rename_i x r' hs
      obtain ⟨h1, h2⟩ := minIdx_some l x r' hs
      split at h
      · rename_i hle
        cases h
        refine ⟨List.Perm.cons _ h1, ?_⟩
        intro y hy
        rcases List.mem_cons.mp hy with rfl | hy
        · exact Nat.le_refl _
        · have := h2 y hy; omega
      · rename_i hle
        cases h
        refine ⟨(List.Perm.cons _ h1).trans (List.Perm.swap _ _ _), ?_⟩
        intro y hy
        rcases List.mem_cons.mp hy with rfl | hy
        · omega
        · exact h2 y hy

def listHeapLaws (cap : Nat) : HeapLaws (listHeap cap) cap where
  elems h := h
  elems_empty := rfl
  push_full h e hc := if_neg (Nat.not_lt.mpr hc)
  push_ok h e hc := ⟨e :: h, if_pos hc, List.Perm.refl _⟩
  pop_none h hp := minIdx_none h hp
  pop_some h e h' hp := minIdx_some h e h' hp

/-- A cost function: time grows with length, slaloms cost 3. -/
def demoCost : EdgeKind → Nat
  | .straight n => n + 1
  | .straightDiagonal n => n + 1
  | _ => 3

example : Legal 2 ⟨0, 0, .north⟩ ∧
    (shortestPath 2 255 (listHeap QUE_MAX) ⟨0, 0, .north⟩ (fun n => n.x == 2 && n.y == 0) (fun c => c == ⟨1, 0⟩) demoCost).toOption
      = some (some ([⟨0, 0, .north⟩, ⟨2, 0, .south⟩], 3), false) := by decide +kernel

end Verif.Props
