import Verif.Props.RunTrial
import Verif.Props.Lane
/-!
# C118: the planner of the fast run prefers a single move
-/
namespace Verif.Props
open Verif Verif.Run Verif.Spec Verif.Proof Verif.RunTrial

section Plan
variable {W MAX : Nat} {isWall : Search.Coord → Bool} {isGoal : Node → Bool} {cost : EdgeKind → Nat} {ops : HeapOps}
variable {L : HeapLaws ops QUE_MAX} {start goal : Node}

/-- The distances are costs of paths. -/
theorem inv_path (hW : Supported W) {m : Nat} {X : List Node} {Req : Node → EdgeKind → Node → Prop} {s : St ops}
    (hI : Proof.Inv L W MAX isWall isGoal cost start m X Req s) {v : Node} (hv : Legal W v) (hlt : s.dist (slotOf W v) < MAX) :
    ∃ path, FastPath W isWall cost path (s.dist (slotOf W v)) ∧ path.head? = some start ∧ path.getLast? = some v := by
  have hchain : ∃ l, Chain W s.prev start (v :: l) ∧ ∀ x ∈ v :: l, Legal W x := by
    by_cases hvs : v = start
    · exact ⟨[], hvs, by simpa using hv⟩
    · cases hp : s.prev (slotOf W v) with
      | none => have := hI.none_max v hv hp; omega
      | some j =>
        obtain ⟨u, hu, rfl, -⟩ := hI.par v hv hvs j hp
        obtain ⟨l, q1, -, q3⟩ := chain_exists hI.tree hI.nodup u hu
        refine ⟨u :: l, ⟨hvs, hp, q1⟩, ?_⟩
        intro x hx
        rcases List.mem_cons.mp hx with rfl | hx
        · exact hv
        · exact hI.xlegal x (q3 x hx)
  obtain ⟨l, q1, q2⟩ := hchain
  obtain ⟨p1, p2, p3⟩ := chain_path hI hW l v q2 q1
  exact ⟨_, p1, p2, p3⟩

/-- What the first round leaves behind about a goal one move away. -/
structure Marked (L : HeapLaws ops QUE_MAX) (W : Nat) (start goal : Node) (c : Nat) (s : St ops) : Prop where
  dist : s.dist (slotOf W goal) = c
  prev : s.prev (slotOf W goal) = some (nid W start)
  entry : (c, nid W goal) ∈ L.elems s.heap

/-- There is no cheaper way to the goal. -/
def NoCheaper (W : Nat) (isWall : Search.Coord → Bool) (cost : EdgeKind → Nat) (start goal : Node) (c : Nat) : Prop :=
  ∀ path d, FastPath W isWall cost path d → path.head? = some start → path.getLast? = some goal → c ≤ d

theorem relaxOne_marked (hW : Supported W) {m : Nat} {X : List Node} {Req : Node → EdgeKind → Node → Prop} {s : St ops}
    {c : Nat} (hcM : c < MAX) (hgl : Legal W goal) (hno : NoCheaper W isWall cost start goal c) (u v : Node) (k : EdgeKind)
    (hI : Proof.Inv L W MAX isWall isGoal cost start m X Req (relaxOne W MAX ops cost m u (v, k) s)) (hv : Legal W v)
    (hm : Marked L W start goal c s) : Marked L W start goal c (relaxOne W MAX ops cost m u (v, k) s) := by
  have hI' := hI
  unfold relaxOne at hI' ⊢
  simp only at hI' ⊢
  by_cases hd : s.dist (slotOf W v) ≤ satAdd MAX m (cost k)
  · rw [if_pos hd]
    exact hm
  · rw [if_neg hd] at hI' ⊢
    by_cases hvg : slotOf W goal = slotOf W v
    · exfalso
      have hlt : satAdd MAX m (cost k) < c := by
        rw [← hvg, hm.dist] at hd
        omega
      obtain ⟨path, p1, p2, p3⟩ := inv_path hW hI' hgl (by simp only [if_pos hvg]; omega)
      have := hno _ _ p1 p2 p3
      simp only [if_pos hvg] at this
      omega
    · obtain ⟨pd, pp⟩ := push_dist s (satAdd MAX m (cost k), nid W v)
      refine ⟨?_, ?_, ?_⟩
      · simp only [if_neg hvg, pd]
        exact hm.dist
      · simp only [if_neg hvg, pp]
        exact hm.prev
      · rcases push_cases L s (satAdd MAX m (cost k), nid W v) with ⟨hp, _⟩ | ⟨_, hh, _⟩
        · exact hp.mem_iff.mpr (by simp [hm.entry])
        · simp only [hh]
          exact hm.entry

theorem relaxAll_marked (hW : Supported W) (hstart : Legal W start) {m : Nat} {X : List Node} {c : Nat} (hcM : c < MAX) (hgl : Legal W goal)
    (hno : NoCheaper W isWall cost start goal c) (u : Node) (hu : u ∈ X) :
    ∀ (l : List (Node × EdgeKind)) (Req : Node → EdgeKind → Node → Prop) (s : St ops),
      Proof.Inv L W MAX isWall isGoal cost start m X Req s → s.dist (slotOf W u) = m → (∀ e ∈ l, Drivable W isWall u e.2 e.1) →
      Marked L W start goal c s → Marked L W start goal c (l.foldl (fun s e => relaxOne W MAX ops cost m u e s) s)
  | [], _, _, _, _, _, hm => hm
  | (v, k) :: l, Req, s, hI, hc, hl, hm => by
    obtain ⟨h1, h2⟩ := relaxOne_inv hW hI hstart u v k hu hc (hl (v, k) (by simp))
    have hv : Legal W v := drivable_legal (hI.xlegal u hu) k v (hl (v, k) (by simp))
    exact relaxAll_marked hW hstart hcM hgl hno u hu l _ _ h1 h2 (fun e he => hl e (by simp [he])) (relaxOne_marked hW hcM hgl hno u v k h1 hv hm)

theorem mainLoop_marked (hW : Supported W) (hstart : Legal W start) {c : Nat} (hcM : c < MAX) (hgl : Legal W goal) (hg : isGoal goal = true)
    (hno : NoCheaper W isWall cost start goal c) :
    ∀ (fuel m : Nat) (X : List Node) (s : St ops),
      Proof.Inv L W MAX isWall isGoal cost start m X (AllEdges W isWall X) s → Marked L W start goal c s →
      ∀ r s', mainLoop W MAX ops isGoal isWall cost fuel s = .ok (r, s') →
        s'.dist (slotOf W goal) = c ∧ s'.prev (slotOf W goal) = some (nid W start) ∧ ∃ g, r = some (nid W g) ∧ Legal W g ∧ s'.dist (slotOf W g) ≤ c
  | 0, _, _, _, _, _, r, s', h => by cases h
  | fuel + 1, m, X, s, hI, hm, r, s', hh => by
    unfold mainLoop at hh
    cases hpop : ops.pop s.heap with
    | none =>
      have := hm.entry
      rw [L.pop_none _ hpop] at this
      cases this
    | some p =>
      obtain ⟨⟨d, i⟩, h⟩ := p
      obtain ⟨hp, hmin⟩ := L.pop_some _ _ _ hpop
      obtain ⟨v, hv, h1, h2, h3, h4⟩ := hI.ent (d, i) (hp.mem_iff.mpr (by simp))
      simp only at h1 h2 h3 h4
      have hs := slot_lt hW hv
      subst h1
      rw [hpop] at hh
      simp only [idIndex_nid, arrGet, if_pos hs, bind, Except.bind] at hh
      have hd : d ≤ c := hmin _ hm.entry
      -- the entry stays unless it is the one popped
      have hstay : v ≠ goal ∨ s.dist (slotOf W v) < d → Marked L W start goal c { s with heap := h } := by
        intro ho
        refine ⟨hm.dist, hm.prev, ?_⟩
        rcases List.mem_cons.mp (hp.mem_iff.mp hm.entry) with he | he
        · exfalso
          obtain ⟨e1, e2⟩ := Prod.mk.inj he
          have : goal = v := nid_inj hW hgl hv e2
          subst this
          rw [hm.dist] at ho
          rcases ho with ho | ho
          · exact ho rfl
          · omega
        · exact he
      by_cases hst : s.dist (slotOf W v) < d
      · rw [if_pos hst] at hh
        exact mainLoop_marked hW hstart hcM hgl hg hno fuel m X _ (pop_stale hI d _ h hpop hW v hv rfl hst) (hstay (.inr hst)) r s' hh
      · rw [if_neg hst] at hh
        have hst' : s.dist (slotOf W v) = d := by omega
        have hof : Node.ofId W (nid W v) = .ok v := ofId_slot W hW v hv
        simp only [hof] at hh
        cases hgv : isGoal v with
        | true =>
          simp only [hgv, if_true] at hh
          cases hh
          exact ⟨hm.dist, hm.prev, v, rfl, hv, by simp only; omega⟩
        | false =>
          simp only [hgv, Bool.false_eq_true, if_false] at hh
          obtain ⟨l, hl, -, hmem⟩ := successors_iff (isWall := isWall) hW hv
          have hdr : ∀ e ∈ l, Drivable W isWall v e.2 e.1 := fun e he => (hmem e.1 e.2).mp he
          have hleg : ∀ e ∈ l, Legal W e.1 := fun e he => drivable_legal hv _ _ (hdr e he)
          simp only [hl] at hh
          rw [relax_eq hW d v l _ hleg] at hh
          obtain ⟨hvX, hI1⟩ := pop_fresh hI d _ h hpop hW v hv rfl hst' hgv
          have hI2 := relaxAll_inv hW hstart v (by simp) l _ _ hI1 hst' hdr
          have hI3 : Proof.Inv L W MAX isWall isGoal cost start d (v :: X) (AllEdges W isWall (v :: X))
              (l.foldl (fun s e => relaxOne W MAX ops cost d v e s) { s with heap := h }) := by
            refine { hI2 with req := fun a b d hab => hI2.req a b d ?_ }
            obtain ⟨ha, hab⟩ := hab
            rcases List.mem_cons.mp ha with rfl | ha
            · exact Or.inr ⟨rfl, (hmem d b).mpr hab⟩
            · exact Or.inl ⟨ha, hab⟩
          have hvg : v ≠ goal := fun e => by rw [e, hg] at hgv; cases hgv
          exact mainLoop_marked hW hstart hcM hgl hg hno fuel d (v :: X) _ hI3
            (relaxAll_marked hW hstart hcM hgl hno v (by simp) l _ _ hI1 hst' hdr (hstay (.inl hvg))) r s' hh

/-- The planner, with its main loop. -/
theorem shortestPath_loop (L : HeapLaws ops QUE_MAX) (hW : Supported W) (hstart : Legal W start) (hM : 0 < MAX) :
    ∃ r s', mainLoop W MAX ops isGoal isWall cost FUEL (init W MAX ops start) = .ok (r, s') ∧ Ends L W MAX isWall isGoal cost start r s' ∧
      shortestPath W MAX ops start isGoal isWall cost =
        match r with
        | none => .ok (none, s'.dropped)
        | some g => (do
            let path ← backLoop W s'.prev (nid W start) (PATH_MAX + 1) g []
            let d ← arrGet QUE_MAX s'.dist (idIndex g)
            return (some (path.reverse, d), s'.dropped)) := by
  have hW1 := hW.le
  have hdeg : ∀ n, Legal W n → ∀ l, n.successors W isWall = .ok l → l.length ≤ max (W + 8) (2 * W + 2) := by
    intro n hn l hl
    obtain ⟨l', h1, h2, -⟩ := successors_iff (isWall := isWall) hW hn
    rw [hl] at h1
    cases h1
    exact h2
  obtain ⟨hI, hlen, hdr⟩ := init_inv (isWall := isWall) (isGoal := isGoal) (cost := cost) L hW hstart hM
  have hNW : 12 * W * W ≤ 12288 := by
    rcases hW.cases with rfl | rfl | rfl | rfl | rfl | rfl <;> decide
  have hprod : max (W + 8) (2 * W + 2) * (12 * W * W - ([] : List Node).length) ≤ 68 * 12288 :=
    Nat.mul_le_mul (by omega) (by simp; omega)
  obtain ⟨r, s', e1, e2, -⟩ := mainLoop_spec hW hstart _ (12 * W * W) hdeg (fun X h1 h2 => legal_count X h1 h2) FUEL 0 []
    (init W MAX ops start) hI (by rw [hlen]; show _ < 68 * 16384 + 2; omega)
  refine ⟨r, s', e1, e2, ?_⟩
  unfold shortestPath
  have hs := slot_lt hW hstart
  rw [toId_eq W hW start hstart]
  show (do
    let dist ← arrSet QUE_MAX (fun _ => MAX) (idIndex (nid W start)) 0
    let prev ← arrSet QUE_MAX (fun _ => (none : Option Nat)) (idIndex (nid W start)) (some (nid W start))
    let (goal, s) ← mainLoop W MAX ops isGoal isWall cost FUEL ((⟨dist, prev, ops.empty, false⟩ : St ops).push (0, nid W start))
    match goal with
    | none => return (none, s.dropped)
    | some goal => do
      let path ← backLoop W s.prev (nid W start) (PATH_MAX + 1) goal []
      let d ← arrGet QUE_MAX s.dist (idIndex goal)
      return (some (path.reverse, d), s.dropped)) = _
  rw [idIndex_nid]
  unfold arrSet
  simp only [if_pos hs, bind, Except.bind]
  have := e1
  unfold init at this
  rw [this]
  cases r <;> rfl

/-- The first round of the planner. -/
theorem mainLoop_first (L : HeapLaws ops QUE_MAX) (hW : Supported W) (hstart : Legal W start) (hsg : isGoal start = false)
    {k : EdgeKind} (hd : Drivable W isWall start k goal) (hgs : goal ≠ start) (hcM : cost k < MAX)
    (hno : NoCheaper W isWall cost start goal (cost k)) (fuel : Nat) :
    ∃ s, mainLoop W MAX ops isGoal isWall cost (fuel + 1) (init W MAX ops start) = mainLoop W MAX ops isGoal isWall cost fuel s ∧
      Proof.Inv L W MAX isWall isGoal cost start 0 [start] (AllEdges W isWall [start]) s ∧ Marked L W start goal (cost k) s := by
  have hgl : Legal W goal := drivable_legal hstart k goal hd
  obtain ⟨hI, hlen, hdr⟩ := init_inv (isWall := isWall) (isGoal := isGoal) (cost := cost) L hW hstart (by omega : 0 < MAX)
  have hD0 := hI.D0
  have hent := hI.pend hdr start hstart (by simp) (by rw [hD0]; omega)
  rw [hD0] at hent
  cases hpop : ops.pop (init W MAX ops start).heap with
  | none => rw [L.pop_none _ hpop] at hent; cases hent
  | some p =>
    obtain ⟨⟨d, i⟩, h⟩ := p
    obtain ⟨hp, hmin⟩ := L.pop_some _ _ _ hpop
    have hlen' := hp.length_eq
    rw [hlen, List.length_cons] at hlen'
    have hnil : L.elems h = [] := List.length_eq_zero_iff.1 (by omega)
    rw [hnil] at hp
    have he : ((0, nid W start) : Nat × Nat) = (d, i) := by simpa using hp.mem_iff.mp hent
    cases he
    obtain ⟨l, hl, hll, hmem⟩ := successors_iff (isWall := isWall) hW hstart
    have hdrv : ∀ e ∈ l, Drivable W isWall start e.2 e.1 := fun e he => (hmem e.1 e.2).mp he
    have hleg : ∀ e ∈ l, Legal W e.1 := fun e he => drivable_legal hstart _ _ (hdrv e he)
    obtain ⟨-, hI1⟩ := pop_fresh hI 0 _ h hpop hW start hstart rfl hD0 hsg
    have hI2 := relaxAll_inv hW hstart start (by simp) l _ _ hI1 hD0 hdrv
    have hI3 : Proof.Inv L W MAX isWall isGoal cost start 0 [start] (AllEdges W isWall [start])
        (l.foldl (fun s e => relaxOne W MAX ops cost 0 start e s) { init W MAX ops start with heap := h }) := by
      refine { hI2 with req := fun a b d hab => hI2.req a b d ?_ }
      obtain ⟨ha, hab⟩ := hab
      rcases List.mem_cons.mp ha with rfl | ha
      · exact Or.inr ⟨rfl, (hmem d b).mpr hab⟩
      · cases ha
    have hln := relaxAll_len (W := W) (MAX := MAX) (cost := cost) L 0 start l { init W MAX ops start with heap := h }
    refine ⟨_, ?_, hI3, ?_⟩
    · rw [mainLoop, hpop]
      have hof : Node.ofId W (nid W start) = .ok start := ofId_slot W hW start hstart
      simp only [idIndex_nid, arrGet, if_pos (slot_lt hW hstart), bind, Except.bind, hD0, Nat.lt_irrefl, if_false, hof, hsg, Bool.false_eq_true, hl]
      rw [relax_eq hW 0 start l _ hleg]
    · obtain ⟨s, hs⟩ : ∃ s, s = l.foldl (fun s e => relaxOne W MAX ops cost 0 start e s) { init W MAX ops start with heap := h } := ⟨_, rfl⟩
      rw [← hs] at hI3 hln ⊢
      obtain ⟨-, -, h3⟩ := hI3.req start k goal ⟨by simp, hd⟩
      rw [hI3.D0] at h3
      have hle : s.dist (slotOf W goal) ≤ cost k := by unfold satAdd at h3; omega
      obtain ⟨path, p1, p2, p3⟩ := inv_path hW hI3 hgl (by omega)
      have hge := hno _ _ p1 p2 p3
      have hdist : s.dist (slotOf W goal) = cost k := by omega
      have hdrop : s.dropped = false := by
        rw [hln.2 ?_]
        · exact hdr
        · simp only [hnil, List.length_nil]
          have := hW.le
          show _ ≤ 16384
          omega
      refine ⟨hdist, ?_, ?_⟩
      · cases hpr : s.prev (slotOf W goal) with
        | none => have := hI3.none_max goal hgl hpr; omega
        | some j =>
          obtain ⟨u, hu, rfl, -⟩ := hI3.par goal hgl hgs j hpr
          rw [List.mem_singleton.1 hu]
      · have := hI3.pend hdrop goal hgl (by simpa using hgs) (by omega)
        rwa [hdist] at this

/-- C118: when one move leads to a goal, no way to a goal is cheaper, and no other goal is as cheap, the planner returns this one move, and not a sequence of
moves of the same cost: for every maze, every cost function, every order in which the queue returns equal entries, and also when the queue overflows. -/
theorem C118_direct (L : HeapLaws ops QUE_MAX) (hW : Supported W) (hstart : Legal W start) (hsg : isGoal start = false) (hg : isGoal goal = true)
    {k : EdgeKind} (hd : Drivable W isWall start k goal) (hcM : cost k < MAX)
    (hbest : ∀ path d g, FastPath W isWall cost path d → path.head? = some start → path.getLast? = some g → isGoal g = true → cost k ≤ d ∧ (d = cost k → g = goal)) :
    ∃ dropped, shortestPath W MAX ops start isGoal isWall cost = .ok (some ([start, goal], cost k), dropped) := by
  have hgl : Legal W goal := drivable_legal hstart k goal hd
  have hgs : goal ≠ start := fun e => by rw [e, hsg] at hg; cases hg
  have hno : NoCheaper W isWall cost start goal (cost k) := fun path d h1 h2 h3 => (hbest path d goal h1 h2 h3 hg).1
  obtain ⟨r, s', e1, hE, heq⟩ := shortestPath_loop (isWall := isWall) (isGoal := isGoal) (cost := cost) (MAX := MAX) L hW hstart (by omega)
  obtain ⟨s, f1, hI, hm⟩ := mainLoop_first (isGoal := isGoal) L hW hstart hsg hd hgs hcM hno (NEIGHBOR_MAX * QUE_MAX + 1)
  have e1' : mainLoop W MAX ops isGoal isWall cost (NEIGHBOR_MAX * QUE_MAX + 1) s = .ok (r, s') := f1.symm.trans e1
  obtain ⟨d1, d2, g, rfl, hgl', hdg⟩ := mainLoop_marked hW hstart hcM hgl hg hno _ _ _ _ hI hm r s' e1'
  obtain ⟨m, X, t, hJ, t1, t2, t3, g', hg', hid, hgg, -, hlt, -, -⟩ := hE
  have hgg' : g = g' := nid_inj hW hgl' hg' hid
  subst hgg'
  obtain ⟨path, p1, p2, p3⟩ := inv_path hW hJ hgl' hlt
  obtain ⟨b1, b2⟩ := hbest _ _ g p1 p2 p3 hgg
  rw [t1] at b1 b2
  have hgeq : g = goal := b2 (by omega)
  subst hgeq
  refine ⟨s'.dropped, ?_⟩
  rw [heq]
  simp only
  have hP0 := hJ.P0
  rw [t2] at hP0
  rw [backLoop_eq hW hP0 hstart (PATH_MAX + 1) g [start] [] ⟨hgs, d2, rfl⟩ (by simp [hgl, hstart]) (by simp) (by simp)]
  rw [if_pos (by show 0 + 2 ≤ 1024; norm_num), idIndex_nid]
  simp only [arrGet, if_pos (slot_lt hW hgl), bind, Except.bind, pure, Except.pure, d1]
  rfl

end Plan

/-! ## Straight ahead -/

/-- With the costs of the test, driving north costs at least 5 for every half square, and no more only on a straight. -/
theorem climb_edge {W : Nat} {isWall : Search.Coord → Bool} {n m : Node} {k : EdgeKind} (hn : Legal W n) (h : Drivable W isWall n k m) :
    5 * (m.y : Int) ≤ 5 * n.y + runCost k ∧ (5 * (m.y : Int) = 5 * n.y + runCost k → n.posture = .north → m.x = n.x ∧ m.posture = .north) := by
  obtain ⟨cr, ⟨f, s, fin, head, cr', hf, hs, hx, hy, hh, -⟩, -⟩ := h
  obtain ⟨nx, ny, np⟩ := n
  obtain ⟨mx, my, mp⟩ := m
  unfold Frame at hf
  unfold Shape at hs
  obtain ⟨-, -, hn⟩ := hn
  simp only at *
  by_cases hc : nx % 2 = 0 ∧ ny % 2 = 0
  · rw [if_pos hc] at hf hs
    obtain ⟨rfl, hf⟩ := hf
    have hp : np ∈ [Posture.north, .east, .south, .west] := by
      rcases hn with hn | hn
      · exact hn.2.2
      · omega
    clear hn
    cases hs with
    | straight q hq =>
      rcases hf with rfl | rfl <;> cases np <;> simp [inFrame, Spec.heading, runCost] at * <;> first | omega | (refine ⟨by omega, ?_⟩; cases mp <;> simp_all [Spec.heading])
    | _ => rcases hf with rfl | rfl <;> cases np <;> simp [inFrame, Spec.heading, runCost] at * <;> omega
  · rw [if_neg hc] at hf hs
    cases hs with
    | straightDiagonal q hq =>
      split at hf <;> obtain ⟨rfl, rfl⟩ := hf <;> cases np <;> simp [inFrame, Spec.heading, runCost] at * <;> omega
    | _ => split at hf <;> obtain ⟨rfl, rfl⟩ := hf <;> cases np <;> simp [inFrame, Spec.heading, runCost] at * <;> omega

theorem climb_path {W : Nat} {isWall : Search.Coord → Bool} {path : List Node} {c : Nat} (h : FastPath W isWall runCost path c) :
    ∀ a g, Legal W a → path.head? = some a → path.getLast? = some g →
      5 * (g.y : Int) ≤ 5 * a.y + c ∧ (5 * (g.y : Int) = 5 * a.y + c → a.posture = .north → g.x = a.x ∧ g.posture = .north) := by
  induction h with
  | single n =>
    intro a g _ ha hg
    simp only [List.head?_cons, Option.some.injEq, List.getLast?_singleton] at ha hg
    subst ha hg
    exact ⟨by omega, fun _ h => ⟨rfl, h⟩⟩
  | cons n m k l c hd _ ih =>
    intro a g hal ha hg
    cases ha
    rw [List.getLast?_cons_cons] at hg
    obtain ⟨i1, i2⟩ := ih m g (drivable_legal hal k m hd) rfl hg
    obtain ⟨e1, e2⟩ := climb_edge hal hd
    refine ⟨by push_cast; omega, fun he hn => ?_⟩
    push_cast at he
    obtain ⟨f1, f2⟩ := e2 (by omega) hn
    obtain ⟨g1, g2⟩ := i2 (by omega) f2
    exact ⟨g1.trans f1, g2⟩

/-- The straight of `k` squares from the start. -/
theorem straight_drivable {W k : Nat} {isWall : Search.Coord → Bool} (hk : 0 < k) (hkW : k < W)
    (hopen : ∀ i < k, isWall ⟨0, 2 * i + 1⟩ = false) : Drivable W isWall ⟨0, 0, .north⟩ (.straight k) ⟨0, 2 * k, .north⟩ := by
  refine ⟨_, ⟨(0, 1), (1, 0), _, _, _, ⟨rfl, .inl rfl⟩, FromCentre.straight k hk, ?_, ?_, rfl, rfl⟩, by show 0 < _; omega, by show 2 * k < _; omega, ?_⟩
  · simp [inFrame]
  · simp [inFrame]
  · intro d hd
    simp only [List.map_map, List.mem_map, List.mem_range, Function.comp_apply] at hd
    obtain ⟨i, hi, rfl⟩ := hd
    refine ⟨⟨0, 2 * i + 1⟩, by simp [inFrame], by simp [inFrame], ?_, hopen i hi⟩
    simp [Valid]
    omega

/-- C118: in the test of the fast run, when the way straight ahead from the start to a goal is open, and no goal is nearer in this direction, the planner returns the
one straight to this goal, whatever else is in the maze. -/
theorem C118_straight {W : Nat} (hW : Supported W) {ops : HeapOps} (L : HeapLaws ops QUE_MAX) {isWall : Search.Coord → Bool} {goals : List Node} {k : Nat}
    (hk : 0 < k) (hkW : k < W) (hopen : ∀ i < k, isWall ⟨0, 2 * i + 1⟩ = false) (hg : ⟨0, 2 * k, .north⟩ ∈ goals) (hfar : ∀ g ∈ goals, 2 * k ≤ g.y) :
    ∃ dropped, shortestPath W 65535 ops ⟨0, 0, .north⟩ (fun n => decide (n ∈ goals)) isWall runCost =
      .ok (some ([⟨0, 0, .north⟩, ⟨0, 2 * k, .north⟩], 10 * k), dropped) := by
  have hW1 := hW.le
  have hc : runCost (.straight k) = 10 * k := Nat.mul_comm k 10
  rw [← hc]
  refine C118_direct L hW (start_legal hW) ?_ (by simpa using hg) (straight_drivable hk hkW hopen) (by rw [hc]; omega) ?_
  · simp only [decide_eq_false_iff_not]
    intro hs
    have := hfar _ hs
    simp only at this
    omega
  · intro path d g hp hh hl hgg
    have hgg' : g ∈ goals := by simpa using hgg
    have hf := hfar g hgg'
    obtain ⟨c1, c2⟩ := climb_path hp _ g (start_legal hW) hh hl
    simp only at c1 c2
    rw [hc]
    refine ⟨by omega, fun hd => ?_⟩
    obtain ⟨g1, g2⟩ := c2 (by omega) trivial
    obtain ⟨gx, gy, gp⟩ := g
    simp only at *
    subst g1 g2
    congr 1
    omega

/-- C117, C118: a maze whose fourth square is a goal of the run, and a heap: the planner returns the straight way, so that the run test does not panic before its
first round. -/
example : ∃ text maze, Walls.fromStr 16 text = .ok (.ok maze) ∧ (∀ i < 3, shut 16 maze ⟨0, 2 * i + 1⟩ = false) ∧
    (∃ dropped, shortestPath 16 65535 (listHeap QUE_MAX) ⟨0, 0, .north⟩ (fun n => decide (n ∈ [(⟨0, 6, .north⟩ : Node), ⟨8, 8, .east⟩])) (shut 16 maze) runCost =
      .ok (some ([⟨0, 0, .north⟩, ⟨0, 6, .north⟩], 30), dropped)) ∧
    wholeRun .real Real.pi 16 (listHeap QUE_MAX) 0 text [(0, 6, .north), (8, 8, .east)] = .ok none := by
  obtain ⟨maze, e, f, -⟩ := C09_canonical (W := 16) ⟨4, by omega, rfl⟩ (fun c => decide (c.x = 31 ∨ c.y = 31 ∨ c.x = 1))
  have ho : ∀ i < 3, shut 16 maze ⟨0, 2 * i + 1⟩ = false := by
    intro i hi
    unfold shut
    rw [f _ ⟨by simp, by simp only; omega, by simp only; omega⟩]
    have : 2 * i + 1 ≠ 31 := by omega
    simp [this]
  obtain ⟨d, hp⟩ := C118_straight (W := 16) (k := 3) ⟨4, by omega, rfl⟩ (listHeapLaws QUE_MAX) (isWall := shut 16 maze) (goals := [⟨0, 6, .north⟩, ⟨8, 8, .east⟩]) (by omega) (by omega) ho (by simp)
    (by simp)
  refine ⟨_, maze, e, ho, ⟨d, hp⟩, ?_⟩
  rcases C117_outcome (W := 16) (goals := [⟨0, 6, .north⟩, ⟨8, 8, .east⟩]) ⟨4, by omega, rfl⟩ (listHeapLaws QUE_MAX) Real.pi e (by decide) (by decide) with
    ⟨h, -⟩ | ⟨d, h, -⟩ | ⟨path, k, d, goal, tr, l, q, v, -, -, -, -, -, h | ⟨i, t, x, m, -, -, -, h⟩⟩
  · rw [hp] at h; cases h
  · rw [hp] at h; cases h
  · exact (h 0).trans (congrArg _ (if_pos (Nat.zero_le l.length)))
  · exact (h 0).trans (if_pos (Nat.zero_le i))

/-- C117: with the start among the goals the planner returns at once. -/
example : (shortestPath 2 65535 (listHeap QUE_MAX) ⟨0, 0, .north⟩ (fun n => decide (n ∈ [(⟨0, 0, .north⟩ : Node)])) (fun _ => false) runCost).toOption =
    some (some ([⟨0, 0, .north⟩], 0), false) := by decide +kernel

open Control Trial Verif.RunTrial Estimate Sim in
/-- C117: a round that fails, of a robot that stands on its first square, between the borders and away from the pillars: the target asks for an acceleration of
1000 m/s². -/
example (maze : Walls.Walls) : ∃ e, Refused (runGear .real Real.pi) (initialRun maze []) (onLane 0.045 0.045 0 1000 0) e ∧
    believed (runGear .real Real.pi) (initialRun maze []) = ⟨⟨0.045, 0, 0⟩, ⟨0.045, 0, 0⟩, ⟨Real.pi / 2, 0, 0⟩⟩ := by
  have hl := (initial_lane maze maze 0).estimate
  have hb : believed (runGear .real Real.pi) (initialRun maze []) = ⟨⟨0.045, 0, 0⟩, ⟨0.045, 0, 0⟩, ⟨Real.pi / 2, 0, 0⟩⟩ := by
    have := congrArg Prod.snd hl
    refine (show believed (runGear .real Real.pi) (initialRun maze []) = _ from this).trans ?_
    simp [Along.place, Along.speed]
  have key : ∃ e, Refused (runGear .real Real.pi) (initialRun maze []) (onLane 0.045 0.045 0 1000 0) e := by
    cases hs : (runGear .real Real.pi).supervisor.supervise (runGear .real Real.pi).T (demanded (runGear .real Real.pi) (initialRun maze []) (onLane 0.045 0.045 0 1000 0))
      (believed (runGear .real Real.pi) (initialRun maze [])) with
    | error e => exact ⟨e, .inl hs⟩
    | ok i =>
      refine ⟨.assert, .inr ⟨rfl, i, hs, ?_⟩⟩
      rintro left right ⟨tr, a, b, c, v, h1, h2, rfl, rfl⟩
      rw [hb] at h1
      have hu : ∀ ux uy, ¬ usesJerk (runGear .real Real.pi).T (initialRun maze []).tracker ⟨⟨0.045, 0, 0⟩, ⟨0.045, 0, 0⟩, ⟨Real.pi / 2, 0, 0⟩⟩ (onLane 0.045 0.045 0 1000 0) ux uy := by
        intro ux uy hj
        unfold usesJerk at hj
        have := hj.1
        simp [initialRun, onLane] at this
        norm_num at this
      have ht : ∀ inp : TrackingInput, ((initialRun maze []).tracker.track .real Real.pi ⟨⟨0.045, 0, 0⟩, ⟨0.045, 0, 0⟩, ⟨Real.pi / 2, 0, 0⟩⟩
          (onLane 0.045 0.045 0 1000 0) inp).2 = (⟨0, 1000, 0, 0⟩, ⟨0, 0, 0, 0⟩) := by
        intro inp
        unfold Tracker.track
        have : ¬ ((0.2 : ℝ) < 0 ∧ True) := by norm_num
        simp [initialRun, onLane, Trig.real]
        norm_num
      have hab : (a, b) = (⟨0, 1000, 0, 0⟩, ⟨0, 0, 0, 0⟩) := by
        unfold trackSupervised at h1
        split at h1
        · exact (congrArg Prod.snd (Option.some.inj h1)).symm.trans (ht _)
        · rw [if_neg (hu _ _)] at h1
          exact (congrArg Prod.snd (Option.some.inj h1)).symm.trans (ht _)
      cases hab
      left
      have : v.left = 1000 * 0.4443 / 1.865 := by
        have h3 : v = _ := (congrArg Prod.snd h2).symm
        rw [h3]
        simp [Controller.control, controlEach, initialRun, Controller.new]
      rw [this]
      norm_num
  obtain ⟨e, he⟩ := key
  exact ⟨e, he, hb⟩

end Verif.Props
