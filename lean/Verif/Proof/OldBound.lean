import Verif.Proof.OldTour
import Mathlib.Data.Finset.Prod
import Mathlib.Data.Finset.Card
import Mathlib.Data.Fintype.Basic
/-! The former search ends. -/
namespace Verif.Proof.OldS
open Verif Verif.Run Verif.Spec Verif.Old Verif.Old.Search Verif.Proof Verif.Proof.OldN Verif.Props

variable {W : Nat} {n m cur : Node} {cost : Pattern → Nat} {P : Config} {real : Wall → Bool} {b b' : Belief} {goal0 : Node} {rest path : List Node}
  {isWall : Search.Coord → Bool}

/-! ## The totals decrease -/

/-- The rest of a way, seen from another pose: it can be driven as it is, or is joined later. -/
theorem way_from {x z v : Node} {p : List Node} {c q : Nat} (hq : ∀ k ∈ moves, q ≤ cost (kindPattern k))
    (h : Trip (wayEdges W isWall cost cur) z p c v) :
    Trip (wayEdges W isWall cost x) z p c v ∨
    ∃ y k p' c', SearchMove W isWall x k y ∧ Trip (wayEdges W isWall cost x) y p' c' v ∧ c' + q ≤ c := by
  induction h with
  | here u => exact Or.inl (.here u)
  | step he ht ih =>
    rename_i u z v w c p
    obtain ⟨ho, ⟨k, hk, rfl⟩, -⟩ := he
    have := hq k (turns_kind hk)
    rcases ih with ih | ⟨y, k', p', c', h1, h2, h3⟩
    · by_cases hz : ∃ k, SearchMove W isWall x k z
      · obtain ⟨k', hk'⟩ := hz
        exact Or.inr ⟨z, k', p, c, hk', ih, by omega⟩
      · exact Or.inl (.step ⟨ho, ⟨k, hk, rfl⟩, hz⟩ ih)
    · exact Or.inr ⟨y, k', p', c', h1, h2, by omega⟩

/-- After the move into the first pose of a way the rest of it costs less. -/
theorem way_advance {x : Node} {S : List Node} {t q : Nat} (hq : ∀ k ∈ moves, q ≤ cost (kindPattern k) ∧ cost (kindPattern k) ≤ 2 * q)
    (hS : ∀ v ∈ S, OpenPose W isWall v) (hx : x ∉ S) (h : Total W isWall cost cur S x t) :
    ∃ y t', Total W isWall cost x S y t' ∧ t' + q ≤ t := by
  obtain ⟨k, p, c, v, hk, ht, hv, rfl⟩ := h
  have h0 := (hq k (turns_kind hk.1)).1
  cases ht with
  | here => exact absurd hv hx
  | step he ht =>
    rename_i z w c p
    obtain ⟨-, ⟨k', hk', rfl⟩, -⟩ := he
    have hz : OpenPose W isWall z := by
      cases ht with
      | here => exact hS _ hv
      | step he _ => exact he.1
    have h1 := hq k' (turns_kind hk')
    rcases way_from (x := x) (fun k hk => (hq k hk).1) ht with h2 | ⟨y, k2, p', c', h2, h3, h4⟩
    · exact ⟨z, _, ⟨k', p, c, v, ⟨hk', hz⟩, h2, hv, rfl⟩, by omega⟩
    · refine ⟨y, _, ⟨k2, p', c', v, h2, h3, hv, rfl⟩, ?_⟩
      have := hq k2 (turns_kind h2.1)
      omega

/-- No least total is larger than that of a way through every pose. -/
theorem total_bound {x : Node} {S : List Node} {t q : Nat} (hq : ∀ k ∈ moves, q ≤ cost (kindPattern k) ∧ cost (kindPattern k) ≤ 2 * q)
    (hS : ∀ v ∈ S, SearchLegal W v) (h : LeastTotal W isWall cost cur S x t) : t ≤ 8 * (W * W) * q := by
  obtain ⟨⟨k, p, c, v, hk, ht, hv, rfl⟩, hmin⟩ := h
  obtain ⟨p', c', h1, h2, h3⟩ := trip_simple ht
  have h4 := few_nodes h2 (way_legal (hS v hv) h1)
  have h5 := trip_cost (M := 2 * q) h1 (by rintro a w b ⟨-, ⟨k, hk, rfl⟩, -⟩; exact (hq k (turns_kind hk)).2)
  have h6 := (hq k (turns_kind hk.1)).2
  have h7 : p'.length * (2 * q) ≤ 4 * (W * W) * (2 * q) := Nat.mul_le_mul_right _ h4
  have h8 := hmin _ ⟨k, p', c', v, hk, h1, hv, rfl⟩
  have h9 : 4 * (W * W) * (2 * q) = 8 * (W * W) * q := by ring
  omega

/-! ## What is not known decreases -/

/-- How many walls have not been checked. -/
def uncheckedCount (W : Nat) (b : Belief) : Nat :=
  ((Finset.range W ×ˢ Finset.range W ×ˢ (Finset.univ : Finset Bool)).filter fun q => b.checked ⟨q.1, q.2.1, q.2.2⟩ = false).card

theorem unchecked_le (W : Nat) (b : Belief) : uncheckedCount W b ≤ 2 * (W * W) := by
  refine (Finset.card_filter_le _ _).trans ?_
  rw [Finset.card_product, Finset.card_product, Finset.card_range, show (Finset.univ : Finset Bool).card = 2 from rfl]
  exact Nat.le_of_eq (by ring)

theorem unchecked_learn (hL : Learns b b') : uncheckedCount W b' ≤ uncheckedCount W b := by
  refine Finset.card_le_card ?_
  intro q hq
  rw [Finset.mem_filter] at hq ⊢
  refine ⟨hq.1, ?_⟩
  cases h : b.checked ⟨q.1, q.2.1, q.2.2⟩ with
  | false => rfl
  | true => rw [hL _ h] at hq; exact absurd hq.2 (by simp)

/-- What is known of the walls is the same. -/
def Same (b b' : Belief) : Prop := b'.checked = b.checked ∧ b'.present = b.present

theorem same_of (hT : TrueBelief W real b) (hT' : TrueBelief W real b') (hL : Learns b b') (h : uncheckedCount W b ≤ uncheckedCount W b') :
    Same b b' := by
  have hsub : ((Finset.range W ×ˢ Finset.range W ×ˢ (Finset.univ : Finset Bool)).filter fun q => b'.checked ⟨q.1, q.2.1, q.2.2⟩ = false) ⊆
      ((Finset.range W ×ˢ Finset.range W ×ˢ (Finset.univ : Finset Bool)).filter fun q => b.checked ⟨q.1, q.2.1, q.2.2⟩ = false) := by
    intro q hq
    rw [Finset.mem_filter] at hq ⊢
    refine ⟨hq.1, ?_⟩
    cases h : b.checked ⟨q.1, q.2.1, q.2.2⟩ with
    | false => rfl
    | true => rw [hL _ h] at hq; exact absurd hq.2 (by simp)
  have heq := Finset.eq_of_subset_of_card_le hsub h
  have hc : b'.checked = b.checked := by
    funext w
    cases hw : b.checked w with
    | true => exact hL w hw
    | false =>
      by_cases hin : w.x < W ∧ w.y < W
      · have : (w.x, w.y, w.top) ∈ ((Finset.range W ×ˢ Finset.range W ×ˢ (Finset.univ : Finset Bool)).filter fun q => b.checked ⟨q.1, q.2.1, q.2.2⟩ = false) := by
          rw [Finset.mem_filter]
          exact ⟨by simp [hin.1, hin.2], hw⟩
        rw [← heq, Finset.mem_filter] at this
        exact this.2
      · exact hT'.outside w hin
  refine ⟨hc, funext fun w => ?_⟩
  cases hw : b.checked w with
  | true => rw [hT.known w hw, hT'.known w (by rw [hc, hw])]
  | false => rw [hT.unknown w hw, hT'.unknown w (by rw [hc, hw])]

theorem uncheckedOf_same (hS : b'.checked = b.checked) : ∀ (ws : List Wall) (acc : List Node), uncheckedOf W b' ws acc = uncheckedOf W b ws acc
  | [], acc => rfl
  | w :: ws, acc => by
    unfold uncheckedOf
    rw [hS]
    simp only [uncheckedOf_same hS ws]

theorem uncheckedNodes_same (hS : b'.checked = b.checked) : ∀ (l acc : List Node), uncheckedNodes W b' l acc = uncheckedNodes W b l acc
  | n :: m :: rest, acc => by
    unfold uncheckedNodes
    simp only [uncheckedOf_same hS, uncheckedNodes_same hS (m :: rest)]
  | [], acc => by unfold uncheckedNodes; rfl
  | [n], acc => by unfold uncheckedNodes; rfl

theorem path_same (hS : Same b b') : Old.Search.shortestPath P b' = Old.Search.shortestPath P b := by
  unfold Old.Search.shortestPath
  rw [hS.2]

theorem cands_same (hS : Same b b') : nextCandidates P b' cur = nextCandidates P b cur := by
  have h1 : ∀ p, findUnchecked P.W b' p = findUnchecked P.W b p := by
    intro p
    unfold findUnchecked
    simp only [uncheckedNodes_same hS.1]
  unfold nextCandidates
  simp only [path_same hS, h1, hS.2]

theorem targets_same (hS : Same b b') (cs : List Search.Coord) : targetsOf b' cs = targetsOf b cs := by
  unfold targetsOf
  rw [hS.1]

/-! ## The number of moves -/

/-- The first candidate has a total of at most `t`. -/
def HeadBelow (P : Config) (cost : Pattern → Nat) (b : Belief) (cur : Node) (t : Nat) : Prop :=
  ∀ path cs l, Old.Search.shortestPath P b = .ok (some path) → Crosses P.W (posBlocked b.present) path cs →
    nextCandidates P b cur = .ok (some l) →
    ∃ x t', l.head? = some x ∧ LeastTotal P.W (posBlocked b.present) cost cur (targetsOf b cs) x t' ∧ t' ≤ t

theorem cands_all (S : Setting P cost real goal0 rest) (hcur : SearchLegal P.W cur) (hp : Old.Search.shortestPath P b = .ok (some path))
    {cs : List Search.Coord} (hcs : Crosses P.W (posBlocked b.present) path cs) {o : Option (List Node)} (hn : nextCandidates P b cur = .ok o) :
    Candidates P b cost cur cs o := by
  obtain ⟨L⟩ := S.heap
  obtain ⟨-, h1⟩ := C87_candidates S.width S.costs S.fit S.pos L S.sort S.start.1 S.goals (fun g hg => (S.goalCells g hg).1) hcur hp
  rcases h1 cs hcs with ⟨r, h2, h3⟩ | ⟨h2, -⟩
  · rw [hn] at h2
    cases h2
    exact h3
  · rw [hn] at h2
    cases h2

theorem head_least {cs : List Search.Coord} {l : List Node} (h : Candidates P b cost cur cs (some l)) :
    ∃ x t, l.head? = some x ∧ LeastTotal P.W (posBlocked b.present) cost cur (targetsOf b cs) x t ∧
      ∀ y t', LeastTotal P.W (posBlocked b.present) cost cur (targetsOf b cs) y t' → t' < P.MAX → t ≤ t' := by
  obtain ⟨hne, T, hT1, -, hT3, hT4⟩ := h
  cases T with
  | nil => exact absurd hT1 hne
  | cons e T =>
    obtain ⟨x, t⟩ := e
    refine ⟨x, t, by rw [hT1]; rfl, ((hT4 x t).mp (by simp)).1, fun y t' hy hlt => ?_⟩
    rcases List.mem_cons.mp ((hT4 y t').mpr ⟨hy, hlt⟩) with h | h
    · cases h; exact Nat.le_refl _
    · exact (List.pairwise_cons.mp hT3).1 _ h

theorem targets_legal (S : Setting P cost real goal0 rest) (hp : Old.Search.shortestPath P b = .ok (some path))
    {cs : List Search.Coord} (hcs : Crosses P.W (posBlocked b.present) path cs) :
    ∀ v ∈ targetsOf b cs, SearchLegal P.W v ∧ b.checked (oldWallAt ⟨v.x, v.y⟩) = false := by
  intro v hv
  obtain ⟨-, -, hhead, -⟩ := plan_facts S hp
  obtain ⟨h1, -, h2⟩ := ((C86_unchecked (b := b) S.width hcs hhead).2 v).mp hv
  exact ⟨h1, h2⟩

theorem head_any {q : Nat} (S : Setting P cost real goal0 rest) (hq : ∀ k ∈ moves, q ≤ cost (kindPattern k) ∧ cost (kindPattern k) ≤ 2 * q)
    (hcur : SearchLegal P.W cur) : HeadBelow P cost b cur (8 * (P.W * P.W) * q) := by
  intro path cs l hp hcs hn
  obtain ⟨x, t, h1, h2, -⟩ := head_least (cands_all S hcur hp hcs hn)
  exact ⟨x, t, h1, h2, total_bound hq (fun v hv => (targets_legal S hp hcs v hv).1) h2⟩

theorem head_same {t : Nat} (hS : Same b b') (h : HeadBelow P cost b cur t) : HeadBelow P cost b' cur t := by
  intro path cs l hp hcs hn
  rw [path_same hS] at hp
  rw [cands_same hS] at hn
  rw [hS.2] at hcs
  rw [hS.2, targets_same hS]
  exact h path cs l hp hcs hn

theorem head_mono {t t' : Nat} (hle : t ≤ t') (h : HeadBelow P cost b cur t) : HeadBelow P cost b cur t' := by
  intro path cs l hp hcs hn
  obtain ⟨x, t0, h1, h2, h3⟩ := h path cs l hp hcs hn
  exact ⟨x, t0, h1, h2, by omega⟩

/-- Without new knowledge the mouse moves to the first candidate, and the total of the next one is smaller. -/
theorem head_advance {q : Nat} (S : Setting P cost real goal0 rest) (hT : TrueBelief P.W real b)
    (hq : ∀ k ∈ moves, q ≤ cost (kindPattern k) ∧ cost (kindPattern k) ≤ 2 * q)
    (hs : Stands P b cur) {t : Nat} (h : HeadBelow P cost b cur t) {l : List Node} (hn : nextCandidates P b cur = .ok (some l)) {x : Node}
    (hch : choose b l = some (some x)) : q ≤ t ∧ HeadBelow P cost b x (t - q) := by
  obtain ⟨path, cs, hp, hcs, hc⟩ := cand_move S hs.legal hn
  obtain ⟨y, t0, hy, hl, ht⟩ := h path cs l hp hcs hn
  have hxy : y = x := by
    cases l with
    | nil => cases hy
    | cons z l =>
      cases hy
      obtain ⟨t1, k, -, hm⟩ := cand_mem hc (List.mem_cons_self ..)
      have hyl := turns_legal hs.legal hm.1 (openPose_range hm.2).1 (openPose_range hm.2).2
      have hpres := openPose_wall hm.2
      unfold choose at hch
      split at hch
      · cases hch
      · cases hch; rfl
      · rename_i hf
        unfold isAvailable at hf
        rw [(C85_walls hyl).1] at hf
        unfold posBlocked at hpres
        simp only [hpres] at hf
        split at hf
        · cases hf
        · split at hf <;> cases hf
  subst hxy
  obtain ⟨hx, ha⟩ := choose_some hch
  obtain ⟨hsx, -⟩ := stands_move S hs hn hx ha
  have hge : q ≤ t0 := by
    obtain ⟨⟨k, p, c, v, hk, -, -, rfl⟩, -⟩ := hl
    have := (hq k (turns_kind hk.1)).1
    omega
  refine ⟨by omega, ?_⟩
  intro path' cs' l' hp' hcs' hn'
  rw [hp] at hp'
  cases hp'
  -- the same walls are headed for
  obtain ⟨y0, t2, hy0, hl0, ht0⟩ := h path cs' l hp hcs' hn
  have : y0 = y := by
    rw [hy] at hy0
    cases hy0
    rfl
  subst this
  obtain ⟨z, t3, hz, hlz, hmin⟩ := head_least (cands_all S hsx.legal hp hcs' hn')
  refine ⟨z, t3, hz, hlz, ?_⟩
  have htg := targets_legal S hp hcs'
  obtain ⟨w, t4, hw, hw4⟩ := way_advance hq (S := targetsOf b cs') (x := y0)
    (fun v hv => openPose_at (by
      obtain ⟨a1, a2, a3⟩ := (htg v hv).1
      exact ⟨a1, a2, by simp only; omega⟩) (hT.unknown _ (htg v hv).2))
    (fun hv => by have := (htg _ hv).2; rw [hsx.checked] at this; cases this) hl0.1
  have hex : ∃ t, Total P.W (posBlocked b.present) cost y0 (targetsOf b cs') w t := ⟨_, hw⟩
  classical
  have hle : Nat.find hex ≤ t4 := Nat.find_min' hex hw
  have hge2 : q ≤ t2 := by
    obtain ⟨⟨k, p, c, v, hk, -, -, rfl⟩, -⟩ := hl0
    have := (hq k (turns_kind hk.1)).1
    omega
  by_cases hlt : Nat.find hex < P.MAX
  · have := hmin w _ ⟨Nat.find_spec hex, fun t' h' => Nat.find_min' hex h'⟩ hlt
    omega
  · have hz' : t3 < P.MAX := by
      have hc' := cands_all S hsx.legal hp hcs' hn'
      obtain ⟨-, T, hT1, -, -, hT4⟩ := hc'
      have hzl : z ∈ l' := List.mem_of_mem_head? hz
      rw [hT1] at hzl
      obtain ⟨⟨z', t5⟩, h6, rfl⟩ := List.mem_map.mp hzl
      obtain ⟨h7, h8⟩ := (hT4 z' t5).mp h6
      have := hlz.2 _ h7.1
      omega
    omega

/-- How the number of moves is bounded. -/
def MoveBound (P : Config) (cost : Pattern → Nat) (real : Wall → Bool) (q : Nat) (b : Belief) (s : Commander) (k : Nat) : Prop :=
  let K := 8 * (P.W * P.W) + 1
  let B := (2 * (P.W * P.W) + 1) * K
  match s.phase with
  | .initial => k = 0
  | .solving => ∃ b0 j, TrueBelief P.W real b0 ∧ Learns b0 b ∧ HeadBelow P cost b0 s.current (j * q) ∧ k + uncheckedCount P.W b0 * K + j + 1 ≤ B
  | .waiting => ∃ b0 j, TrueBelief P.W real b0 ∧ Learns b0 b ∧ nextCandidates P b0 s.current = .ok (some s.candidates) ∧ Stands P b0 s.current ∧
      HeadBelow P cost b0 s.current (j * q) ∧ k + uncheckedCount P.W b0 * K + j + 1 ≤ B
  | .final => k + 1 ≤ B

theorem bound_learn {q k : Nat} {s : Commander} (hL : Learns b b') (h : MoveBound P cost real q b s k) : MoveBound P cost real q b' s k := by
  unfold MoveBound at h ⊢
  simp only at h ⊢
  split at h
  · exact h
  · obtain ⟨b0, j, h1, h2, h3⟩ := h
    exact ⟨b0, j, h1, learns_trans h2 hL, h3⟩
  · obtain ⟨b0, j, h1, h2, h3⟩ := h
    exact ⟨b0, j, h1, learns_trans h2 hL, h3⟩
  · exact h

/-- The number of moves among the commands. -/
def movesOf (l : List (Node × SearchKind)) : Nat := (l.filter fun e => decide (e.2 ∈ moves)).length

theorem bound_step {q : Nat} (S : Setting P cost real goal0 rest) (hT : TrueBelief P.W real b) (hq0 : 0 < q)
    (hq : ∀ k ∈ moves, q ≤ cost (kindPattern k) ∧ cost (kindPattern k) ≤ 2 * q) {s s' : Commander}
    {l : List (Node × SearchKind)} (h : PhaseInv P real b s l) {r : Reply} (hr : nextCommand P b s = .ok (r, s')) {k : Nat}
    (hk : MoveBound P cost real q b s k) : MoveBound P cost real q b s' (k + movesOf (commandsOf [r])) := by
  have hKpos : 0 < 8 * (P.W * P.W) + 1 := by omega
  cases h with
  | initial ho =>
    obtain ⟨m, h1, h2, h3, h4, h5⟩ := init_step S.width S.start ho
    simp only [nextCommand, Commander.new, h1, bind, Except.bind, pure, Except.pure, Except.ok.injEq, Prod.mk.injEq] at hr
    obtain ⟨rfl, rfl⟩ := hr
    have : k = 0 := hk
    subst this
    refine ⟨b, 8 * (P.W * P.W), hT, fun _ h => h, head_any S hq h3, ?_⟩
    have h6 := Nat.mul_le_mul_right (8 * (P.W * P.W) + 1) (unchecked_le P.W b)
    have h7 : movesOf (commandsOf [.command P.start .init]) = 0 := rfl
    rw [h7, Nat.add_mul]
    omega
  | solving cur ks hs hkm =>
    obtain ⟨b0, j, g1, g2, g3, g4⟩ := hk
    simp only [nextCommand, search_ofNode hs.legal, bind, Except.bind, pure, Except.pure] at hr
    cases hc : nextCandidates P b cur with
    | error e => rw [hc] at hr; cases hr
    | ok o =>
      rw [hc] at hr
      cases o with
      | some c =>
        simp only [Except.ok.injEq, Prod.mk.injEq] at hr
        obtain ⟨rfl, rfl⟩ := hr
        by_cases hu : uncheckedCount P.W b0 ≤ uncheckedCount P.W b
        · have hsame := same_of g1 hT g2 hu
          have : uncheckedCount P.W b ≤ uncheckedCount P.W b0 := unchecked_learn g2
          refine ⟨b, j, hT, fun _ h => h, hc, hs, head_same hsame g3, ?_⟩
          have : uncheckedCount P.W b = uncheckedCount P.W b0 := by omega
          rw [this]
          exact g4
        · refine ⟨b, 8 * (P.W * P.W), hT, fun _ h => h, hc, hs, head_any S hq hs.legal, ?_⟩
          have h6 := Nat.mul_le_mul_right (8 * (P.W * P.W) + 1) (show uncheckedCount P.W b + 1 ≤ uncheckedCount P.W b0 by omega)
          rw [Nat.add_mul, Nat.one_mul] at h6
          show k + 0 + _ + _ + 1 ≤ _
          omega
      | none =>
        have hopen : OpenPose P.W (posBlocked real) cur := by
          obtain ⟨c, h1, h2, h3, h4⟩ := hs.here
          exact ⟨c, h1, h2, h3, known_real hT c h4⟩
        obtain ⟨m, h1, h2, h3⟩ := final_step S.width S.closed hs.legal hopen
        simp only [h1, Except.ok.injEq, Prod.mk.injEq] at hr
        obtain ⟨rfl, rfl⟩ := hr
        have h7 : movesOf (commandsOf [.command cur .final]) = 0 := rfl
        rw [h7]
        show k + 0 + 1 ≤ _
        omega
  | waiting cur ks c b1 hs hkm h2 h3 h4 h5 =>
    obtain ⟨b0, j, g1, g2, gc, gs, g3, g4⟩ := hk
    simp only at gc gs g3 g4
    simp only [nextCommand] at hr
    split at hr
    · cases hr
      exact ⟨b0, j, g1, g2, gc, gs, g3, g4⟩
    · cases hch : choose b c with
      | none =>
        rw [hch] at hr
        cases hr
        exact ⟨b0, j, g1, g2, gc, gs, g3, g4⟩
      | some o =>
        rw [hch] at hr
        cases o with
        | none => cases hr
        | some x =>
          obtain ⟨hx, ha⟩ := choose_some hch
          obtain ⟨hsx, k1, hkm1, hmv⟩ := stands_move S hs h5 hx ha
          obtain ⟨o, hro, hoi⟩ := C85_route S.width hs.legal hsx.legal
          rw [(hoi k1).mpr hmv] at hro
          simp only [search_ofNode hs.legal, hro, bind, Except.bind, pure, Except.pure, Except.ok.injEq, Prod.mk.injEq] at hr
          obtain ⟨rfl, rfl⟩ := hr
          have h7 : movesOf (commandsOf [.command cur k1]) = 1 := by
            unfold movesOf commandsOf
            simp [hkm1]
          rw [h7]
          by_cases hu : uncheckedCount P.W b0 ≤ uncheckedCount P.W b
          · have hsame := same_of g1 hT g2 hu
            have h8 : uncheckedCount P.W b ≤ uncheckedCount P.W b0 := unchecked_learn g2
            have h9 : uncheckedCount P.W b = uncheckedCount P.W b0 := by omega
            obtain ⟨e1, e2⟩ := head_advance S hT hq hs (head_same hsame g3) (by rw [cands_same hsame]; exact gc) hch
            have hj : 1 ≤ j := by
              rcases Nat.eq_zero_or_pos j with rfl | h
              · rw [Nat.zero_mul] at e1; omega
              · exact h
            refine ⟨b, j - 1, hT, fun _ h => h, ?_, ?_⟩
            · rw [Nat.sub_mul, Nat.one_mul]
              exact e2
            · rw [h9]
              omega
          · refine ⟨b, 8 * (P.W * P.W), hT, fun _ h => h, head_any S hq hsx.legal, ?_⟩
            have h6 := Nat.mul_le_mul_right (8 * (P.W * P.W) + 1) (show uncheckedCount P.W b + 1 ≤ uncheckedCount P.W b0 by omega)
            rw [Nat.add_mul, Nat.one_mul] at h6
            omega
  | final cur n ks c h hkm =>
    simp only [nextCommand, pure, Except.pure, Except.ok.injEq, Prod.mk.injEq] at hr
    obtain ⟨rfl, rfl⟩ := hr
    exact hk

theorem moves_bound {q : Nat} (S : Setting P cost real goal0 rest) (hq0 : 0 < q)
    (hq : ∀ k ∈ moves, q ≤ cost (kindPattern k) ∧ cost (kindPattern k) ≤ 2 * q) {s : Commander} {rs : List Reply}
    (h : Explores P real b s rs) : MoveBound P cost real q b s (movesOf (commandsOf rs)) := by
  induction h with
  | start b hT ho => rfl
  | call b b' s s' r rs hE hL hT' hr ih =>
    obtain ⟨hT, hI, -⟩ := explores_inv S hE
    have := bound_step S hT' hq0 hq (phase_learn hT hT' hL hI) hr (bound_learn hL ih)
    have e : commandsOf (rs ++ [r]) = commandsOf rs ++ commandsOf [r] := by unfold commandsOf; rw [List.filterMap_append]
    rw [e]
    unfold movesOf at this ⊢
    rw [List.filter_append, List.length_append]
    exact this

end Verif.Proof.OldS
