import Verif.Proof.OldCommander
/-! The steps of the former search commander. -/
namespace Verif.Proof.OldS
open Verif Verif.Run Verif.Spec Verif.Old Verif.Old.Search Verif.Proof Verif.Proof.OldN Verif.Props

variable {W : Nat} {n m cur : Node} {cost : Pattern → Nat} {P : Config} {real : Wall → Bool} {b b' : Belief} {goal0 : Node} {rest path : List Node}

/-- The pose ahead, in the next half of a cell. -/
def Ahead (n m : Node) : Prop := (m.x : Int) = n.x + (heading n.posture).1 ∧ (m.y : Int) = n.y + (heading n.posture).2 ∧ m.posture = n.posture

theorem half_step (hW : Supported W) (hx : n.x < 2 * W) (hy : n.y < 2 * W) (hp : n.posture ∈ [Posture.north, .east, .south, .west])
    (hr : 0 ≤ (n.x : Int) + (heading n.posture).1 ∧ (n.x : Int) + (heading n.posture).1 < 2 * W ∧
      0 ≤ (n.y : Int) + (heading n.posture).2 ∧ (n.y : Int) + (heading n.posture).2 < 2 * W) :
    ∃ m, relativeNode W n 0 1 .front .north = .ok (some m) ∧ Ahead n m := by
  have ht : turnInto .north n.posture 0 1 = .ok (heading n.posture) := by
    rw [turnInto_axis hp]
    unfold disp
    simp
  have hnear : Near (heading n.posture) := by
    unfold Near
    generalize n.posture = p
    cases p <;> decide
  have := relNode_gen hW hx hy ht hnear .front
  rw [if_pos hr] at this
  refine ⟨_, this, ?_⟩
  obtain ⟨h1, h2, h3, h4⟩ := hr
  refine ⟨by simp only; omega, by simp only; omega, rfl⟩

theorem cell_axis (h : CellPose W n) : n.posture ∈ [Posture.north, .east, .south, .west] := by
  obtain ⟨⟨-, -, h | h⟩, h1, h2⟩ := h
  · exact h.2.2
  · omega

/-- The first command leads to the wall ahead of the start. -/
theorem init_step (hW : Supported W) (hn : CellPose W n) (ho : OpenAhead W b n) :
    ∃ m, nodeNext W n .init = .ok (some m) ∧ Ahead n m ∧ SearchLegal W m ∧ OpenPose W (knownWall b) m ∧
      Connected W (knownWall b) (cellOf n) (aheadCell m) := by
  have ha := cell_axis hn
  obtain ⟨c, hB, hv, h1, h2⟩ := ho
  have hk : knownWall b c = false := knownWall_false.mpr ⟨h1, h2⟩
  obtain ⟨-, -, e, -, h3, h4, h5⟩ := hB
  simp only [cellOf, Prod.mk.injEq] at h3 h4 h5
  have e1 : e.1 = (heading n.posture).1 := by omega
  have e2 : e.2 = (heading n.posture).2 := by omega
  rw [e1] at h3
  rw [e2] at h4
  have hv' := hv
  obtain ⟨v1, v2, v3⟩ := hv'
  obtain ⟨m, h6, h7⟩ := half_step hW hn.1.1 hn.1.2.1 ha (by omega)
  obtain ⟨g1, g2, g3⟩ := h7
  have hc : c = ⟨m.x, m.y⟩ := by
    obtain ⟨cx, cy⟩ := c
    simp only [Search.Coord.mk.injEq] at h3 h4 ⊢
    omega
  subst hc
  refine ⟨m, h6, ⟨g1, g2, g3⟩, ?_, openPose_at hv hk, ?_⟩
  · refine ⟨v1, v2, ?_⟩
    obtain ⟨-, q1, q2⟩ := hn
    rw [g3]
    simp only [List.mem_cons, List.not_mem_nil, or_false] at ha
    rcases ha with hp | hp | hp | hp <;> rw [hp] at g1 g2 ⊢ <;> simp [heading] at g1 g2 ⊢ <;> omega
  · refine .single ⟨⟨m.x, m.y⟩, ?_, hv, hk⟩
    refine ⟨by simp only [cellOf]; have := hn.2.1; omega, by simp only [cellOf]; have := hn.2.2; omega, heading n.posture, ?_, g1, g2, ?_⟩
    · generalize n.posture = p at ha
      revert ha
      cases p <;> decide
    · unfold aheadCell cellOf
      rw [g3, g1, g2]
      ext <;> simp only <;> omega

theorem closed_range (hC : Closed W real) (hW : 0 < W) (hn : SearchLegal W n) (h : OpenPose W (posBlocked real) n) :
    0 ≤ (n.x : Int) + (heading n.posture).1 ∧ (n.x : Int) + (heading n.posture).1 < 2 * W ∧
      0 ≤ (n.y : Int) + (heading n.posture).2 ∧ (n.y : Int) + (heading n.posture).2 < 2 * W := by
  have h1 : real (oldWallAt ⟨n.x, n.y⟩) = false := openPose_wall h
  obtain ⟨x, y, p⟩ := n
  obtain ⟨hx, hy, hn⟩ := hn
  simp only at h1 hx hy hn ⊢
  unfold oldWallAt at h1
  simp only at h1
  rcases hn with ⟨a1, a2, hp⟩ | ⟨a1, a2, hp⟩
  · have : x ≠ 2 * W - 1 := by
      rintro rfl
      have := (hC (y / 2) (by omega)).2
      rw [show (2 * W - 1) / 2 = W - 1 by omega, show decide ((2 * W - 1) % 2 = 0) = false by simp; omega, this] at h1
      cases h1
    simp only [List.mem_cons, List.not_mem_nil, or_false] at hp
    rcases hp with rfl | rfl <;> simp [heading] <;> omega
  · have : y ≠ 2 * W - 1 := by
      rintro rfl
      have := (hC (x / 2) (by omega)).1
      rw [show (2 * W - 1) / 2 = W - 1 by omega, show decide (x % 2 = 0) = true by simp; omega, this] at h1
      cases h1
    simp only [List.mem_cons, List.not_mem_nil, or_false] at hp
    rcases hp with rfl | rfl <;> simp [heading] <;> omega

/-- The last command leads into the cell ahead. -/
theorem final_step (hW : Supported W) (hC : Closed W real) (hn : SearchLegal W n) (h : OpenPose W (posBlocked real) n) :
    ∃ m, nodeNext W n .final = .ok (some m) ∧ Ahead n m ∧ CellPose W m := by
  have ha := axis hn
  have hr := closed_range hC hW.pos hn h
  obtain ⟨m, h1, h2⟩ := half_step hW hn.1 hn.2.1 ha hr
  refine ⟨m, h1, h2, ?_⟩
  obtain ⟨g1, g2, g3⟩ := h2
  obtain ⟨r1, r2, r3, r4⟩ := hr
  have hl := hn.2.2
  refine ⟨⟨by omega, by omega, Or.inl ⟨?_, ?_, by rw [g3]; exact ha⟩⟩, ?_, ?_⟩ <;>
    rcases hl with ⟨a1, a2, hp⟩ | ⟨a1, a2, hp⟩ <;> simp only [List.mem_cons, List.not_mem_nil, or_false] at hp <;>
    rcases hp with hp | hp <;> rw [hp] at g1 g2 <;> simp [heading] at g1 g2 <;> omega

theorem choose_some {l : List Node} {x : Node} (h : choose b l = some (some x)) : x ∈ l ∧ isAvailable b x = some true := by
  induction l with
  | nil => cases h
  | cons y l ih =>
    unfold choose at h
    split at h
    · cases h
    · rename_i hy
      cases h
      exact ⟨by simp, hy⟩
    · obtain ⟨h1, h2⟩ := ih h
      exact ⟨by simp [h1], h2⟩

theorem available_iff {x : Node} (hx : SearchLegal W x) : isAvailable b x = some true ↔
    b.locked (oldWallAt ⟨x.x, x.y⟩) = false ∧ b.checked (oldWallAt ⟨x.x, x.y⟩) = true ∧ b.present (oldWallAt ⟨x.x, x.y⟩) = false := by
  unfold isAvailable
  rw [(C85_walls hx).1]
  simp only
  split
  · rename_i h; simp [h]
  · rename_i h
    split
    · rename_i h'; simp [h, h']
    · rename_i h'; simp [h']

/-- The candidates are poses after the current one. -/
theorem cand_move (S : Setting P cost real goal0 rest) (hcur : SearchLegal P.W cur) {l : List Node}
    (hn : nextCandidates P b cur = .ok (some l)) :
    ∃ path cs, Old.Search.shortestPath P b = .ok (some path) ∧ Crosses P.W (posBlocked b.present) path cs ∧
      Candidates P b cost cur cs (some l) := by
  obtain ⟨L⟩ := S.heap
  cases hp : Old.Search.shortestPath P b with
  | error e => rw [C87_no_path.2 e hp] at hn; cases hn
  | ok o =>
    cases o with
    | none => rw [C87_no_path.1 hp] at hn; cases hn
    | some path =>
      obtain ⟨⟨cs, hcs⟩, h1⟩ := C87_candidates S.width S.costs S.fit S.pos L S.sort S.start.1 S.goals (fun g hg => (S.goalCells g hg).1) hcur hp
      rcases h1 cs hcs with ⟨r, h2, h3⟩ | ⟨h2, -⟩
      · rw [hn] at h2
        cases h2
        exact ⟨path, cs, rfl, hcs, h3⟩
      · rw [hn] at h2
        cases h2

theorem cand_mem {cs : List Search.Coord} {l : List Node} (h : Candidates P b cost cur cs (some l)) {x : Node} (hx : x ∈ l) :
    ∃ t k, LeastTotal P.W (posBlocked b.present) cost cur (targetsOf b cs) x t ∧ SearchMove P.W (posBlocked b.present) cur k x := by
  obtain ⟨-, T, hT1, -, -, hT4⟩ := h
  rw [hT1] at hx
  obtain ⟨⟨x', t⟩, hy, rfl⟩ := List.mem_map.mp hx
  have := ((hT4 x' t).mp hy).1
  obtain ⟨⟨k, -, -, -, h1, -⟩, -⟩ := id this
  exact ⟨t, k, this, h1⟩

/-- The state of the commander and what it has ordered. -/
inductive PhaseInv (P : Config) (real : Wall → Bool) (b : Belief) : Commander → List (Node × SearchKind) → Prop
  | initial : OpenAhead P.W b P.start → PhaseInv P real b (Commander.new P.start) []
  | solving (cur : Node) (ks : List (Node × SearchKind)) : Stands P b cur → (∀ e ∈ ks, e.2 ∈ moves) →
      PhaseInv P real b ⟨cur, .solving, []⟩ ((P.start, .init) :: ks)
  | waiting (cur : Node) (ks : List (Node × SearchKind)) (l : List Node) (b0 : Belief) : Stands P b cur → (∀ e ∈ ks, e.2 ∈ moves) →
      TrueBelief P.W real b0 → Learns b0 b → Stands P b0 cur → nextCandidates P b0 cur = .ok (some l) →
      PhaseInv P real b ⟨cur, .waiting, l⟩ ((P.start, .init) :: ks)
  | final (cur n : Node) (ks : List (Node × SearchKind)) (l : List Node) : CellPose P.W cur → (∀ e ∈ ks, e.2 ∈ moves) →
      PhaseInv P real b ⟨cur, .final, l⟩ ((P.start, .init) :: (ks ++ [(n, .final)]))

theorem openAhead_learn (hT : TrueBelief P.W real b) (hT' : TrueBelief P.W real b') (hL : Learns b b') (h : OpenAhead P.W b n) :
    OpenAhead P.W b' n := by
  obtain ⟨c, h1, h2, h3, h4⟩ := h
  obtain ⟨h5, h6⟩ := learn_present hT hT' hL _ h3
  exact ⟨c, h1, h2, h5, by rw [h6, h4]⟩

theorem learns_trans {b0 b1 b2 : Belief} (h : Learns b0 b1) (h' : Learns b1 b2) : Learns b0 b2 := fun w hw => h' w (h w hw)

theorem phase_learn (hT : TrueBelief P.W real b) (hT' : TrueBelief P.W real b') (hL : Learns b b') {s : Commander}
    {l : List (Node × SearchKind)} (h : PhaseInv P real b s l) : PhaseInv P real b' s l := by
  cases h with
  | initial h => exact .initial (openAhead_learn hT hT' hL h)
  | solving cur ks h hk => exact .solving cur ks (h.learn hT hT' hL) hk
  | waiting cur ks l b0 h1 hk h2 h3 h4 h5 => exact .waiting cur ks l b0 (h1.learn hT hT' hL) hk h2 (learns_trans h3 hL) h4 h5
  | final cur n ks l h hk => exact .final cur n ks l h hk

/-- The mouse moves to an available candidate. -/
theorem stands_move (S : Setting P cost real goal0 rest) {b0 : Belief} (hs : Stands P b cur)
    {l : List Node} (hn : nextCandidates P b0 cur = .ok (some l)) {x : Node} (hx : x ∈ l) (ha : isAvailable b x = some true) :
    Stands P b x ∧ ∃ k ∈ moves, MovesTo cur k x := by
  obtain ⟨path, cs, -, -, h1⟩ := cand_move S hs.legal hn
  obtain ⟨t, k, -, h2⟩ := cand_mem h1 hx
  have hx' := turns_legal hs.legal h2.1 (openPose_range h2.2).1 (openPose_range h2.2).2
  obtain ⟨-, h3, h4⟩ := (available_iff hx').mp ha
  have hk : knownWall b ⟨x.x, x.y⟩ = false := knownWall_false.mpr ⟨h3, h4⟩
  have hv : Valid P.W ⟨x.x, x.y⟩ := by
    obtain ⟨a1, a2, a3⟩ := hx'
    exact ⟨a1, a2, by simp only; omega⟩
  refine ⟨⟨hx', openPose_at hv hk, hs.back.tail ⟨_, move_exits hs.legal h2.1, hv, hk⟩⟩, k, turns_kind h2.1, h2.1⟩

theorem phase_step (S : Setting P cost real goal0 rest) (hT : TrueBelief P.W real b) {s s' : Commander}
    {l : List (Node × SearchKind)} (h : PhaseInv P real b s l) {r : Reply} (hr : nextCommand P b s = .ok (r, s')) :
    PhaseInv P real b s' (l ++ commandsOf [r]) ∧
    (∀ n k, r = .command n k → n = s.current ∧ CommandLeads P.W (posBlocked real) n k s'.current) ∧ (commandsOf [r] = [] → s'.current = s.current) := by
  have open_real : ∀ {x}, OpenPose P.W (knownWall b) x → OpenPose P.W (posBlocked real) x := by
    rintro x ⟨c, h1, h2, h3, h4⟩
    exact ⟨c, h1, h2, h3, known_real hT c h4⟩
  cases h with
  | initial ho =>
    obtain ⟨m, h1, h2, h3, h4, h5⟩ := init_step S.width S.start ho
    simp only [nextCommand, Commander.new, h1, bind, Except.bind, pure, Except.pure, Except.ok.injEq, Prod.mk.injEq] at hr
    obtain ⟨rfl, rfl⟩ := hr
    refine ⟨.solving m [] ⟨h3, h4, h5⟩ (by simp), ?_, by simp [commandsOf]⟩
    rintro n k hk
    cases hk
    exact ⟨rfl, h2, open_real h4⟩
  | solving cur ks hs hk =>
    simp only [nextCommand, search_ofNode hs.legal, bind, Except.bind, pure, Except.pure] at hr
    cases hc : nextCandidates P b cur with
    | error e => rw [hc] at hr; cases hr
    | ok o =>
      rw [hc] at hr
      cases o with
      | some c =>
        simp only [Except.ok.injEq, Prod.mk.injEq] at hr
        obtain ⟨rfl, rfl⟩ := hr
        refine ⟨?_, by simp, by simp⟩
        show PhaseInv P real b _ (_ ++ [])
        rw [List.append_nil]
        exact .waiting cur ks c b hs hk hT (fun _ h => h) hs hc
      | none =>
        obtain ⟨m, h1, h2, h3⟩ := final_step S.width S.closed hs.legal (open_real hs.here)
        simp only [h1, Except.ok.injEq, Prod.mk.injEq] at hr
        obtain ⟨rfl, rfl⟩ := hr
        refine ⟨.final m cur ks [] h3 hk, ?_, by simp [commandsOf]⟩
        rintro n k hk
        cases hk
        exact ⟨rfl, h2, h3⟩
  | waiting cur ks c b0 hs hk h2 h3 h4 h5 =>
    simp only [nextCommand] at hr
    split at hr
    · cases hr
      refine ⟨?_, by simp, by simp⟩
      show PhaseInv P real b _ (_ ++ [])
      rw [List.append_nil]
      exact .waiting cur ks c b0 hs hk h2 h3 h4 h5
    · cases hch : choose b c with
      | none =>
        rw [hch] at hr
        cases hr
        refine ⟨?_, by simp, by simp⟩
        show PhaseInv P real b _ (_ ++ [])
        rw [List.append_nil]
        exact .waiting cur ks c b0 hs hk h2 h3 h4 h5
      | some o =>
        rw [hch] at hr
        cases o with
        | none => cases hr
        | some x =>
          obtain ⟨hx, ha⟩ := choose_some hch
          obtain ⟨hsx, k, hkm, hmv⟩ := stands_move S hs h5 hx ha
          obtain ⟨o, hro, hoi⟩ := C85_route S.width hs.legal hsx.legal
          rw [(hoi k).mpr hmv] at hro
          simp only [search_ofNode hs.legal, hro, bind, Except.bind, pure, Except.pure, Except.ok.injEq, Prod.mk.injEq] at hr
          obtain ⟨rfl, rfl⟩ := hr
          refine ⟨.solving x (ks ++ [(cur, k)]) hsx ?_, ?_, by simp [commandsOf]⟩
          · intro e he
            rcases List.mem_append.mp he with he | he
            · exact hk e he
            · rw [List.mem_singleton] at he
              subst he
              exact hkm
          · intro n k' hk'
            cases hk'
            refine ⟨rfl, ?_⟩
            have : SearchMove P.W (posBlocked real) cur k x := ⟨hmv, open_real hsx.here⟩
            cases k <;> first | exact this | exact hmv.elim
  | final cur n ks c h hk =>
    simp only [nextCommand, pure, Except.pure, Except.ok.injEq, Prod.mk.injEq] at hr
    obtain ⟨rfl, rfl⟩ := hr
    refine ⟨?_, by simp, by simp⟩
    show PhaseInv P real b _ (_ ++ [])
    rw [List.append_nil]
    exact .final cur n ks c h hk

/-- What holds in every run. -/
theorem explores_inv (S : Setting P cost real goal0 rest) {s : Commander} {rs : List Reply} (h : Explores P real b s rs) :
    TrueBelief P.W real b ∧ PhaseInv P real b s (commandsOf rs) ∧ CommandTour P.W (posBlocked real) P.start (commandsOf rs) s.current := by
  induction h with
  | start b hT ho => exact ⟨hT, .initial ho, .nil⟩
  | call b b' s s' r rs _ hL hT' hr ih =>
    obtain ⟨hT, hI, hG⟩ := ih
    obtain ⟨h1, h2, h3⟩ := phase_step S hT' (phase_learn hT hT' hL hI) hr
    have e : commandsOf (rs ++ [r]) = commandsOf rs ++ commandsOf [r] := by unfold commandsOf; rw [List.filterMap_append]
    rw [e]
    refine ⟨hT', h1, ?_⟩
    cases r with
    | command n k =>
      obtain ⟨rfl, h4⟩ := h2 n k rfl
      exact .snoc _ _ _ _ hG h4
    | waiting => rw [h3 rfl]; show CommandTour _ _ _ (_ ++ []) _; rw [List.append_nil]; exact hG
    | finish => rw [h3 rfl]; show CommandTour _ _ _ (_ ++ []) _; rw [List.append_nil]; exact hG

end Verif.Proof.OldS
