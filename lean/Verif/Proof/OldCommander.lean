import Verif.Proof.OldReach
import Verif.Props.OldSearch
/-! The invariant of the former search commander. -/
namespace Verif.Proof.OldS
open Verif Verif.Run Verif.Spec Verif.Old Verif.Old.Search Verif.Proof Verif.Proof.OldN Verif.Props

variable {W : Nat} {n m cur : Node} {cost : Pattern → Nat} {P : Config} {real : Wall → Bool} {b b' : Belief} {goal0 : Node} {rest path : List Node}

/-- Not known to be open. -/
def knownWall (b : Belief) (c : Verif.Search.Coord) : Bool := !(b.checked (oldWallAt c) && !b.present (oldWallAt c))

theorem knownWall_false {c : Verif.Search.Coord} : knownWall b c = false ↔ b.checked (oldWallAt c) = true ∧ b.present (oldWallAt c) = false := by
  unfold knownWall
  simp

theorem known_real (hT : TrueBelief W real b) (c : Verif.Search.Coord) (h : knownWall b c = false) : posBlocked real c = false := by
  obtain ⟨h1, h2⟩ := knownWall_false.mp h
  rw [hT.known _ h1] at h2
  exact h2

theorem known_present (c : Verif.Search.Coord) (h : knownWall b c = false) : posBlocked b.present c = false :=
  (knownWall_false.mp h).2

theorem real_present (hT : TrueBelief W real b) (c : Verif.Search.Coord) (h : posBlocked real c = false) : posBlocked b.present c = false := by
  unfold posBlocked at h ⊢
  cases hc : b.checked (oldWallAt c) with
  | true => rw [hT.known _ hc]; exact h
  | false => exact hT.unknown _ hc

theorem learn_present (hT : TrueBelief W real b) (hT' : TrueBelief W real b') (hL : Learns b b') (w : Wall) (h : b.checked w = true) :
    b'.checked w = true ∧ b'.present w = b.present w := by
  have := hL w h
  exact ⟨this, by rw [hT.known w h, hT'.known w this]⟩

theorem known_learn (hT : TrueBelief W real b) (hT' : TrueBelief W real b') (hL : Learns b b') (c : Verif.Search.Coord)
    (h : knownWall b c = false) : knownWall b' c = false := by
  obtain ⟨h1, h2⟩ := knownWall_false.mp h
  obtain ⟨h3, h4⟩ := learn_present hT hT' hL _ h1
  exact knownWall_false.mpr ⟨h3, by rw [h4, h2]⟩

/-- The mouse is on an open wall, and has come from the start through openings that it knows. -/
structure Stands (P : Config) (b : Belief) (cur : Node) : Prop where
  legal : SearchLegal P.W cur
  here : OpenPose P.W (knownWall b) cur
  back : Connected P.W (knownWall b) (cellOf P.start) (aheadCell cur)

theorem Stands.learn (hT : TrueBelief P.W real b) (hT' : TrueBelief P.W real b') (hL : Learns b b') (h : Stands P b cur) : Stands P b' cur := by
  refine ⟨h.legal, ?_, connected_mono (known_learn hT hT' hL) h.back⟩
  obtain ⟨c, h1, h2, h3, h4⟩ := h.here
  exact ⟨c, h1, h2, h3, known_learn hT hT' hL c h4⟩

theorem Stands.checked (h : Stands P b cur) : b.checked (oldWallAt ⟨cur.x, cur.y⟩) = true := (knownWall_false.mp (openPose_wall h.here)).1

/-- What is known of a path that is planned. -/
theorem plan_facts (S : Setting P cost real goal0 rest) (hp : Old.Search.shortestPath P b = .ok (some path)) :
    path.Nodup ∧ path.head? = some P.start ∧ (∀ n ∈ path.head?, Legal P.W n) ∧
    (∃ cs, Crosses P.W (posBlocked b.present) path cs) ∧
    ∀ cs, Crosses P.W (posBlocked b.present) path cs → ∃ cells g, g ∈ goal0 :: rest ∧ CellWalk (cellOf P.start) cs cells ∧
      cells.getLast? = some (cellOf g) := by
  obtain ⟨L⟩ := S.heap
  have hp' := hp
  unfold Old.Search.shortestPath at hp'
  rw [S.goals] at hp'
  obtain ⟨hnd, hhead, ⟨g, hg, hlast⟩, -, c, hch, -⟩ := C84_plan S.width L S.costs S.fit S.start.1 (fun g hg => (S.goalCells g hg).1) hp'
  refine ⟨hnd, hhead, by rw [hhead]; rintro n h; cases h; exact S.start.1, crosses_of hch, fun cs hcs => ?_⟩
  obtain ⟨cells, h1, h2⟩ := path_walk hcs hhead S.start.1 hlast
  have e : ∀ n, CellPose P.W n → aheadOf n = cellOf n := by
    intro n hn
    unfold aheadOf
    rw [if_pos hn.2]
    rfl
  rw [e _ S.start] at h1
  rw [e _ (S.goalCells g hg)] at h2
  exact ⟨cells, g, hg, h1, h2⟩

theorem crosses_open {isWall : Verif.Search.Coord → Bool} {cs : List Verif.Search.Coord} (h : Crosses W isWall path cs) :
    ∀ c ∈ cs, isWall c = false := by
  induction h with
  | single n => simp
  | cons n m k crossed l now later hR h3 h4 ho hnow _ ih =>
    intro c hc
    rcases List.mem_append.mp hc with h | h
    · have : ((c.x : Int), (c.y : Int)) ∈ crossed.map (fun d => ((n.x : Int) + d.1, (n.y : Int) + d.2)) := by
        rw [← hnow]
        exact List.mem_map.mpr ⟨c, h, rfl⟩
      obtain ⟨d, hd, he⟩ := List.mem_map.mp this
      simp only [Prod.mk.injEq] at he
      obtain ⟨c', h1, h2, -, h3⟩ := ho d hd
      have : c' = c := by
        obtain ⟨x', y'⟩ := c'
        obtain ⟨x, y⟩ := c
        simp only at h1 h2 he
        simp only [Verif.Search.Coord.mk.injEq]
        omega
      exact this ▸ h3
    · exact ih c h

/-- An unchecked wall of the plan that can be reached through openings gives a candidate. -/
theorem to_cand (S : Setting P cost real goal0 rest) (hA : Affordable P cost) (hT : TrueBelief P.W real b) {opens : Verif.Search.Coord → Bool}
    (hle : ∀ c, opens c = false → posBlocked b.present c = false) (hcur : SearchLegal P.W cur) (ho : OpenPose P.W opens cur)
    {cs : List Verif.Search.Coord} (hcs : Crosses P.W (posBlocked b.present) path cs) (hhead : ∀ n ∈ path.head?, Legal P.W n) {A A' : V}
    {c : Verif.Search.Coord} (hc : c ∈ cs) (hu : b.checked (oldWallAt c) = false) (hcon : Connected P.W opens (aheadCell cur) A)
    (hB : Between A c A') :
    ∃ x k, SearchMove P.W (posBlocked b.present) cur k x ∧ (OpenPose P.W opens x ∨ (x.x = c.x ∧ x.y = c.y ∧ aheadCell x = A')) ∧
      ∃ t, LeastTotal P.W (posBlocked b.present) cost cur (targetsOf b cs) x t ∧ t < P.MAX := by
  have hval := crosses_valid hcs c hc
  obtain ⟨v, h1, h2, h3, h4, u, h5, h6⟩ := reach hcur ho hcon hB hval
  have e : (⟨v.x, v.y⟩ : Verif.Search.Coord) = c := by rw [h2, h3]
  have hov : OpenPose P.W (posBlocked b.present) v := openPose_at (by rw [e]; exact hval) (by rw [e]; exact hT.unknown _ hu)
  obtain ⟨x, k, h7, h8, h9⟩ := first_step (cost := cost) hle h5 h6 hov
  have hv : v ∈ targetsOf b cs := (((C86_unchecked (b := b) S.width hcs hhead).2 v).mpr ⟨h1, by rw [e]; exact hc, by rw [e]; exact hu⟩)
  obtain ⟨M, hM, hlt⟩ := hA
  refine ⟨x, k, h7, ?_, least_below hM hlt h7 h1 hv h9⟩
  rcases h8 with h8 | rfl
  · exact Or.inl h8
  · exact Or.inr ⟨h2, h3, h4⟩

theorem known_stretch {cs : List Verif.Search.Coord} (hcells : ∀ c ∈ cs, Valid W c ∧ posBlocked b.present c = false) {i j : Nat}
    (h : ∀ (k : Nat) c, i ≤ k → k < j → cs[k]? = some c → b.checked (oldWallAt c) = true) :
    ∀ (k : Nat) c, i ≤ k → k < j → cs[k]? = some c → Valid W c ∧ knownWall b c = false := by
  intro k c h1 h2 h3
  have hm := List.mem_of_getElem? h3
  exact ⟨(hcells c hm).1, knownWall_false.mpr ⟨h k c h1 h2 h3, (hcells c hm).2⟩⟩

/-- The first unchecked wall of a plan, and the way to it. -/
theorem first_unchecked {cs : List Verif.Search.Coord} {C : V} {cells : List V} (hw : CellWalk C cs cells)
    (hcells : ∀ c ∈ cs, Valid W c ∧ posBlocked b.present c = false) (hex : ∃ c ∈ cs, b.checked (oldWallAt c) = false) :
    ∃ (i : Nat) (c : Verif.Search.Coord) (A A' : V), cs[i]? = some c ∧ b.checked (oldWallAt c) = false ∧ cells[i]? = some A ∧ cells[i + 1]? = some A' ∧ Between A c A' ∧
      Connected W (knownWall b) C A ∧ ∀ (k : Nat) d, k < i → cs[k]? = some d → b.checked (oldWallAt d) = true := by
  classical
  have hex' : ∃ (i : Nat) (c : Verif.Search.Coord), cs[i]? = some c ∧ b.checked (oldWallAt c) = false := by
    obtain ⟨c, hc, h⟩ := hex
    obtain ⟨i, hi, rfl⟩ := List.getElem_of_mem hc
    exact ⟨i, cs[i], by simp [hi], h⟩
  obtain ⟨c, h1, h2⟩ := Nat.find_spec hex'
  have hmin : ∀ (k : Nat) d, k < Nat.find hex' → cs[k]? = some d → b.checked (oldWallAt d) = true := by
    intro k d hk hd
    have := Nat.find_min hex' hk
    cases h : b.checked (oldWallAt d) with
    | true => rfl
    | false => exact absurd ⟨d, hd, h⟩ this
  generalize Nat.find hex' = i at h1 hmin
  obtain ⟨A, A', h3, h4, h5⟩ := walk_get hw i c h1
  have hi : i < cs.length := by
    by_contra h
    rw [List.getElem?_eq_none (by omega)] at h1
    cases h1
  obtain ⟨A0, A1, h6, h7, h8⟩ := walk_connected hw 0 i (known_stretch hcells fun k c _ hk h => hmin k c (by omega) h) (by omega)
  rw [walk_head hw] at h6
  rw [Nat.zero_add, h3] at h7
  cases h6; cases h7
  exact ⟨i, c, A, A', h1, h2, h3, h4, h5, h8, hmin⟩

/-- The last unchecked wall of a plan, and the way to the goal from it. -/
theorem last_unchecked {cs : List Verif.Search.Coord} {C G : V} {cells : List V} (hw : CellWalk C cs cells) (hl : cells.getLast? = some G)
    (hcells : ∀ c ∈ cs, Valid W c ∧ posBlocked b.present c = false) (hex : ∃ c ∈ cs, b.checked (oldWallAt c) = false) :
    ∃ (j : Nat) (c : Verif.Search.Coord) (A A' : V), cs[j]? = some c ∧ b.checked (oldWallAt c) = false ∧ cells[j]? = some A ∧ cells[j + 1]? = some A' ∧ Between A c A' ∧
      Connected W (knownWall b) A' G ∧ ∀ (k : Nat) d, j < k → cs[k]? = some d → b.checked (oldWallAt d) = true := by
  classical
  have hex' : ∃ i : Nat, ∃ (j : Nat) (c : Verif.Search.Coord), i + j + 1 = cs.length ∧ cs[j]? = some c ∧ b.checked (oldWallAt c) = false := by
    obtain ⟨c, hc, h⟩ := hex
    obtain ⟨i, hi, rfl⟩ := List.getElem_of_mem hc
    exact ⟨cs.length - 1 - i, i, cs[i], by omega, by simp [hi], h⟩
  obtain ⟨j, c, h0, h1, h2⟩ := Nat.find_spec hex'
  have hmin : ∀ (k : Nat) d, j < k → cs[k]? = some d → b.checked (oldWallAt d) = true := by
    intro k d hk hd
    have hkl : k < cs.length := by
      by_contra h
      rw [List.getElem?_eq_none (by omega)] at hd
      cases hd
    have := Nat.find_min hex' (m := cs.length - 1 - k) (by omega)
    cases h : b.checked (oldWallAt d) with
    | true => rfl
    | false => exact absurd ⟨k, d, by omega, hd, h⟩ this
  generalize Nat.find hex' = i at h0
  obtain ⟨A, A', h3, h4, h5⟩ := walk_get hw j c h1
  obtain ⟨A0, A1, h6, h7, h8⟩ := walk_connected hw (j + 1) i (known_stretch hcells fun k c hk _ h => hmin k c (by omega) h) (by omega)
  rw [h4] at h6
  have e : cells.getLast? = cells[j + 1 + i]? := by
    rw [List.getLast?_eq_getElem?, walk_length hw]
    congr 1
    omega
  rw [e, h7] at hl
  cases h6; cases hl
  exact ⟨j, c, A, A', h1, h2, h3, h4, h5, h8, hmin⟩

theorem between_unique {A B C : V} {c : Verif.Search.Coord} (h : Between A c C) (h' : Between B c C) : A = B := by
  obtain ⟨-, -, e, he, h1, h2, h3⟩ := between_symm h
  obtain ⟨-, -, e', he', h1', h2', h3'⟩ := between_symm h'
  rw [h3, h3']
  ext <;> simp only <;> omega

theorem plan_cells {cs : List Verif.Search.Coord} (hcs : Crosses W (posBlocked b.present) path cs) :
    ∀ c ∈ cs, Valid W c ∧ posBlocked b.present c = false := fun c hc => ⟨crosses_valid hcs c hc, crosses_open hcs c hc⟩

/-- There are no candidates only when the plan has been checked. -/
theorem none_checked (S : Setting P cost real goal0 rest) (hA : Affordable P cost) (hT : TrueBelief P.W real b) (hs : Stands P b cur)
    (hp : Old.Search.shortestPath P b = .ok (some path)) (hn : nextCandidates P b cur = .ok none) {cs : List Verif.Search.Coord}
    (hcs : Crosses P.W (posBlocked b.present) path cs) : ∀ c ∈ cs, b.checked (oldWallAt c) = true := by
  by_contra hcon
  push Not at hcon
  obtain ⟨L⟩ := S.heap
  obtain ⟨-, -, hhead, -, hwalk⟩ := plan_facts S hp
  obtain ⟨cells, g, -, hw, hl⟩ := hwalk cs hcs
  obtain ⟨i, c, A, A', h1, h2, h3, h4, h5, h6, -⟩ := first_unchecked hw (plan_cells hcs) (by simpa using hcon)
  obtain ⟨x, k, h7, -, t, h9, h10⟩ := to_cand S hA hT known_present hs.legal hs.here hcs hhead (List.mem_of_getElem? h1) h2
    ((connected_symm hs.back).trans h6) h5
  obtain ⟨-, h11⟩ := C87_candidates S.width S.costs S.fit S.pos L S.sort S.start.1 S.goals (fun g hg => (S.goalCells g hg).1) hs.legal hp
  rcases h11 cs hcs with ⟨r, h12, h13⟩ | ⟨h12, -⟩
  · rw [hn] at h12
    cases h12
    have := h13 x t h9.1
    omega
  · rw [hn] at h12
    cases h12

/-- If the goals can be reached, one of the candidates is open, unless the plan passes the cell ahead twice. -/
theorem open_cand (S : Setting P cost real goal0 rest) (hA : Affordable P cost) (hT : TrueBelief P.W real b) (hs : Stands P b cur)
    (hreach : ∀ g ∈ goal0 :: rest, Connected P.W (posBlocked real) (cellOf P.start) (cellOf g)) {l : List Node}
    (hp : Old.Search.shortestPath P b = .ok (some path)) (hn : nextCandidates P b cur = .ok (some l)) {cs : List Verif.Search.Coord}
    (hcs : Crosses P.W (posBlocked b.present) path cs) :
    (∃ x ∈ l, OpenPose P.W (posBlocked real) x) ∨
    ∃ (cells : List V) (i j : Nat), CellWalk (cellOf P.start) cs cells ∧ i < j ∧ cells[i]? = some (aheadCell cur) ∧ cells[j]? = some (aheadCell cur) := by
  obtain ⟨L⟩ := S.heap
  obtain ⟨-, -, hhead, -, hwalk⟩ := plan_facts S hp
  obtain ⟨cells, g, hg, hw, hl⟩ := hwalk cs hcs
  obtain ⟨-, h11⟩ := C87_candidates S.width S.costs S.fit S.pos L S.sort S.start.1 S.goals (fun g hg => (S.goalCells g hg).1) hs.legal hp
  rcases h11 cs hcs with ⟨r, h12, h13⟩ | ⟨h12, -⟩
  · rw [hn] at h12
    cases h12
    obtain ⟨hne, T, hT1, -, -, hT4⟩ := h13
    have hmem : ∀ x t, LeastTotal P.W (posBlocked b.present) cost cur (targetsOf b cs) x t → t < P.MAX → x ∈ l := by
      intro x t h1 h2
      rw [hT1]
      exact List.mem_map.mpr ⟨(x, t), (hT4 x t).mpr ⟨h1, h2⟩, rfl⟩
    have hex : ∃ c ∈ cs, b.checked (oldWallAt c) = false := by
      obtain ⟨x, hx⟩ := List.exists_mem_of_ne_nil _ hne
      rw [hT1] at hx
      obtain ⟨⟨x', t⟩, hy, rfl⟩ := List.mem_map.mp hx
      obtain ⟨⟨-, -, -, v, -, -, hv, -⟩, -⟩ := ((hT4 x' t).mp hy).1
      obtain ⟨-, h1, h2⟩ := ((C86_unchecked (b := b) S.width hcs hhead).2 v).mp hv
      exact ⟨_, h1, h2⟩
    have hreal : OpenPose P.W (posBlocked real) cur := by
      obtain ⟨c, h1, h2, h3, h4⟩ := hs.here
      exact ⟨c, h1, h2, h3, known_real hT c h4⟩
    have hback : Connected P.W (posBlocked real) (aheadCell cur) (cellOf P.start) :=
      connected_symm (connected_mono (known_real hT) hs.back)
    -- a wall that can be reached is the goal of an open candidate, or a wall of the cell ahead
    have key : ∀ c A A', c ∈ cs → b.checked (oldWallAt c) = false → Connected P.W (posBlocked real) (aheadCell cur) A → Between A c A' →
        (∃ x ∈ l, OpenPose P.W (posBlocked real) x) ∨ A = aheadCell cur := by
      intro c A A' h1 h2 h3 h4
      obtain ⟨x, k, h5, h6, t, h7, h8⟩ := to_cand S hA hT (real_present hT) hs.legal hreal hcs hhead h1 h2 h3 h4
      rcases h6 with h6 | ⟨h6, h6', h6''⟩
      · exact Or.inl ⟨x, hmem x t h7 h8, h6⟩
      · right
        have h9 := move_exits hs.legal h5.1
        rw [h6, h6', h6''] at h9
        exact between_unique h4 h9
    obtain ⟨i, c, A, A', h1, h2, h3, h4, h5, h6, hi⟩ := first_unchecked hw (plan_cells hcs) hex
    obtain ⟨j, d, B, B', g1, g2, g3, g4, g5, g6, hj⟩ := last_unchecked hw hl (plan_cells hcs) hex
    rcases key c A A' (List.mem_of_getElem? h1) h2 (hback.trans (connected_mono (known_real hT) h6)) h5 with h | hA'
    · exact Or.inl h
    rcases key d B' B (List.mem_of_getElem? g1) g2 ((hback.trans (hreach g hg)).trans (connected_mono (known_real hT) (connected_symm g6)))
      (between_symm g5) with h | hB'
    · exact Or.inl h
    right
    refine ⟨cells, i, j + 1, hw, ?_, by rw [h3, hA'], by rw [g4, hB']⟩
    by_contra hlt
    have := hj i c (by omega) h1
    rw [h2] at this
    cases this
  · rw [hn] at h12
    cases h12

end Verif.Proof.OldS
