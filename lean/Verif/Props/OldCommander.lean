import Verif.Proof.OldBound
/-!
# C88: runs of the former search commander
-/
namespace Verif.Props
open Verif Verif.Run Verif.Spec Verif.Old Verif.Old.Search Verif.Proof Verif.Proof.OldN Verif.Proof.OldS Verif.Props.Old

variable {cost : Pattern → Nat} {P : Config} {real : Wall → Bool} {b b' : Belief} {goal0 : Node} {rest : List Node} {s s' : Commander}
  {rs : List Reply}

/-- **C88, tour**: whatever the maze and whenever the sensors find out about which walls, the commands given lead from one pose to
the next, across openings of the maze: first half a cell out of the start, then by the four moves, and finally half a cell
into the middle of a cell. -/
theorem C88_tour (S : Setting P cost real goal0 rest) (h : Explores P real b s rs) :
    CommandTour P.W (posBlocked real) P.start (commandsOf rs) s.current ∧ InOrder P.start (commandsOf rs) := by
  obtain ⟨-, h1, h2⟩ := explores_inv S h
  refine ⟨h2, ?_⟩
  generalize commandsOf rs = l at h1
  cases h1 with
  | initial => exact Or.inl rfl
  | solving cur ks _ hk => exact Or.inr ⟨ks, hk, Or.inl rfl⟩
  | waiting cur ks l b0 _ hk => exact Or.inr ⟨ks, hk, Or.inl rfl⟩
  | final cur n ks l _ hk => exact Or.inr ⟨ks, hk, Or.inr ⟨n, rfl⟩⟩

/-- **C88, end**: a call replies that the tracking is finished exactly if the final command has been given. -/
theorem C88_end (S : Setting P cost real goal0 rest) (h : Explores P real b s rs) (hL : Learns b b') (hT' : TrueBelief P.W real b') {r : Reply}
    (hr : nextCommand P b' s = .ok (r, s')) : r = .finish ↔ ∃ n, (n, SearchKind.final) ∈ commandsOf rs := by
  obtain ⟨hT, hI, -⟩ := explores_inv S h
  have hI' := phase_learn hT hT' hL hI
  generalize commandsOf rs = cmds at hI'
  have nofinal : ∀ ks : List (Node × SearchKind), (∀ e ∈ ks, e.2 ∈ moves) → ¬ ∃ n, (n, SearchKind.final) ∈ (P.start, SearchKind.init) :: ks := by
    rintro ks hk ⟨n, hn⟩
    rcases List.mem_cons.mp hn with h | h
    · cases h
    · exact absurd (show SearchKind.final ∈ moves from hk _ h) (by decide)
  cases hI' with
  | initial ho =>
    obtain ⟨m, h1, -⟩ := init_step S.width S.start ho
    simp only [nextCommand, Commander.new, h1, bind, Except.bind, pure, Except.pure, Except.ok.injEq, Prod.mk.injEq] at hr
    obtain ⟨rfl, rfl⟩ := hr
    simp
  | solving cur ks hs hk =>
    refine iff_of_false ?_ (nofinal ks hk)
    rintro rfl
    simp only [nextCommand, search_ofNode hs.legal, bind, Except.bind, pure, Except.pure] at hr
    split at hr
    · cases hr
    · split at hr
      · cases hr
      · split at hr
        · cases hr
        · split at hr <;> cases hr
  | waiting cur ks l b0 hs hk h2 h3 h4 h5 =>
    refine iff_of_false ?_ (nofinal ks hk)
    rintro rfl
    simp only [nextCommand, search_ofNode hs.legal, bind, Except.bind, pure, Except.pure] at hr
    split at hr
    · cases hr
    · split at hr
      · cases hr
      · cases hr
      · split at hr
        · cases hr
        · split at hr <;> cases hr
  | final cur n ks l hf hk =>
    cases hr
    exact iff_of_true rfl ⟨n, by simp⟩

theorem candidates_error (S : Setting P cost real goal0 rest) {cur : Node} (hcur : SearchLegal P.W cur) {e : Panic}
    (h : nextCandidates P b cur = .error e) : e = .capacity := by
  obtain ⟨L⟩ := S.heap
  cases hp : Old.Search.shortestPath P b with
  | error e' =>
    rw [C87_no_path.2 e' hp] at h
    cases h
    unfold Old.Search.shortestPath at hp
    rw [S.goals] at hp
    exact (C84_total S.width L S.costs S.fit S.start.1 (fun g hg => (S.goalCells g hg).1)).1 _ hp
  | ok o =>
    cases o with
    | none => rw [C87_no_path.1 hp] at h; cases h
    | some path =>
      obtain ⟨⟨cs, hcs⟩, h1⟩ := C87_candidates S.width S.costs S.fit S.pos L S.sort S.start.1 S.goals (fun g hg => (S.goalCells g hg).1) hcur hp
      rcases h1 cs hcs with ⟨r, h2, -⟩ | ⟨h2, -⟩
      · rw [h] at h2; cases h2
      · rw [h] at h2; cases h2; rfl

theorem choose_none {l : List Node} (h : choose b l = some none) : ∀ x ∈ l, isAvailable b x = some false := by
  induction l with
  | nil => simp
  | cons y l ih =>
    unfold choose at h
    split at h
    · cases h
    · cases h
    · rename_i hy
      intro x hx
      rcases List.mem_cons.mp hx with rfl | hx
      · exact hy
      · exact ih h x hx

theorem choose_wait {l : List Node} (h : choose b l = none) : ∃ x ∈ l, isAvailable b x = none := by
  induction l with
  | nil => cases h
  | cons y l ih =>
    unfold choose at h
    split at h
    · rename_i hy; exact ⟨y, by simp, hy⟩
    · cases h
    · obtain ⟨x, hx, h⟩ := ih h
      exact ⟨x, by simp [hx], h⟩

/-- One of the candidates is open, or the plan passes the cell ahead twice. -/
theorem some_open (S : Setting P cost real goal0 rest) (hA : Affordable P cost)
    (hreach : ∀ g ∈ goal0 :: rest, Connected P.W (posBlocked real) (cellOf P.start) (cellOf g)) {cur : Node} (hT : TrueBelief P.W real b)
    (hs : Stands P b cur) {l : List Node} (hn : nextCandidates P b cur = .ok (some l)) :
    (∃ x ∈ l, SearchLegal P.W x ∧ real (oldWallAt ⟨x.x, x.y⟩) = false) ∨ Revisits P b (aheadCell cur) := by
  obtain ⟨path, cs, hp, hcs, hc⟩ := cand_move S hs.legal hn
  rcases open_cand S hA hT hs hreach hp hn hcs with ⟨x, hx, ho⟩ | ⟨cells, i, j, h1, h2, h3, h4⟩
  · obtain ⟨t, k, -, hm⟩ := cand_mem hc hx
    exact Or.inl ⟨x, hx, turns_legal hs.legal hm.1 (openPose_range hm.2).1 (openPose_range hm.2).2, openPose_wall ho⟩
  · exact Or.inr ⟨path, cs, cells, i, j, hp, hcs, h1, h2, h3, h4⟩

/-- **C88, no panic**: if the goals can be reached in the maze, no call of `next_command` panics, except that the heap of the
planner may be full (not in mazes of up to 8 x 8 cells), or that a plan passed the cell ahead of the mouse twice. -/
theorem C88_no_panic (S : Setting P cost real goal0 rest) (hA : Affordable P cost)
    (hreach : ∀ g ∈ goal0 :: rest, Connected P.W (posBlocked real) (cellOf P.start) (cellOf g)) (h : Explores P real b s rs)
    (hL : Learns b b') (hT' : TrueBelief P.W real b') {e : Panic} (he : nextCommand P b' s = .error e) :
    (e = .capacity ∧ 8 < P.W) ∨ ∃ b0, TrueBelief P.W real b0 ∧ Learns b0 b ∧ Revisits P b0 (aheadCell s.current) := by
  obtain ⟨hT, hI, -⟩ := explores_inv S h
  have L := S.heap
  generalize commandsOf rs = cmds at hI
  cases hI with
  | initial ho =>
    obtain ⟨m, h1, -⟩ := init_step S.width S.start (openAhead_learn hT hT' hL ho)
    simp only [nextCommand, Commander.new, h1, bind, Except.bind, pure, Except.pure] at he
    cases he
  | solving cur ks hs hk =>
    have hs' := hs.learn hT hT' hL
    simp only [nextCommand, search_ofNode hs.legal, bind, Except.bind, pure, Except.pure] at he
    cases hc : nextCandidates P b' cur with
    | error e' =>
      rw [hc] at he
      cases he
      refine Or.inl ⟨candidates_error S hs.legal hc, ?_⟩
      by_contra h8
      obtain ⟨L⟩ := L
      obtain ⟨r, hr⟩ := C87_total (b := b') S.width (by omega) S.costs S.fit S.pos L S.sort S.start.1 S.goals (fun g hg => (S.goalCells g hg).1) hs.legal
      rw [hc] at hr
      cases hr
    | ok o =>
      rw [hc] at he
      cases o with
      | some c => cases he
      | none =>
        obtain ⟨c, h1, h2, h3, h4⟩ := hs'.here
        obtain ⟨m, h5, -⟩ := final_step S.width S.closed hs.legal ⟨c, h1, h2, h3, known_real hT' c h4⟩
        simp only [h5] at he
        cases he
  | waiting cur ks l b0 hs hk h2 h3 h4 h5 =>
    have hs' := hs.learn hT hT' hL
    simp only [nextCommand] at he
    split at he
    · cases he
    · cases hch : choose b' l with
      | none => rw [hch] at he; cases he
      | some o =>
        rw [hch] at he
        cases o with
        | none =>
          right
          refine ⟨b0, h2, h3, ?_⟩
          rcases some_open S hA hreach h2 h4 h5 with ⟨x, hx, hxl, ho⟩ | h
          · exfalso
            have := choose_none hch x hx
            unfold isAvailable at this
            rw [(C85_walls hxl).1] at this
            simp only at this
            split at this
            · cases this
            · split at this
              · rename_i hck
                rw [hT'.known _ hck, ho] at this
                cases this
              · cases this
          · exact h
        | some x =>
          exfalso
          obtain ⟨hx, ha⟩ := choose_some hch
          obtain ⟨hsx, k, hkm, hmv⟩ := stands_move S hs' h5 hx ha
          obtain ⟨o, hro, hoi⟩ := C85_route S.width hs.legal hsx.legal
          rw [(hoi k).mpr hmv] at hro
          simp only [search_ofNode hs.legal, hro, bind, Except.bind, pure, Except.pure] at he
          cases he
  | final cur n ks l hf hk => cases he

/-- **C88, waiting**: a call while waiting returns a command as soon as the walls of the candidates have been checked and none of
them is locked; without a command some candidate's wall has not been checked or is locked. -/
theorem C88_waits (S : Setting P cost real goal0 rest) (h : Explores P real b s rs) (hph : s.phase = .waiting) {r : Reply}
    (hr : nextCommand P b s = .ok (r, s')) :
    s.candidates ≠ [] ∧ (∀ x ∈ s.candidates, ∃ k, MovesTo s.current k x) ∧
    ((∃ n k, r = .command n k ∧ s'.current ∈ s.candidates) ∨
     (r = .waiting ∧ s' = s ∧ ∃ x ∈ s.candidates, b.locked (oldWallAt ⟨x.x, x.y⟩) = true ∨ b.checked (oldWallAt ⟨x.x, x.y⟩) = false)) := by
  obtain ⟨hT, hI, -⟩ := explores_inv S h
  generalize commandsOf rs = cmds at hI
  cases hI with
  | initial => cases hph
  | solving => cases hph
  | final => cases hph
  | waiting cur ks l b0 hs hk h2 h3 h4 h5 =>
    obtain ⟨path, cs, -, -, hc⟩ := cand_move S hs.legal h5
    have hmoves : ∀ x ∈ l, ∃ k, SearchMove P.W (posBlocked b0.present) cur k x := by
      intro x hx
      obtain ⟨t, k, -, hm⟩ := cand_mem hc hx
      exact ⟨k, hm⟩
    refine ⟨hc.1, fun x hx => (hmoves x hx).imp fun _ h => h.1, ?_⟩
    simp only [nextCommand] at hr
    rw [if_neg (by simpa using hc.1)] at hr
    cases hch : choose b l with
    | none =>
      rw [hch] at hr
      cases hr
      right
      refine ⟨rfl, rfl, ?_⟩
      obtain ⟨x, hx, ha⟩ := choose_wait hch
      refine ⟨x, hx, ?_⟩
      obtain ⟨k, hm⟩ := hmoves x hx
      have hxl := turns_legal hs.legal hm.1 (openPose_range hm.2).1 (openPose_range hm.2).2
      unfold isAvailable at ha
      rw [(C85_walls hxl).1] at ha
      simp only at ha
      split at ha
      · rename_i hl; exact Or.inl hl
      · split at ha
        · cases ha
        · rename_i hck; exact Or.inr (by simpa using hck)
    | some o =>
      rw [hch] at hr
      cases o with
      | none => cases hr
      | some x =>
        obtain ⟨hx, ha⟩ := choose_some hch
        obtain ⟨hsx, k, hkm, hmv⟩ := stands_move S hs h5 hx ha
        obtain ⟨o, hro, hoi⟩ := C85_route S.width hs.legal hsx.legal
        rw [(hoi k).mpr hmv] at hro
        simp only [search_ofNode hs.legal, hro, bind, Except.bind, pure, Except.pure, Except.ok.injEq, Prod.mk.injEq] at hr
        obtain ⟨rfl, rfl⟩ := hr
        exact Or.inl ⟨cur, k, rfl, hx⟩

theorem charged_mono {W : Nat} {isWall isWall' : Search.Coord → Bool} (hle : ∀ c, isWall c = false → isWall' c = false) {q : List Node} {c : Nat}
    (h : ChargedPath W isWall cost goal0 q c) : ChargedPath W isWall' cost goal0 q c := by
  induction h with
  | single n => exact .single n
  | cons n m k l c hd _ ih =>
    obtain ⟨crossed, h1, h2, h3, h4⟩ := hd
    refine .cons n m k l c ⟨crossed, h1, h2, h3, fun d hd => ?_⟩ ih
    obtain ⟨e, g1, g2, g3, g4⟩ := h4 d hd
    exact ⟨e, g1, g2, g3, hle e g4⟩

/-- A charged path crosses some walls, and can be driven whenever these are open. -/
theorem charged_crosses {W : Nat} {isWall : Search.Coord → Bool} {q : List Node} {c : Nat} (h : ChargedPath W isWall cost goal0 q c) :
    ∃ cs, Crosses W isWall q cs ∧ ∀ isWall' : Search.Coord → Bool, (∀ e ∈ cs, isWall' e = false) → ChargedPath W isWall' cost goal0 q c := by
  induction h with
  | single n => exact ⟨[], .single n, fun _ _ => .single n⟩
  | cons n m k l c hd _ ih =>
    obtain ⟨cs, hcs, h⟩ := ih
    obtain ⟨crossed, hR, h3, h4, ho⟩ := hd
    refine ⟨_, .cons n m k crossed l (crossed.map (posAt n)) cs hR h3 h4 ho ?_ hcs, ?_⟩
    · rw [List.map_map]
      apply List.map_congr_left
      intro d hd
      obtain ⟨c, h1, h2, -⟩ := ho d hd
      simp only [Function.comp, posAt, Prod.mk.injEq]
      omega
    · intro isWall' hall
      refine .cons n m k l c ⟨crossed, hR, h3, h4, fun d hd => ?_⟩ (h isWall' fun e he => hall e (List.mem_append_right _ he))
      obtain ⟨e, h1, h2, h5, h6⟩ := ho d hd
      refine ⟨e, h1, h2, h5, hall e (List.mem_append_left _ (List.mem_map.mpr ⟨d, hd, ?_⟩))⟩
      obtain ⟨x, y⟩ := e
      simp only at h1 h2
      simp only [posAt, Search.Coord.mk.injEq]
      omega

/-- **C88, the search ends with the fastest path**: when the final command is given, the start is a goal or the maze has no path
that is charged less than the largest cost, or every wall on the planned path has been checked, and in the maze itself the path can be driven and
no other path to a goal is charged less. -/
theorem C88_finish (S : Setting P cost real goal0 rest) (hA : Affordable P cost) (h : Explores P real b s rs) (hL : Learns b b')
    (hT' : TrueBelief P.W real b') {n : Node} (hr : nextCommand P b' s = .ok (.command n .final, s')) :
    (P.start ∈ goal0 :: rest ∨ ∀ q c, q.head? = some P.start → (∃ g ∈ goal0 :: rest, q.getLast? = some g) →
      ChargedPath P.W (posBlocked real) cost goal0 q c → P.MAX ≤ cost (.straight (cellsApart P.start goal0)) + c) ∨
    ∃ path c, Old.Search.shortestPath P b' = .ok (some path) ∧
      (∀ cs, Crosses P.W (posBlocked b'.present) path cs → ∀ e ∈ cs, b'.checked (oldWallAt e) = true ∧ real (oldWallAt e) = false) ∧
      path.head? = some P.start ∧ (∃ g ∈ goal0 :: rest, path.getLast? = some g) ∧ ChargedPath P.W (posBlocked real) cost goal0 path c ∧
      ∀ q c', q.head? = some P.start → (∃ g ∈ goal0 :: rest, q.getLast? = some g) → ChargedPath P.W (posBlocked real) cost goal0 q c' → c ≤ c' := by
  obtain ⟨hT, hI, -⟩ := explores_inv S h
  obtain ⟨L⟩ := S.heap
  generalize commandsOf rs = cmds at hI
  cases hI with
  | initial ho =>
    obtain ⟨m, h1, -⟩ := init_step S.width S.start (openAhead_learn hT hT' hL ho)
    simp only [nextCommand, Commander.new, h1, bind, Except.bind, pure, Except.pure] at hr
    cases hr
  | waiting cur ks l b0 hs hk h2 h3 h4 h5 =>
    exfalso
    have hs' := hs.learn hT hT' hL
    simp only [nextCommand] at hr
    split at hr
    · cases hr
    · cases hch : choose b' l with
      | none => rw [hch] at hr; cases hr
      | some o =>
        rw [hch] at hr
        cases o with
        | none => cases hr
        | some x =>
          obtain ⟨hx, ha⟩ := choose_some hch
          obtain ⟨hsx, k, hkm, hmv⟩ := stands_move S hs' h5 hx ha
          obtain ⟨o, hro, hoi⟩ := C85_route S.width hs.legal hsx.legal
          rw [(hoi k).mpr hmv] at hro
          simp only [search_ofNode hs.legal, hro, bind, Except.bind, pure, Except.pure, Except.ok.injEq, Prod.mk.injEq, Reply.command.injEq] at hr
          obtain ⟨⟨-, rfl⟩, -⟩ := hr
          exact hmv
  | final cur n ks l hf hk => cases hr
  | solving cur ks hs hk =>
    have hs' := hs.learn hT hT' hL
    simp only [nextCommand, search_ofNode hs.legal, bind, Except.bind, pure, Except.pure] at hr
    cases hc : nextCandidates P b' cur with
    | error e => rw [hc] at hr; cases hr
    | ok o =>
      rw [hc] at hr
      cases o with
      | some c => cases hr
      | none =>
        cases hp : Old.Search.shortestPath P b' with
        | error e => rw [C87_no_path.2 e hp] at hc; cases hc
        | ok o =>
          have hp' := hp
          unfold Old.Search.shortestPath at hp'
          rw [S.goals] at hp'
          cases o with
          | none =>
            left
            rcases C84_no_plan S.width L S.costs S.fit S.start.1 (fun g hg => (S.goalCells g hg).1) hp' with h1 | h1
            · exact Or.inl h1
            · exact Or.inr fun q c h2 h3 h4 => h1 q c h2 h3 (charged_mono (real_present hT') h4)
          | some path =>
            right
            obtain ⟨-, h1, h2, -, c, h3, h4⟩ := C84_plan S.width L S.costs S.fit S.start.1 (fun g hg => (S.goalCells g hg).1) hp'
            have hall : ∀ cs, Crosses P.W (posBlocked b'.present) path cs → ∀ e ∈ cs, b'.checked (oldWallAt e) = true ∧ real (oldWallAt e) = false := by
              intro cs hcs e he
              have h5 := none_checked S hA hT' hs' hp hc hcs e he
              refine ⟨h5, ?_⟩
              have h6 := crosses_open hcs e he
              unfold posBlocked at h6
              rw [hT'.known _ h5] at h6
              exact h6
            obtain ⟨cs, hcs, h5⟩ := charged_crosses h3
            refine ⟨path, c, rfl, hall, h1, h2, h5 _ fun e he => (hall cs hcs e he).2, fun q c' h6 h7 h8 => h4 q c' h6 h7 (charged_mono (real_present hT') h8)⟩

theorem order_length {P : Config} {l : List (Node × SearchKind)} (h : InOrder P.start l) : l.length ≤ movesOf l + 2 := by
  rcases h with rfl | ⟨ks, hk, h⟩
  · simp
  · have e : movesOf ks = ks.length := by
      unfold movesOf
      rw [List.filter_eq_self.mpr (by intro e he; exact decide_eq_true (hk e he))]
    have h1 : movesOf ((P.start, .init) :: ks) = movesOf ks := rfl
    have h2 : ∀ n, movesOf ((P.start, .init) :: (ks ++ [(n, .final)])) = movesOf ks := by
      intro n
      show movesOf (ks ++ [(n, .final)]) = _
      unfold movesOf
      rw [List.filter_append, List.length_append]
      rfl
    rcases h with rfl | ⟨n, rfl⟩
    · rw [h1, e, List.length_cons]; omega
    · rw [h2, e, List.length_cons, List.length_append]; simp

/-- **C88, bound**: if two moves cost at least as much as any single one, the number of commands of a run is bounded by a
polynomial in the width of the maze, whenever the walls are found out and however often the commander is asked. -/
theorem C88_bounded (S : Setting P cost real goal0 rest) (hB : Balanced cost) (h : Explores P real b s rs) :
    (commandsOf rs).length ≤ (2 * (P.W * P.W) + 1) * (8 * (P.W * P.W) + 1) + 1 := by
  obtain ⟨q, hq0, hq⟩ := hB
  have h1 := moves_bound S hq0 hq h
  have h2 := order_length (C88_tour S h).2
  obtain ⟨-, hI, -⟩ := explores_inv S h
  have : movesOf (commandsOf rs) + 1 ≤ (2 * (P.W * P.W) + 1) * (8 * (P.W * P.W) + 1) := by
    unfold MoveBound at h1
    simp only at h1
    split at h1
    · rw [h1]
      exact Nat.mul_pos (by omega) (by omega)
    · obtain ⟨b0, j, -, -, -, h3⟩ := h1; omega
    · obtain ⟨b0, j, -, -, -, -, -, h3⟩ := h1; omega
    · exact h1
  omega

/-! ## A run, and one that panics -/

/-- What is known after the walls of a list have been checked: the border, the walls of the start and these. -/
def knowing (real : Wall → Bool) (ws : List Wall) : Belief where
  checked w := decide (w.x < 4 ∧ w.y < 4) && ((w.top && w.y == 3) || (!w.top && w.x == 3) || (w.x == 0 && w.y == 0) || decide (w ∈ ws))
  present w := decide (w.x < 4 ∧ w.y < 4) && ((w.top && w.y == 3) || (!w.top && w.x == 3) || (w.x == 0 && w.y == 0) || decide (w ∈ ws)) && real w
  locked _ := false

theorem knowing_true (real : Wall → Bool) (ws : List Wall) : TrueBelief 4 real (knowing real ws) := by
  refine ⟨fun w h => ?_, fun w h => ?_, fun w h => ?_⟩
  · unfold knowing at h ⊢
    simp only at h ⊢
    rw [h, Bool.true_and]
  · unfold knowing at h ⊢
    simp only at h ⊢
    rw [h, Bool.false_and]
  · unfold knowing
    simp only
    rw [decide_eq_false h, Bool.false_and]

theorem knowing_learns (real : Wall → Bool) {ws ws' : List Wall} (h : ∀ w ∈ ws, w ∈ ws') : Learns (knowing real ws) (knowing real ws') := by
  intro w hw
  unfold knowing at hw ⊢
  simp only [Bool.and_eq_true, Bool.or_eq_true, decide_eq_true_eq] at hw ⊢
  exact ⟨hw.1, hw.2.imp id (h w)⟩

/-- A maze of 4 x 4 cells with the walls of a list besides the border. -/
def walled (ws : List Wall) (w : Wall) : Bool := (w.top && w.y == 3) || (!w.top && w.x == 3) || decide (w ∈ ws)

theorem walled_closed (ws : List Wall) : Closed 4 (walled ws) := by
  intro i _
  constructor <;> simp [walled]

theorem small_setting (ws : List Wall) : Setting smallConfig linearCost (walled ws) ⟨4, 4, .north⟩ [⟨4, 4, .east⟩, ⟨4, 4, .south⟩, ⟨4, 4, .west⟩] where
  width := ⟨2, by decide, rfl⟩
  costs := fun p hp => ((C84_default_costs ⟨2, by decide, rfl⟩).1 p hp).1
  fit := fun p q hp hq => ((C84_default_costs ⟨2, by decide, rfl⟩).2.1 p q hp hq).1
  pos := by decide
  heap := ⟨listQueueLaws _ _⟩
  sort := costSort_sorts
  start := by decide
  goals := rfl
  goalCells := by decide
  closed := walled_closed ws

theorem open_ahead (ws : List Wall) (h : (⟨0, 0, true⟩ : Wall) ∉ ws) (ks : List Wall) : OpenAhead 4 (knowing (walled ws) ks) ⟨0, 0, .north⟩ := by
  refine ⟨⟨0, 1⟩, by decide, by decide, by simp [knowing, oldWallAt], by simp [knowing, oldWallAt, walled, h]⟩

/-- The default costs of the four moves. -/
example : Affordable smallConfig linearCost ∧ Balanced linearCost := by
  refine ⟨⟨15, by decide, by decide⟩, 8, by decide, by decide⟩

/-- The default costs are affordable in every supported maze. -/
example (W : Nat) (hW : Supported W) : Affordable { smallConfig with W := W } linearCost := by
  have := hW.le
  refine ⟨15, by decide, ?_⟩
  have : W * W ≤ 32 * 32 := Nat.mul_le_mul hW.le hW.le
  show 4 * (W * W) * 15 < 65535
  omega

/-- The walls right of the start and of the cell above. -/
def twoWalls : List Wall := [⟨0, 0, false⟩, ⟨0, 1, false⟩]

def allWalls : List Wall := (List.range 4).flatMap fun x => (List.range 4).flatMap fun y => [⟨x, y, false⟩, ⟨x, y, true⟩]

/-- A run in this maze: the mouse leaves the start and waits until the walls around the next cell have been checked; it cannot turn
right as planned and goes on. After all walls have been checked it stops in the next cell. -/
theorem twoWalls_run : Explores smallConfig (walled twoWalls) (knowing (walled twoWalls) allWalls) ⟨⟨0, 4, .north⟩, .final, []⟩
    [.command ⟨0, 0, .north⟩ .init, .waiting, .command ⟨0, 1, .north⟩ .front, .command ⟨0, 3, .north⟩ .final, .finish] := by
  have h0 : Explores smallConfig (walled twoWalls) (knowing (walled twoWalls) []) (Commander.new ⟨0, 0, .north⟩) [] :=
    .start _ (knowing_true _ _) (open_ahead twoWalls (by decide) [])
  have h1 := Explores.call _ (knowing (walled twoWalls) []) _ ⟨⟨0, 1, .north⟩, .solving, []⟩ (.command ⟨0, 0, .north⟩ .init) _ h0 (fun _ h => h) (knowing_true _ _) (by decide +kernel)
  have h2 := Explores.call _ (knowing (walled twoWalls) []) _ ⟨⟨0, 1, .north⟩, .waiting, [⟨1, 2, .east⟩, ⟨0, 3, .north⟩]⟩ .waiting _ h1 (fun _ h => h)
    (knowing_true _ _) (by decide +kernel)
  have h3 := Explores.call _ (knowing (walled twoWalls) [⟨0, 1, false⟩, ⟨0, 1, true⟩]) _ ⟨⟨0, 3, .north⟩, .solving, []⟩ (.command ⟨0, 1, .north⟩ .front) _ h2
    (knowing_learns _ (by simp)) (knowing_true _ _) (by decide +kernel)
  have h4 := Explores.call _ (knowing (walled twoWalls) allWalls) _ ⟨⟨0, 4, .north⟩, .final, []⟩ (.command ⟨0, 3, .north⟩ .final) _ h3
    (knowing_learns _ (by decide)) (knowing_true _ _) (by decide +kernel)
  exact Explores.call _ (knowing (walled twoWalls) allWalls) _ ⟨⟨0, 4, .north⟩, .final, []⟩ .finish _ h4 (fun _ h => h) (knowing_true _ _) (by decide +kernel)

/-- In that maze the goals can be reached. -/
example : ∀ g ∈ smallConfig.goals, Connected 4 (posBlocked (walled twoWalls)) (cellOf smallConfig.start) (cellOf g) := by
  have : Connected 4 (posBlocked (walled twoWalls)) (0, 0) (4, 4) := by
    have step : ∀ (C D : V) (c : Search.Coord), Between C c D → Valid 4 c → posBlocked (walled twoWalls) c = false →
        Joined 4 (posBlocked (walled twoWalls)) C D := fun C D c h1 h2 h3 => ⟨c, h1, h2, h3⟩
    refine .head (step _ (0, 2) ⟨0, 1⟩ (by decide) (by decide) (by decide)) ?_
    refine .head (step _ (0, 4) ⟨0, 3⟩ (by decide) (by decide) (by decide)) ?_
    refine .head (step _ (2, 4) ⟨1, 4⟩ (by decide) (by decide) (by decide)) ?_
    exact .single (step _ (4, 4) ⟨3, 4⟩ (by decide) (by decide) (by decide))
  intro g hg
  have : cellOf g = (4, 4) := by revert g hg; decide
  rw [this]
  assumption

/-- The mouse is shut in two cells. -/
def shutIn : List Wall := [⟨0, 0, false⟩, ⟨0, 1, false⟩, ⟨0, 1, true⟩]

/-- **C88, finding**: in a maze whose goal cannot be reached the search does not end: the commander panics ("This is bug") as
soon as every candidate is known to be behind a wall. -/
theorem C88_unsolvable : Setting smallConfig linearCost (walled shutIn) ⟨4, 4, .north⟩ [⟨4, 4, .east⟩, ⟨4, 4, .south⟩, ⟨4, 4, .west⟩] ∧
    ∃ b b' s rs, Explores smallConfig (walled shutIn) b s rs ∧ Learns b b' ∧ TrueBelief 4 (walled shutIn) b' ∧
      nextCommand smallConfig b' s = .error .unreachable := by
  refine ⟨small_setting shutIn, ?_⟩
  have h0 : Explores smallConfig (walled shutIn) (knowing (walled shutIn) []) (Commander.new ⟨0, 0, .north⟩) [] :=
    .start _ (knowing_true _ _) (open_ahead shutIn (by decide) [])
  have h1 := Explores.call _ (knowing (walled shutIn) []) _ ⟨⟨0, 1, .north⟩, .solving, []⟩ (.command ⟨0, 0, .north⟩ .init) _ h0 (fun _ h => h) (knowing_true _ _) (by decide +kernel)
  have h2 := Explores.call _ (knowing (walled shutIn) []) _ ⟨⟨0, 1, .north⟩, .waiting, [⟨1, 2, .east⟩, ⟨0, 3, .north⟩]⟩ .waiting _ h1 (fun _ h => h)
    (knowing_true _ _) (by decide +kernel)
  exact ⟨_, knowing (walled shutIn) shutIn, _, _, h2, knowing_learns _ (by simp), knowing_true _ _, by decide +kernel⟩

end Verif.Props
