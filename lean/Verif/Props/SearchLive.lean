import Verif.Props.SearchRun
/-!
# C78: the search run ends
-/
namespace Verif.Props
open Verif Verif.Control Verif.Straight Verif.Slalom Verif.Spec Verif.StraightP Verif.SearchDriver
open Verif.Search (SearchState Commander Searcher Coord WallState TrajectoryKind)
open Verif.Grid Verif.Bfs

variable {c : SearchConfig}

/-! ## What is known about the maze -/

/-- The map is right, and the robot stands on a side known to be open, connected with the start and not walled in. -/
structure Knows (W : Nat) (maze : Coord → Bool) (s : SearchState) (ws : Coord → WallState) : Prop where
  good : Good W (s, ws)
  truth : Truthful W maze ws
  here : ws s.coord = .checked false
  back : Reach W (fun c => maze c = false) s.coord ⟨0, 1⟩
  out : ∃ d, Adjacent W s.coord d ∧ maze d = false

variable {W : Nat} {goals : List Coord} {maze : Coord → Bool}

theorem knows_no_error (h : Request W ⟨0, 1⟩ goals) {s : SearchState} {ws ws' : Coord → WallState} (hk : Knows W maze s ws) (ht' : Truthful W maze ws')
    {cmd : Commander} (hr : explore W ⟨0, 1⟩ goals s.coord ws = .ok (.ok (some cmd))) (e : Search.SearchError) : cmd.nextCoordinate ws' ≠ .error e := by
  intro hn
  obtain ⟨-, -, hcand, -⟩ := C18_candidates h hk.good.1.1 ws cmd hr
  obtain ⟨-, -, n3, -⟩ := C20_next_coordinate cmd ws'
  obtain ⟨d, hd, hmd⟩ := hk.out
  have hdc : d ∈ cmd.candidates := (hcand d).2 ⟨hd, fun hw => by rw [hk.truth d true hd.2.1 hw] at hmd; cases hmd⟩
  cases e
  have := n3.1 hn d hdc
  rw [ht' d true hd.2.1 this] at hmd
  cases hmd

theorem knows_step (h : Request W ⟨0, 1⟩ goals) {s s' : SearchState} {k : TrajectoryKind} {ws ws' : Coord → WallState} (hk : Knows W maze s ws)
    (ht' : Truthful W maze ws') (hsl : SlotConsistent W ws') (hex : Extends ws ws') {cmd : Commander} (hr : explore W ⟨0, 1⟩ goals s.coord ws = .ok (.ok (some cmd)))
    {nc : Coord} (hn : cmd.nextCoordinate ws' = .ok (some nc)) (hu : s.update nc = .ok (s', some k)) :
    Knows W maze s' ws' ∧ effort W ⟨0, 1⟩ goals (s', ws') < effort W ⟨0, 1⟩ goals (s, ws) := by
  obtain ⟨-, -, hcand, -⟩ := C18_candidates h hk.good.1.1 ws cmd hr
  obtain ⟨n1, -⟩ := C20_next_coordinate cmd ws'
  obtain ⟨b, a, e1, e2, -⟩ := (n1 nc).1 hn
  have hadj := ((hcand nc).1 (by rw [e1]; simp)).1
  obtain ⟨s1, k1, u1, u2, -, -, u5, u6⟩ := update_total h.width hk.good.1 hadj.2.1
  rw [hu] at u1
  simp only [Except.ok.injEq, Prod.mk.injEq] at u1
  obtain ⟨rfl, rfl⟩ := u1
  obtain ⟨hg', hlt⟩ := step_decreases h hk.good (.mk hr hex hsl hn hu)
  have hm : maze s.coord = false := hk.truth _ _ hk.good.1.1 hk.here
  have hmc : maze nc = false := ht' nc false hadj.2.1 e2
  refine ⟨?_, hlt⟩
  by_cases hb : k = .back
  · obtain ⟨e, -⟩ := u5 (by rw [hb])
    have ec : s'.coord = s.coord := by rw [e]
    refine ⟨hg', ht', ?_, by rw [ec]; exact hk.back, nc, by rw [ec]; exact hadj, hmc⟩
    rw [ec, hex _ (by rw [hk.here]; simp), hk.here]
  · have ec := u6 (by simpa using hb) (by simp)
    refine ⟨hg', ht', by rw [ec]; exact e2, ?_, s.coord, ?_, hm⟩
    · rw [ec]
      exact hk.back.cons (Adjacent.symm hadj) hm
    · rw [ec]
      exact Adjacent.symm hadj

theorem extends_le {ws : Nat → Coord → WallState} (h : ∀ i, Extends (ws i) (ws (i + 1))) {i j : Nat} (hij : i ≤ j) : Extends (ws i) (ws j) := by
  induction j, hij using Nat.le_induction with
  | base => exact fun _ _ => rfl
  | succ j _ ih =>
    intro x hx
    have h1 := ih x hx
    rw [h j x (by rw [h1]; exact hx), h1]

theorem next_stable {ws ws' : Coord → WallState} (hex : Extends ws ws') {cmd : Commander} {nc : Coord} (hn : cmd.nextCoordinate ws = .ok (some nc)) :
    cmd.nextCoordinate ws' = .ok (some nc) := by
  obtain ⟨n1, -⟩ := C20_next_coordinate cmd ws
  obtain ⟨n1', -⟩ := C20_next_coordinate cmd ws'
  obtain ⟨b, a, e1, e2, e3⟩ := (n1 nc).1 hn
  refine (n1' nc).2 ⟨b, a, e1, ?_, fun x hx => ?_⟩
  · rw [hex nc (by rw [e2]; simp), e2]
  · rw [hex x (by rw [e3 x hx]; simp), e3 x hx]

/-! ## Rounds -/

theorem rounds_append (T : Trig) {searcher : Searcher} {ws : Nat → Coord → WallState} (m : Nat) {lp' : Loop} : ∀ {n i : Nat} {lp : Loop} {ts : List Target},
    rounds T c W searcher ws n i lp = .ok (ts, some lp') →
    rounds T c W searcher ws (n + m) i lp = (rounds T c W searcher ws m (i + n) lp' >>= fun z => .ok (ts ++ z.1, z.2))
  | 0, i, lp, ts, h => by
    cases h
    rw [Nat.zero_add, Nat.add_zero]
    cases rounds T c W searcher ws m i lp' <;> rfl
  | n + 1, i, lp, ts, h => by
    rw [Nat.succ_add, rounds_succ]
    rw [rounds_succ] at h
    cases h1 : track T lp with
    | error => rw [h1] at h; cases h
    | ok x =>
      rw [h1] at h
      simp only [bind, Except.bind] at h ⊢
      cases h2 : decideNext c W searcher (ws i) x.2 with
      | error => rw [h2] at h; cases h
      | ok y =>
        rw [h2] at h
        simp only at h ⊢
        cases y with
        | none => cases h
        | some lp1 =>
          simp only at h ⊢
          cases h3 : rounds T c W searcher ws n (i + 1) lp1 with
          | error => rw [h3] at h; cases h
          | ok z =>
            rw [h3] at h
            obtain ⟨z1, z2⟩ := z
            simp only [Except.ok.injEq, Prod.mk.injEq] at h
            obtain ⟨rfl, rfl⟩ := h
            have := rounds_append T m h3
            simp only [bind, Except.bind] at this
            rw [this, show i + 1 + n = i + (n + 1) by omega]
            cases rounds T c W searcher ws m (i + (n + 1)) lp' <;> rfl

theorem one_round {T : Trig} {searcher : Searcher} {ws : Nat → Coord → WallState} {i : Nat} {lp lp1 lp2 : Loop} {t : Target}
    (h1 : track T lp = .ok (t, lp1)) (h2 : decideNext c W searcher (ws i) lp1 = .ok (some lp2)) :
    rounds T c W searcher ws 1 i lp = .ok ([t], some lp2) := by
  rw [rounds_succ, h1]
  simp only [bind, Except.bind, h2]
  rfl

theorem rounds_snoc {T : Trig} {searcher : Searcher} {ws : Nat → Coord → WallState} {n m i : Nat} {lp lp1 lp2 : Loop} {ts ts' : List Target}
    (h1 : rounds T c W searcher ws n i lp = .ok (ts, some lp1)) (h2 : rounds T c W searcher ws m (i + n) lp1 = .ok (ts', some lp2)) :
    rounds T c W searcher ws (n + m) i lp = .ok (ts ++ ts', some lp2) := by
  rw [rounds_append T m h1, h2]
  rfl

/-- The rest of a trajectory when the next is chosen already. -/
theorem finish (hc : SearchOk c) (h : Request W ⟨0, 1⟩ goals) {searcher : Searcher} {ws : Nat → Coord → WallState} {known : Coord → Prop} {s : SearchState} :
    ∀ (rest : List Target) (i : Nat) (l : List Target) (lp : Loop), Inv c W goals known l lp s rest → lp.commander = none → lp.next ≠ none →
      ∃ ts lp', rounds .real c W searcher ws rest.length i lp = .ok (ts, some lp') ∧ Inv c W goals known (l ++ ts) lp' s [] ∧
        lp'.commander = none ∧ lp'.next ≠ none ∧ lp'.robot = lp.robot
  | [], i, l, lp, I, h1, h2 => ⟨[], lp, rfl, by simpa using I, h1, h2, rfl⟩
  | t :: rest, i, l, lp, I, h1, h2 => by
    rcases track_inv hc h I with ⟨t', rest', lp', e, q1, q2, q3, q4, q5⟩ | ⟨e, -⟩ | ⟨e, -⟩
    · cases e
      have hd : decideNext c W searcher (ws i) lp' = .ok (some lp') := by
        unfold decideNext
        rw [q3, h1, q2]
        cases hx : lp.next with
        | none => exact absurd hx h2
        | some => rfl
      obtain ⟨ts, lp2, r1, r2, r3, r4, r5⟩ := finish hc h (searcher := searcher) (ws := ws) rest (i + 1) (l ++ [t]) lp' q5 (by rw [q3, h1]) (by rw [q2]; exact h2)
      refine ⟨[t] ++ ts, lp2, ?_, by simpa using r2, r3, r4, by rw [r5, q4]⟩
      rw [List.length_cons, Nat.add_comm]
      exact rounds_snoc (one_round q1 hd) r1
    · cases e
    · cases e

/-- Waiting for the commander. -/
theorem wait (hc : SearchOk c) (h : Request W ⟨0, 1⟩ goals) {searcher : Searcher} {ws : Nat → Coord → WallState} {s : SearchState} {cmd : Commander}
    {ws0 : Coord → WallState} (hcmd : explore W ⟨0, 1⟩ goals s.coord ws0 = .ok (.ok (some cmd))) (herr : ∀ j e, cmd.nextCoordinate (ws j) ≠ .error e) :
    ∀ (r i : Nat) (l : List Target) (lp : Loop) (rest : List Target), Inv c W goals (fun _ => True) l lp s rest → lp.commander = some cmd → lp.next = none →
      r + 1 ≤ rest.length → cmd.nextCoordinate (ws (i + r)) ≠ .ok none →
      ∃ q ts lp' rest' nc k, rounds .real c W searcher ws (q + 1) i lp = .ok (ts, some lp') ∧ Inv c W goals (fun _ => True) (l ++ ts) lp' s rest' ∧
        lp'.next ≠ none ∧ lp'.commander = none ∧ s.update nc = .ok (lp'.robot, some k) ∧ cmd.nextCoordinate (ws (i + q)) = .ok (some nc)
  | r, i, l, lp, rest, I, h1, h2, h3, h4 => by
    rcases track_inv hc h I with ⟨t, rest', lp', e, q1, q2, q3, q4, q5⟩ | ⟨e, -⟩ | ⟨e, -⟩
    · subst e
      cases hn : cmd.nextCoordinate (ws i) with
      | error e => exact absurd hn (herr i e)
      | ok o =>
        cases o with
        | some nc =>
          rcases q5.plan with ⟨-, p2, -⟩ | ⟨p1, -⟩
          · obtain ⟨s', k, u1, -⟩ := C22_executable h I.state ws0 (ws i) cmd hcmd nc (.inl hn)
            have hd : decideNext c W searcher (ws i) lp' = .ok (some { lp' with robot := s', next := some (poseOfSearch s c.squareWidth c.frontOffset, c.move k), commander := none }) := by
              unfold decideNext
              rw [q3, h1]
              simp only [Option.map_some, hn, p2]
              rw [u1]
              rfl
            obtain ⟨before, after, n1, -⟩ := ((C20_next_coordinate cmd (ws i)).1 nc).1 hn
            obtain ⟨-, -, hcand, -⟩ := C18_candidates h I.state.1 ws0 cmd hcmd
            have ha := ((hcand nc).1 (by rw [n1]; simp)).1
            exact ⟨0, [t], _, rest', nc, k, one_round q1 hd, ⟨q5.tour, q5.steps, q5.state, q5.left, .inr ⟨rfl, nc, k, rfl, trivial, ha, u1⟩⟩, by simp, rfl, u1, hn⟩
          · rw [q3, h1] at p1
            cases p1
        | none =>
          cases r with
          | zero => exact absurd hn h4
          | succ r =>
            have hd : decideNext c W searcher (ws i) lp' = .ok (some lp') := by
              unfold decideNext
              rw [q3, h1]
              simp only [Option.map_some, hn]
              rfl
            obtain ⟨q, ts, lp2, rest2, nc, k, r1, r2, r3, r4, r5, r6⟩ := wait hc h (searcher := searcher) hcmd herr r (i + 1) (l ++ [t]) lp' rest' q5 (by rw [q3, h1]) (by rw [q2, h2])
              (by simpa using h3) (by rwa [Nat.add_right_comm])
            refine ⟨q + 1, [t] ++ ts, lp2, rest2, nc, k, ?_, by simpa using r2, r3, r4, r5, by rwa [Nat.add_right_comm] at r6⟩
            rw [Nat.add_comm]
            exact rounds_snoc (one_round q1 hd) r1
    · subst e; simp at h3
    · subst e; simp at h3

/-- From the first target of a trajectory to the end of the search. -/
theorem search_ends (hc : SearchOk c) (h : Request W ⟨0, 1⟩ goals) {searcher : Searcher} (hn : Searcher.new W ⟨0, 1⟩ goals = .ok searcher)
    {ws : Nat → Coord → WallState} (htruth : ∀ i, Truthful W maze (ws i)) (hslot : ∀ i, SlotConsistent W (ws i)) (hext : ∀ i, Extends (ws i) (ws (i + 1)))
    {d : Nat} (htime : Timely c W searcher ws (d + 1)) (hd : (d + 2) * searchStep c ≤ 0.49 * c.squareWidth) :
    ∀ (N m : Nat) (l : List Target) (lp lp1 : Loop) (t : Target) (s : SearchState) (rest : List Target), effort W ⟨0, 1⟩ goals (s, ws m) < N → Knows W maze s (ws m) →
      rounds .real c W searcher ws m 0 c.start = .ok (l, some lp) → track .real lp = .ok (t, lp1) → lp1.next = none → lp1.commander = none →
      Inv c W goals (fun _ => True) (l ++ [t]) lp1 s rest → 0.49 * c.squareWidth ≤ (rest.length + 1) * searchStep c →
      ∃ n s', Knows W maze s' (ws n) ∧
        ((∃ ts, rounds .real c W searcher ws (n + 1) 0 c.start = .ok (ts, none) ∧ explore W ⟨0, 1⟩ goals s'.coord (ws n) = .ok (.ok none)) ∨
         (rounds .real c W searcher ws (n + 1) 0 c.start = .error .unreachable ∧ explore W ⟨0, 1⟩ goals s'.coord (ws n) = .ok (.error .unreachable)))
  | 0, m, l, lp, lp1, t, s, rest, he, _, _, _, _, _, _, _ => absurd he (by omega)
  | N + 1, m, l, lp, lp1, t, s, rest, he, hk, hr, htr, hn1, hc1, I, hlen => by
    have hse : ∀ x, explore W ⟨0, 1⟩ goals x (ws m) = searcher.search W x (ws m) := fun x => by rw [explore, hn]; rfl
    have hrob : lp1.robot = s := by
      rcases I.plan with ⟨-, p2, -⟩ | ⟨-, next, k, p2, -⟩
      · exact p2
      · rw [hn1] at p2; cases p2
    obtain ⟨r, hx⟩ := (C13_total h).2 s.coord I.state.1 (ws m)
    have hx' := hx
    rw [hse] at hx'
    have one : rounds .real c W searcher ws (m + 1) 0 c.start = (rounds .real c W searcher ws 1 m lp >>= fun z => .ok (l ++ z.1, z.2)) := by
      have := rounds_append .real 1 hr
      rwa [Nat.zero_add] at this
    cases r with
    | error e =>
      cases e
      refine ⟨m, s, hk, .inr ⟨?_, hx⟩⟩
      rw [one, rounds_succ, htr]
      simp only [bind, Except.bind]
      have : decideNext c W searcher (ws m) lp1 = .error .unreachable := by
        unfold decideNext
        rw [hc1, hn1, hrob, hx']
        rfl
      rw [this]
    | ok o =>
      cases o with
      | none =>
        refine ⟨m, s, hk, .inl ⟨l ++ [t], ?_, hx⟩⟩
        rw [one, rounds_succ, htr]
        simp only [bind, Except.bind]
        have : decideNext c W searcher (ws m) lp1 = .ok none := by
          unfold decideNext
          rw [hc1, hn1, hrob, hx']
          rfl
        rw [this]
      | some cmd =>
        have hdec : decideNext c W searcher (ws m) lp1 = .ok (some { lp1 with commander := some cmd }) := by
          unfold decideNext
          rw [hc1, hn1, hrob, hx']
          simp [← hrob]
          rfl
        have r1 : rounds .real c W searcher ws (m + 1) 0 c.start = .ok (l ++ [t], some { lp1 with commander := some cmd }) := by
          rw [one, one_round htr hdec]
          rfl
        have I1 : Inv c W goals (fun _ => True) (l ++ [t]) { lp1 with commander := some cmd } s rest :=
          ⟨I.tour, I.steps, I.state, I.left, .inl ⟨hn1, hrob, fun cmd' hcmd => by cases hcmd; exact ⟨_, hx⟩⟩⟩
        have hlen' : d + 1 ≤ rest.length := by
          have hp := (searchStep_pos hc).2
          have : ((d : ℝ) + 2) * searchStep c ≤ (rest.length + 1) * searchStep c := hd.trans hlen
          have := le_of_mul_le_mul_right this hp
          have : ((d + 1 : ℕ) : ℝ) ≤ (rest.length : ℝ) := by push_cast; linarith
          exact_mod_cast this
        obtain ⟨q, ts, lp2, rest2, nc, k, w1, w2, w3, w4, w5, w6⟩ := wait hc h (searcher := searcher) hx (fun j e => knows_no_error h hk (htruth j) hx e) d (m + 1) _ _ rest I1 rfl hn1 hlen'
          (by have := htime m _ _ cmd r1 rfl; rwa [show m + 1 + d = m + (d + 1) by omega])
        have r2 := rounds_snoc r1 (by rw [Nat.zero_add]; exact w1)
        obtain ⟨ts', lp3, f1, f2, f3, f4, f5⟩ := finish hc h (searcher := searcher) (ws := ws) rest2 (m + 1 + (q + 1)) _ lp2 w2 w4 w3
        have r3 := rounds_snoc r2 (by rw [Nat.zero_add]; exact f1)
        have hext' : Extends (ws (m + 1 + q)) (ws (m + 1 + (q + 1) + rest2.length)) := extends_le hext (by omega)
        obtain ⟨hk', hlt⟩ := knows_step h hk (htruth (m + 1 + (q + 1) + rest2.length)) (hslot _) (extends_le hext (by omega)) hx (next_stable hext' w6) w5
        rcases track_inv hc h f2 with ⟨_, _, _, e, -⟩ | ⟨-, -, t', rest', lp', q1, q2, q3, q4, q5, q6⟩ | ⟨-, e, -⟩
        · cases e
        · exact search_ends hc h hn htruth hslot hext htime hd N _ _ lp3 lp' t' lp3.robot rest' (by rw [f5]; omega) (by rw [f5]; exact hk') r3 q1 q2 q3 q5 q6
        · exact absurd e f4

/-- **C78, the end.** Sensors that never change what they have reported, tell the truth about the maze, know that the side the mouse goes over first is open,
and are in time: at most `d` rounds, and `d + 1` rounds take less than half a square. Then the search ends. If a goal can be reached, it ends without panic, and the map of the last
round has the same shortest path as the maze. If no goal can be reached, it ends with a panic. -/
theorem C78_ends (hc : SearchOk c) (h : Request W ⟨0, 1⟩ goals) {searcher : Searcher} (hn : Searcher.new W ⟨0, 1⟩ goals = .ok searcher)
    (maze : Coord → Bool) (ws : Nat → Coord → WallState) (htruth : ∀ i, Truthful W maze (ws i)) (hslot : ∀ i, SlotConsistent W (ws i))
    (hext : ∀ i, Extends (ws i) (ws (i + 1))) (hopen : ws 0 ⟨0, 1⟩ = .checked false) (hout : ∃ x, Adjacent W ⟨0, 1⟩ x ∧ maze x = false)
    {d : Nat} (hd0 : 0 < d) (htime : Timely c W searcher ws d) (hd : (d + 1) * searchStep c ≤ 0.49 * c.squareWidth) :
    (∃ n l path, rounds .real c W searcher ws (n + 1) 0 c.start = .ok (l, none) ∧ plan W ⟨0, 1⟩ goals maze = .ok (some path) ∧
      plan W ⟨0, 1⟩ goals (pessimistic (ws n)) = .ok (some path)) ∨
    (∃ n, rounds .real c W searcher ws (n + 1) 0 c.start = .error .unreachable ∧ plan W ⟨0, 1⟩ goals maze = .ok none) := by
  obtain ⟨d, rfl⟩ : ∃ k, d = k + 1 := ⟨d - 1, by omega⟩
  obtain ⟨rest, I, hlen⟩ := inv_start hc h (fun _ => True)
  have hk : Knows W maze ⟨⟨0, 1⟩, .north⟩ (ws 0) := ⟨⟨I.state, hslot 0⟩, htruth 0, hopen, ⟨[], trivial, rfl⟩, hout⟩
  have hd' : ((d : ℝ) + 2) * searchStep c ≤ 0.49 * c.squareWidth := by push_cast at hd; linarith
  rcases track_inv hc h I with ⟨t, rest', lp', e, q1, q2, q3, q4, q5⟩ | ⟨e, -⟩ | ⟨e, -⟩
  · subst e
    obtain ⟨n, s', hk', hr⟩ := search_ends hc h hn htruth hslot hext htime hd' _ 0 [] c.start lp' t _ rest' (Nat.lt_succ_self _) hk rfl q1 q2 q3 q5 (by simpa using hlen)
    have hopen' : ∀ c, Valid W c → maze c = false → ws n c ≠ .checked true := fun c hc hmc hw => by
      rw [htruth n c true hc hw] at hmc; cases hmc
    rcases hr with ⟨ts, r1, r2⟩ | ⟨r1, r2⟩
    · left
      obtain ⟨path, p1, p2, -⟩ := C23_complete_optimal h hk'.good.1.1 (ws n) maze (htruth n) r2
      exact ⟨n, ts, path, r1, p1, p2⟩
    · right
      refine ⟨n, r1, (C12_complete h maze).2 ?_⟩
      have := unreachable_only_goal h hk'.good.1.1 (hslot n) (by rw [hk'.here]; simp) (hk'.back.mono hopen') r2
      rintro ⟨path, q1, q2, q3⟩
      exact this ⟨path, q1, q2, runPath_mono hopen' q3⟩
  · subst e
    have := hc.width
    simp at hlen
    linarith
  · subst e
    have := hc.width
    simp at hlen
    linarith

theorem stuck (hc : SearchOk c) (h : Request W ⟨0, 1⟩ goals) {searcher : Searcher} {ws : Nat → Coord → WallState} {known : Coord → Prop} {s : SearchState} {cmd : Commander} :
    ∀ (rest : List Target) (i : Nat) (l : List Target) (lp : Loop), Inv c W goals known l lp s rest → lp.commander = some cmd → lp.next = none →
      (∀ j, i ≤ j → cmd.nextCoordinate (ws j) = .ok none) → rounds .real c W searcher ws (rest.length + 1) i lp = .error .unreachable
  | [], i, l, lp, I, _, h2, _ => by
    rcases track_inv hc h I with ⟨_, _, _, e, -⟩ | ⟨-, e, -⟩ | ⟨-, -, e⟩
    · cases e
    · exact absurd h2 e
    · rw [rounds_succ, e]
      rfl
  | t :: rest, i, l, lp, I, h1, h2, h3 => by
    rcases track_inv hc h I with ⟨t', rest', lp', e, q1, q2, q3, q4, q5⟩ | ⟨e, -⟩ | ⟨e, -⟩
    · cases e
      have hd : decideNext c W searcher (ws i) lp' = .ok (some lp') := by
        unfold decideNext
        rw [q3, h1]
        simp only [Option.map_some, h3 i le_rfl]
        rfl
      rw [rounds_succ, q1]
      simp only [bind, Except.bind, hd]
      rw [List.length_cons, stuck hc h rest (i + 1) (l ++ [t]) lp' q5 (by rw [q3, h1]) (by rw [q2, h2]) (fun j hj => h3 j (by omega))]
    · cases e
    · cases e

/-- **C78, too late.** When the commander waits for a wall that is never decided, the loop panics: there is no other move to fall back on. -/
theorem C78_late (hc : SearchOk c) (h : Request W ⟨0, 1⟩ goals) {searcher : Searcher} (hn : Searcher.new W ⟨0, 1⟩ goals = .ok searcher)
    (ws : Nat → Coord → WallState) (n : Nat) (l : List Target) (lp : Loop) (hr : rounds .real c W searcher ws n 0 c.start = .ok (l, some lp))
    (cmd : Commander) (hcmd : lp.commander = some cmd) (hlate : ∀ j, n ≤ j → cmd.nextCoordinate (ws j) = .ok none) :
    ∃ m, rounds .real c W searcher ws m 0 c.start = .error .unreachable := by
  obtain ⟨rest, I, -⟩ := inv_start hc h (fun _ => True)
  obtain ⟨r, -⟩ := rounds_inv hc h hn ws n 0 [] c.start _ rest I (fun _ _ _ _ => trivial)
  obtain ⟨s, rest', -, -, t3, -⟩ := r l _ hr
  obtain ⟨-, I'⟩ := t3 lp rfl
  rw [List.nil_append] at I'
  have hnext : lp.next = none := by
    rcases I'.plan with ⟨p1, -⟩ | ⟨p1, -⟩
    · exact p1
    · rw [hcmd] at p1; cases p1
  refine ⟨n + (rest'.length + 1), ?_⟩
  rw [rounds_append .real _ hr, Nat.zero_add, stuck hc h rest' n l lp I' hcmd hnext hlate]
  rfl

/-! Non-vacuity: the settings of the test. -/

/-- `tests/search.rs:97`, `165-181`, `201`. -/
noncomputable def testSearch (fo : ℝ) : SearchConfig :=
  ⟨⟨0.3, 10, 100⟩, ⟨8 * Real.pi, 80 * Real.pi, 160 * Real.pi⟩, 0.001, 0.09, fo, 0.1⟩

theorem test_search {fo : ℝ} (h0 : 0 ≤ fo) (h1 : fo ≤ 0.01) : SearchOk (testSearch fo) where
  v := by norm_num [testSearch]
  a := by norm_num [testSearch]
  j := by norm_num [testSearch]
  sv := by simp only [testSearch]; positivity
  sa := by simp only [testSearch]; positivity
  sj := by simp only [testSearch]; positivity
  period := by norm_num [testSearch]
  width := by norm_num [testSearch]
  offset := h0
  nominal := .inl rfl
  room := by
    simp only [testSearch]
    have : rampTime 10 100 0.3 ≤ 0.11 := by
      unfold rampTime
      rw [if_neg (by norm_num)]
      have : Real.sqrt (0.3 / 100) ≤ 0.055 := by rw [Real.sqrt_le_left (by norm_num)]; norm_num
      linarith
    nlinarith
  step := by simp only [testSearch]; linarith
  turn := by
    simp only [testSearch]
    have hp := Real.pi_pos
    have hp3 := Real.pi_gt_three
    unfold rampDist rampTime resolution
    rw [sub_zero, abs_of_nonneg (by positivity)]
    simp only
    rw [if_neg (by
      rw [not_le, div_lt_div_iff₀ (by positivity) (by positivity)]
      nlinarith)]
    have e : 8 * Real.pi / 2 ^ 25 / (160 * Real.pi) = 8 / (2 ^ 25 * 160) := by field_simp
    rw [e]
    have : Real.sqrt (8 / (2 ^ 25 * 160)) ≤ 1 := by rw [Real.sqrt_le_left (by norm_num)]; norm_num
    have h2 := Real.sqrt_nonneg (8 / (2 ^ 25 * 160))
    norm_num at *
    nlinarith

/-- A map that shows the first side in the first round and everything from the second on. -/
def sudden (maze : Coord → Bool) (i : Nat) (x : Coord) : WallState :=
  if i = 0 then if x = ⟨0, 1⟩ then .checked (maze ⟨0, 1⟩) else .unchecked else .checked (maze (wallOf x))

theorem sudden_facts (maze : Coord → Bool) : (∀ i, Truthful W maze (sudden maze i)) ∧ (∀ i, SlotConsistent W (sudden maze i)) ∧
    ∀ i, Extends (sudden maze i) (sudden maze (i + 1)) := by
  have hv : ∀ c, Valid W c → wallOf c = c := fun c hc => by
    unfold wallOf; rw [if_neg]; have := hc.2.2; omega
  have hw1 : wallOf ⟨0, 1⟩ = ⟨0, 1⟩ := by decide
  have k1 : ∀ i, Truthful W maze (sudden maze i) := by
    intro i x b hx hb
    unfold sudden at hb
    split at hb
    · split at hb
      · rename_i e; rw [e]; simpa using hb
      · cases hb
    · rw [hv x hx] at hb; simpa using hb
  have k2 : ∀ i, SlotConsistent W (sudden maze i) := by
    intro i x y hx hy hxy
    unfold sudden
    split
    · rcases hxy with rfl | ⟨e1, e2, rfl⟩
      · rfl
      · rw [if_neg, if_neg]
        · rintro e; simp at e
        · rintro rfl; simp at e2
    · rw [wallOf_slot hx hy hxy, hv y hy]
  have k3 : ∀ i, Extends (sudden maze i) (sudden maze (i + 1)) := by
    intro i x hx
    unfold sudden at *
    rw [if_neg (by omega)]
    split at hx
    · split
      · split at hx
        · rename_i e; rw [if_pos e, e, hw1]
        · exact absurd rfl hx
      · omega
    · rw [if_neg (by assumption)]
  exact ⟨k1, k2, k3⟩

theorem sudden_ends (h : Request W ⟨0, 1⟩ goals) {searcher : Searcher} (hn : Searcher.new W ⟨0, 1⟩ goals = .ok searcher) (maze : Coord → Bool)
    (hopen : maze ⟨0, 1⟩ = false) (hout : ∃ x, Adjacent W ⟨0, 1⟩ x ∧ maze x = false) :
    (∃ n l path, rounds .real (testSearch 0.01) W searcher (sudden maze) (n + 1) 0 (testSearch 0.01).start = .ok (l, none) ∧
      plan W ⟨0, 1⟩ goals maze = .ok (some path) ∧ plan W ⟨0, 1⟩ goals (pessimistic (sudden maze n)) = .ok (some path)) ∨
    (∃ n, rounds .real (testSearch 0.01) W searcher (sudden maze) (n + 1) 0 (testSearch 0.01).start = .error .unreachable ∧ plan W ⟨0, 1⟩ goals maze = .ok none) := by
  obtain ⟨k1, k2, k3⟩ := sudden_facts (W := W) maze
  have k4 : Timely (testSearch 0.01) W searcher (sudden maze) 1 := by
    intro n l lp cmd _ _ hc
    obtain ⟨_, x, _, _, e, _⟩ := (C20_next_coordinate cmd _).2.1.1 hc
    unfold sudden at e
    rw [if_neg (by omega)] at e
    cases e
  have k5 : ((1 : ℕ) + 1) * searchStep (testSearch 0.01) ≤ 0.49 * (testSearch 0.01).squareWidth := by
    simp only [searchStep, testSearch]
    norm_num
  exact C78_ends (test_search (fo := 0.01) (by norm_num) le_rfl) h hn maze (sudden maze) k1 k2 k3 (by simp [sudden, hopen]) hout one_pos k4 k5

/-- A search that ends, and the tour it has made. -/
example (h : Request W ⟨0, 1⟩ goals) {searcher : Searcher} (hn : Searcher.new W ⟨0, 1⟩ goals = .ok searcher) (maze : Coord → Bool)
    (hopen : maze ⟨0, 1⟩ = false) (hout : ∃ x, Adjacent W ⟨0, 1⟩ x ∧ maze x = false) (path : List Coord) (hp : plan W ⟨0, 1⟩ goals maze = .ok (some path)) :
    ∃ n l s rest, rounds .real (testSearch 0.01) W searcher (sudden maze) (n + 1) 0 (testSearch 0.01).start = .ok (l, none) ∧
      plan W ⟨0, 1⟩ goals (pessimistic (sudden maze n)) = .ok (some path) ∧
      Tour (testSearch 0.01) W (fun x => ∃ i < n + 1, sudden maze i x = .checked false) s (l ++ rest) := by
  rcases sudden_ends h hn maze hopen hout with ⟨n, l, p, r1, r2, r3⟩ | ⟨n, r1, r2⟩
  · rw [hp] at r2
    cases r2
    obtain ⟨⟨s, rest, t⟩, -⟩ := C78_tour (test_search (by norm_num) le_rfl) h hn _ _ _ _ r1
    exact ⟨n, l, s, rest, r1, r3, t⟩
  · rw [hp] at r2
    cases r2

/-- A search without goals panics. -/
example : ∃ searcher n, Searcher.new 4 ⟨0, 1⟩ [] = .ok searcher ∧
    rounds .real (testSearch 0.01) 4 searcher (sudden fun _ => false) (n + 1) 0 (testSearch 0.01).start = .error .unreachable := by
  have h : Request 4 ⟨0, 1⟩ [] := ⟨⟨2, by norm_num, rfl⟩, by decide, by simp⟩
  obtain ⟨searcher, hn⟩ : ∃ searcher, Searcher.new 4 ⟨0, 1⟩ [] = .ok searcher := by
    obtain ⟨r, hr⟩ := (C13_total h).1 fun _ => false
    cases e : Searcher.new 4 ⟨0, 1⟩ [] with
    | ok x => exact ⟨x, rfl⟩
    | error => rw [plan, e] at hr; cases hr
  rcases sudden_ends h hn (fun _ => false) rfl ⟨⟨1, 2⟩, ⟨by decide, by decide, by decide, (0, 1), by simp [Touches], by simp [Touches]⟩, rfl⟩ with ⟨n, l, p, r1, r2, r3⟩ | ⟨n, r1, r2⟩
  · exact absurd r2 (by rw [(C12_complete h _).2 (by rintro ⟨_, _, ⟨_, hg, _⟩, _⟩; cases hg)]; simp)
  · exact ⟨searcher, n, hn, r1⟩

/-- A map that never shows more than the first side. -/
example : ∃ searcher m, Searcher.new 4 ⟨0, 1⟩ [⟨6, 5⟩] = .ok searcher ∧
    rounds .real (testSearch 0.01) 4 searcher (fun _ x => if x = ⟨0, 1⟩ then .checked false else .unchecked) m 0 (testSearch 0.01).start = .error .unreachable := by
  have h : Request 4 ⟨0, 1⟩ [⟨6, 5⟩] := ⟨⟨2, by norm_num, rfl⟩, by decide, by decide⟩
  have hex : ∃ cmd, explore 4 ⟨0, 1⟩ [⟨6, 5⟩] ⟨0, 1⟩ (fun x => if x = ⟨0, 1⟩ then .checked false else .unchecked) = .ok (.ok (some cmd)) ∧
      cmd.nextCoordinate (fun x => if x = ⟨0, 1⟩ then .checked false else .unchecked) = .ok none := by
    have : (explore 4 ⟨0, 1⟩ [⟨6, 5⟩] ⟨0, 1⟩ (fun x => if x = ⟨0, 1⟩ then .checked false else .unchecked)).toOption.map
        (fun r => match r with | .ok (some cmd) => decide (cmd.nextCoordinate (fun x => if x = ⟨0, 1⟩ then .checked false else .unchecked) = .ok none) | _ => false) = some true := by
      decide +kernel
    revert this
    generalize explore 4 ⟨0, 1⟩ [⟨6, 5⟩] ⟨0, 1⟩ (fun x => if x = ⟨0, 1⟩ then .checked false else .unchecked) = r
    intro this
    cases r with
    | error => cases this
    | ok r =>
      cases r with
      | error => cases this
      | ok o =>
        cases o with
        | none => cases this
        | some cmd => exact ⟨cmd, rfl, by simpa [Except.toOption] using this⟩
  obtain ⟨cmd, hx, hnext⟩ := hex
  obtain ⟨searcher, hn⟩ : ∃ searcher, Searcher.new 4 ⟨0, 1⟩ [⟨6, 5⟩] = .ok searcher := by
    cases e : Searcher.new 4 ⟨0, 1⟩ [⟨6, 5⟩] with
    | ok x => exact ⟨x, rfl⟩
    | error => rw [explore, e] at hx; cases hx
  have hc := test_search (fo := 0.01) (by norm_num) le_rfl
  obtain ⟨rest, I, hlen⟩ := inv_start hc h (fun _ => True)
  rcases track_inv hc h I with ⟨t, rest', lp', e, q1, q2, q3, q4, q5⟩ | ⟨e, -⟩ | ⟨e, -⟩
  · have hs : searcher.search 4 ⟨0, 1⟩ (fun x => if x = ⟨0, 1⟩ then .checked false else .unchecked) = .ok (.ok (some cmd)) := by
      rw [← hx, explore, hn]; rfl
    have hd : decideNext (testSearch 0.01) 4 searcher (fun x => if x = ⟨0, 1⟩ then .checked false else .unchecked) lp' =
        .ok (some { lp' with commander := some cmd }) := by
      unfold decideNext
      rw [q3, q2, q4]
      simp only [SearchConfig.start, Option.map_none, Option.isNone_none, if_true]
      rw [hs]
      rfl
    have r1 : rounds .real (testSearch 0.01) 4 searcher (fun _ x => if x = ⟨0, 1⟩ then .checked false else .unchecked) 1 0 (testSearch 0.01).start =
        .ok ([t], some { lp' with commander := some cmd }) := one_round q1 hd
    obtain ⟨m, hm⟩ := C78_late hc h hn _ _ _ _ r1 cmd rfl (fun _ _ => hnext)
    exact ⟨searcher, m, hn, hm⟩
  · subst e; norm_num [testSearch] at hlen
  · subst e; norm_num [testSearch] at hlen

end Verif.Props
