import Verif.Props.SearchLive
/-!
# C78: the search run ends when the sensors are just in time
-/
namespace Verif.Props
open Verif Verif.Control Verif.Straight Verif.Slalom Verif.Spec Verif.StraightP Verif.SearchDriver
open Verif.Search (SearchState Commander Searcher Coord WallState TrajectoryKind)
open Verif.Grid Verif.Bfs

variable {c : SearchConfig} {W : Nat} {goals : List Coord} {maze : Coord → Bool}

/-- A trajectory has more than one target. -/
theorem long_rest (hc : SearchOk c) {rest : List Target} (h : 0.49 * c.squareWidth ≤ (rest.length + 1) * searchStep c) : rest ≠ [] := by
  rintro rfl
  have h1 := hc.step
  have h2 := hc.width
  have h3 := hc.offset
  unfold searchStep at h
  simp at h
  linarith

/-- Waiting for the commander, at the longest until the last target of the trajectory. -/
theorem wait_punctual (hc : SearchOk c) (h : Request W ⟨0, 1⟩ goals) {searcher : Searcher} {ws : Nat → Coord → WallState} {s : SearchState} {cmd : Commander}
    {ws0 : Coord → WallState} (hcmd : explore W ⟨0, 1⟩ goals s.coord ws0 = .ok (.ok (some cmd))) (herr : ∀ j e, cmd.nextCoordinate (ws j) ≠ .error e)
    (hp : Punctual c W searcher ws) :
    ∀ (rest : List Target) (i : Nat) (l : List Target) (lp : Loop), Inv c W goals (fun _ => True) l lp s rest → lp.commander = some cmd → lp.next = none →
      rest ≠ [] → rounds .real c W searcher ws i 0 c.start = .ok (l, some lp) →
      ∃ q ts lp' rest' nc k, rounds .real c W searcher ws (q + 1) i lp = .ok (ts, some lp') ∧ Inv c W goals (fun _ => True) (l ++ ts) lp' s rest' ∧
        lp'.next ≠ none ∧ lp'.commander = none ∧ s.update nc = .ok (lp'.robot, some k) ∧ cmd.nextCoordinate (ws (i + q)) = .ok (some nc)
  | [], _, _, _, _, _, _, h3, _ => absurd rfl h3
  | t :: rest, i, l, lp, I, h1, h2, h3, h4 => by
    rcases track_inv hc h I with ⟨t', rest', lp', e, q1, q2, q3, q4, q5⟩ | ⟨e, -⟩ | ⟨e, -⟩
    · cases e
      cases hn : cmd.nextCoordinate (ws i) with
      | error e => exact absurd hn (herr i e)
      | ok o =>
        cases o with
        | some nc =>
          rcases q5.plan with ⟨-, p2, -⟩ | ⟨p1, -⟩
          · obtain ⟨s', k, u1, -⟩ := C22_executable h I.state ws0 (ws i) cmd hcmd nc (.inl hn)
            have hd : decideNext c W searcher (ws i) lp' = .ok (some { lp' with robot := s', next := some (poseOfSearch s c.squareWidth c.frontOffset, c.move k), commander := none }) := by
              unfold decideNext
              rw [q3, h1]
              simp only [Option.map_some, hn, p2]
              rw [u1]
              rfl
            obtain ⟨before, after, n1, -⟩ := ((C20_next_coordinate cmd (ws i)).1 nc).1 hn
            obtain ⟨-, -, hcand, -⟩ := C18_candidates h I.state.1 ws0 cmd hcmd
            have ha := ((hcand nc).1 (by rw [n1]; simp)).1
            exact ⟨0, [t], _, rest, nc, k, one_round q1 hd, ⟨q5.tour, q5.steps, q5.state, q5.left, .inr ⟨rfl, nc, k, rfl, trivial, ha, u1⟩⟩, by simp, rfl, u1, hn⟩
          · rw [q3, h1] at p1
            cases p1
        | none =>
          have hr : rest ≠ [] := by
            rintro rfl
            exact hp i l lp t lp' cmd h4 q1 (produces_nil q5.left) (by rw [q3, h1]) hn
          have hd : decideNext c W searcher (ws i) lp' = .ok (some lp') := by
            unfold decideNext
            rw [q3, h1]
            simp only [Option.map_some, hn]
            rfl
          have h5 : rounds .real c W searcher ws (i + 1) 0 c.start = .ok (l ++ [t], some lp') := by
            rw [rounds_append .real 1 h4, Nat.zero_add, one_round q1 hd]
            rfl
          obtain ⟨q, ts, lp2, rest2, nc, k, r1, r2, r3, r4, r5, r6⟩ := wait_punctual hc h (searcher := searcher) hcmd herr hp rest (i + 1) (l ++ [t]) lp' q5
            (by rw [q3, h1]) (by rw [q2, h2]) hr h5
          refine ⟨q + 1, [t] ++ ts, lp2, rest2, nc, k, ?_, by simpa using r2, r3, r4, r5, by rwa [Nat.add_right_comm] at r6⟩
          rw [Nat.add_comm]
          exact rounds_snoc (one_round q1 hd) r1
    · cases e
    · cases e

/-- From the first target of a trajectory to the end of the search. -/
theorem search_punctual (hc : SearchOk c) (h : Request W ⟨0, 1⟩ goals) {searcher : Searcher} (hn : Searcher.new W ⟨0, 1⟩ goals = .ok searcher)
    {ws : Nat → Coord → WallState} (htruth : ∀ i, Truthful W maze (ws i)) (hslot : ∀ i, SlotConsistent W (ws i)) (hext : ∀ i, Extends (ws i) (ws (i + 1)))
    (hp : Punctual c W searcher ws) :
    ∀ (N m : Nat) (l : List Target) (lp lp1 : Loop) (t : Target) (s : SearchState) (rest : List Target), effort W ⟨0, 1⟩ goals (s, ws m) < N → Knows W maze s (ws m) →
      rounds .real c W searcher ws m 0 c.start = .ok (l, some lp) → track .real lp = .ok (t, lp1) → lp1.next = none → lp1.commander = none →
      Inv c W goals (fun _ => True) (l ++ [t]) lp1 s rest → rest ≠ [] →
      ∃ n s', Knows W maze s' (ws n) ∧
        ((∃ ts, rounds .real c W searcher ws (n + 1) 0 c.start = .ok (ts, none) ∧ explore W ⟨0, 1⟩ goals s'.coord (ws n) = .ok (.ok none)) ∨
         (rounds .real c W searcher ws (n + 1) 0 c.start = .error .unreachable ∧ explore W ⟨0, 1⟩ goals s'.coord (ws n) = .ok (.error .unreachable)))
  | 0, m, l, lp, lp1, t, s, rest, he, _, _, _, _, _, _, _ => absurd he (by omega)
  | N + 1, m, l, lp, lp1, t, s, rest, he, hk, hr, htr, hn1, hc1, I, hlen => by
    have hse : ∀ x, explore W ⟨0, 1⟩ goals x (ws m) = searcher.search W x (ws m) := fun x => by rw [explore, hn]; rfl
    have hrob : lp1.robot = s := by
      rcases I.plan with ⟨-, p2, -⟩ | ⟨-, next, k, p2, -⟩
      · exact p2
      · rw [hn1] at p2; cases p2
    obtain ⟨r, hx⟩ := (C13_total h).2 s.coord I.state.1 (ws m)
    have hx' := hx
    rw [hse] at hx'
    have one : rounds .real c W searcher ws (m + 1) 0 c.start = (rounds .real c W searcher ws 1 m lp >>= fun z => .ok (l ++ z.1, z.2)) := by
      have := rounds_append .real 1 hr
      rwa [Nat.zero_add] at this
    cases r with
    | error e =>
      cases e
      refine ⟨m, s, hk, .inr ⟨?_, hx⟩⟩
      rw [one, rounds_succ, htr]
      simp only [bind, Except.bind]
      have : decideNext c W searcher (ws m) lp1 = .error .unreachable := by
        unfold decideNext
        rw [hc1, hn1, hrob, hx']
        rfl
      rw [this]
    | ok o =>
      cases o with
      | none =>
        refine ⟨m, s, hk, .inl ⟨l ++ [t], ?_, hx⟩⟩
        rw [one, rounds_succ, htr]
        simp only [bind, Except.bind]
        have : decideNext c W searcher (ws m) lp1 = .ok none := by
          unfold decideNext
          rw [hc1, hn1, hrob, hx']
          rfl
        rw [this]
      | some cmd =>
        have hdec : decideNext c W searcher (ws m) lp1 = .ok (some { lp1 with commander := some cmd }) := by
          unfold decideNext
          rw [hc1, hn1, hrob, hx']
          simp [← hrob]
          rfl
        have r1 : rounds .real c W searcher ws (m + 1) 0 c.start = .ok (l ++ [t], some { lp1 with commander := some cmd }) := by
          rw [one, one_round htr hdec]
          rfl
        have I1 : Inv c W goals (fun _ => True) (l ++ [t]) { lp1 with commander := some cmd } s rest :=
          ⟨I.tour, I.steps, I.state, I.left, .inl ⟨hn1, hrob, fun cmd' hcmd => by cases hcmd; exact ⟨_, hx⟩⟩⟩
        obtain ⟨q, ts, lp2, rest2, nc, k, w1, w2, w3, w4, w5, w6⟩ := wait_punctual hc h (searcher := searcher) hx
          (fun j e => knows_no_error h hk (htruth j) hx e) hp rest (m + 1) _ _ I1 rfl hn1 hlen r1
        have r2 := rounds_snoc r1 (by rw [Nat.zero_add]; exact w1)
        obtain ⟨ts', lp3, f1, f2, f3, f4, f5⟩ := finish hc h (searcher := searcher) (ws := ws) rest2 (m + 1 + (q + 1)) _ lp2 w2 w4 w3
        have r3 := rounds_snoc r2 (by rw [Nat.zero_add]; exact f1)
        have hext' : Extends (ws (m + 1 + q)) (ws (m + 1 + (q + 1) + rest2.length)) := extends_le hext (by omega)
        obtain ⟨hk', hlt⟩ := knows_step h hk (htruth (m + 1 + (q + 1) + rest2.length)) (hslot _) (extends_le hext (by omega)) hx (next_stable hext' w6) w5
        rcases track_inv hc h f2 with ⟨_, _, _, e, -⟩ | ⟨-, -, t', rest', lp', q1, q2, q3, q4, q5, q6⟩ | ⟨-, e, -⟩
        · cases e
        · refine search_punctual hc h hn htruth hslot hext hp N _ _ lp3 lp' t' lp3.robot rest' (by rw [f5]; omega) (by rw [f5]; exact hk') r3 q1 q2 q3 q5 ?_
          exact long_rest hc q6
        · exact absurd e f4

/-- **C78, the end, just in time.** Sensors that never change what they have reported, tell the truth about the maze, know that the side the mouse goes over
first is open, and have settled what the commander asks for when the last target of a trajectory is commanded. Then the search ends. If a goal can be
reached, it ends without panic, and the map of the last round has the same shortest path as the maze. If no goal can be reached, it ends with a panic. -/
theorem C78_punctual (hc : SearchOk c) (h : Request W ⟨0, 1⟩ goals) {searcher : Searcher} (hn : Searcher.new W ⟨0, 1⟩ goals = .ok searcher)
    (maze : Coord → Bool) (ws : Nat → Coord → WallState) (htruth : ∀ i, Truthful W maze (ws i)) (hslot : ∀ i, SlotConsistent W (ws i))
    (hext : ∀ i, Extends (ws i) (ws (i + 1))) (hopen : ws 0 ⟨0, 1⟩ = .checked false) (hout : ∃ x, Adjacent W ⟨0, 1⟩ x ∧ maze x = false)
    (hp : Punctual c W searcher ws) :
    (∃ n l path, rounds .real c W searcher ws (n + 1) 0 c.start = .ok (l, none) ∧ plan W ⟨0, 1⟩ goals maze = .ok (some path) ∧
      plan W ⟨0, 1⟩ goals (pessimistic (ws n)) = .ok (some path)) ∨
    (∃ n, rounds .real c W searcher ws (n + 1) 0 c.start = .error .unreachable ∧ plan W ⟨0, 1⟩ goals maze = .ok none) := by
  obtain ⟨rest, I, hlen⟩ := inv_start hc h (fun _ => True)
  have hk : Knows W maze ⟨⟨0, 1⟩, .north⟩ (ws 0) := ⟨⟨I.state, hslot 0⟩, htruth 0, hopen, ⟨[], trivial, rfl⟩, hout⟩
  rcases track_inv hc h I with ⟨t, rest', lp', e, q1, q2, q3, q4, q5⟩ | ⟨e, -⟩ | ⟨e, -⟩
  · subst e
    obtain ⟨n, s', hk', hr⟩ := search_punctual hc h hn htruth hslot hext hp _ 0 [] c.start lp' t _ rest' (Nat.lt_succ_self _) hk rfl q1 q2 q3 q5
      (long_rest hc (by simpa using hlen))
    have hopen' : ∀ c, Valid W c → maze c = false → ws n c ≠ .checked true := fun c hc hmc hw => by
      rw [htruth n c true hc hw] at hmc; cases hmc
    rcases hr with ⟨ts, r1, r2⟩ | ⟨r1, r2⟩
    · left
      obtain ⟨path, p1, p2, -⟩ := C23_complete_optimal h hk'.good.1.1 (ws n) maze (htruth n) r2
      exact ⟨n, ts, path, r1, p1, p2⟩
    · right
      refine ⟨n, r1, (C12_complete h maze).2 ?_⟩
      have := unreachable_only_goal h hk'.good.1.1 (hslot n) (by rw [hk'.here]; simp) (hk'.back.mono hopen') r2
      rintro ⟨path, q1, q2, q3⟩
      exact this ⟨path, q1, q2, runPath_mono hopen' q3⟩
  · subst e
    have := hc.width
    simp at hlen
    linarith
  · subst e
    have := hc.width
    simp at hlen
    linarith

/-- A map that shows everything from the second round on is in time. -/
example {searcher : Searcher} (maze : Coord → Bool) : Punctual (testSearch 0.01) W searcher (sudden maze) := by
  intro n l lp t lp' cmd hr ht _ hcmd hnone
  obtain ⟨_, x, _, _, e, _⟩ := (C20_next_coordinate cmd _).2.1.1 hnone
  unfold sudden at e
  by_cases hn : n = 0
  · subst hn
    cases hr
    unfold track at ht
    split at ht
    · cases ht; cases hcmd
    · split at ht
      · cases ht
      · split at ht <;> cases ht
        cases hcmd
  · rw [if_neg hn] at e
    cases e

end Verif.Props
