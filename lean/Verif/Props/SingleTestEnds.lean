import Verif.Props.SingleTest
/-!
# C132: how the integration test in single precision ends
-/
namespace Verif.Props
open Verif Verif.Spec Verif.Convert Verif.Single Verif.Binary32 Verif.Detect Verif.Proof
open Verif.Search (Coord WallState Searcher SearchState)
open Verif.Grid Verif.WallsP

variable {exp : F → F} {L : Lib} {ε : ℝ} {g : Kit} {maze : Walls.Walls} {truth : Coord → Bool} {V a j Vs as js p s o : ℝ}

theorem mapAfter_truthful (hf : ∀ c, Valid g.W c → Walls.wallState g.W maze c = .ok (.checked (truth c))) {m : Attempt} {i : Nat}
    (h : Aware exp g.W maze truth (afterRounds (arith exp) L g m i)) : Truthful g.W (pessimistic (oracle g.W maze)) (mapAfter (arith exp) L g m i) := by
  intro c b hc hb
  have := h.true c b hc (oracle_checked.1 hb)
  unfold pessimistic
  rw [oracle_checked.2 this]
  cases b <;> simp

/-- Leaving the loop, the assertion at the end holds. -/
theorem check_single {goals : List Coord} (hr : Request g.W ⟨0, 1⟩ goals) (hn : Searcher.new g.W ⟨0, 1⟩ goals = .ok g.searcher) (hm : Reachable g.W maze)
    {m : Attempt} (h : Aware exp g.W maze truth m) {path : Option (List Coord)} (h1 : plan g.W ⟨0, 1⟩ goals (pessimistic (oracle g.W maze)) = .ok path)
    (h2 : plan g.W ⟨0, 1⟩ goals (pessimistic (oracle g.W m.walls)) = .ok path) : g.check m = .ok () := by
  unfold plan at h1 h2
  rw [hn] at h1 h2
  simp only [bind, Except.bind] at h1 h2
  unfold Kit.check
  rw [asking_eq hr.width h.map, h.sim, asking_eq hr.width hm]
  simp only [bind, Except.bind]
  have e1 : (fun c => decide (oracle g.W m.walls c ≠ .checked false)) = pessimistic (oracle g.W m.walls) := rfl
  have e2 : (fun c => decide (oracle g.W maze c ≠ .checked false)) = pessimistic (oracle g.W maze) := rfl
  rw [e1, e2, h1, h2]
  simp
  rfl

/-- When the loop is left, the test passes. -/
theorem left_single (hg : GoodExp exp) (he : Steep exp) (hε : ε ≤ 1 / 1000) (hU : Circular L) (hL : Rooted L) (H : Hunts V a j Vs as js p s o g.quest)
    {goals : List Coord} (hr : Request g.W ⟨0, 1⟩ goals) (hn : Searcher.new g.W ⟨0, 1⟩ goals = .ok g.searcher) (hs : Sorts g.sort) (hm : Reachable g.W maze)
    (hf : ∀ c, Valid g.W c → Walls.wallState g.W maze c = .ok (.checked (truth c))) {m m2 : Attempt} (h : Aware exp g.W maze truth m)
    (hl : m.hunt = g.quest.start (arith exp) L) {n k : Nat} (hv : InView exp L ε g m n) {l : List Single.Target} (r0 : k < n)
    (r1 : g.go (arith exp) L n m = .ok (false, m2))
    (r2 : hunt (arith exp) L g.quest g.W g.searcher (mapAfter (arith exp) L g m) n 0 m.hunt = .ok (l, none))
    (r3 : l.length = k + 1) (r4 : Aware exp g.W maze truth m2) (r5 : m2.walls = (afterRounds (arith exp) L g m k).walls) :
    g.test (arith exp) L n m = .ok (some ()) := by
  rw [hl] at r2
  obtain ⟨-, -, -, x⟩ := C126_targets hU hL H hr hn _ n l none r2
  obtain ⟨k', cur, x1, -, x3, x4⟩ := x rfl
  obtain rfl : k' = k := by omega
  obtain ⟨path, p1, p2, -⟩ := C23_complete_optimal hr x3 (mapAfter (arith exp) L g m k') _
    (mapAfter_truthful hf (after_aware hg he hε hr.width hs hf k' h (inView_mono hv (by omega)))) x4
  have e : mapAfter (arith exp) L g m k' = oracle g.W m2.walls := by rw [r5]; rfl
  rw [e] at p2
  unfold Kit.test
  rw [r1]
  simp only [bind, Except.bind]
  rw [check_single hr hn hm r4 p1 p2]
  rfl

/-- **C132, assertion.** The test in single precision, however well the robot follows its targets: as long as the places of the sensors are of moderate size, it
does not come to an end, or it passes, or it panics at one of the three `unreachable!()` of the driver; the assertion at the end never fails. -/
theorem C132_assertion (hg : GoodExp exp) (he : Steep exp) (hε : ε ≤ 1 / 1000) (hU : Circular L) (hL : Rooted L) (H : Hunts V a j Vs as js p s o g.quest)
    {goals : List Coord} (hr : Request g.W ⟨0, 1⟩ goals) (hn : Searcher.new g.W ⟨0, 1⟩ goals = .ok g.searcher) (hs : Sorts g.sort) (hm : Reachable g.W maze)
    (hf : ∀ c, Valid g.W c → Walls.wallState g.W maze c = .ok (.checked (truth c))) (m : Attempt) (h : Aware exp g.W maze truth m)
    (hl : m.hunt = g.quest.start (arith exp) L) (n : Nat) (hv : InView exp L ε g m n) :
    g.test (arith exp) L n m = .ok none ∨ g.test (arith exp) L n m = .ok (some ()) ∨ g.test (arith exp) L n m = .error .unreachable := by
  rcases go_hunt hg he hε hr.width hs hf (mapAfter (arith exp) L g m) n 0 h hv (fun k => by rw [Nat.zero_add]) with
    ⟨e, r1, r2⟩ | ⟨l, r1, -⟩ | ⟨k, l, m2, r0, r1, r2, r3, r4, r5⟩
  · rw [hl] at r2
    obtain ⟨rfl, -⟩ := C126_panics hU hL H hr hn _ n e r2
    exact .inr (.inr (by unfold Kit.test; rw [r1]; rfl))
  · exact .inl (by unfold Kit.test; rw [r1]; rfl)
  · exact .inr (.inl (left_single hg he hε hU hL H hr hn hs hm hf h hl hv r0 r1 r2 r3 r4 r5))

theorem go_stays_single {A : Arith} : ∀ {n : Nat} (k : Nat) {m : Attempt}, (∀ m', g.go A L n m ≠ .ok (true, m')) → g.go A L (n + k) m = g.go A L n m
  | 0, _, m, h => absurd rfl (h m)
  | n + 1, k, m, h => by
    rw [show n + 1 + k = n + k + 1 by omega]
    unfold Kit.go at h ⊢
    cases ht : g.turn A L m with
    | error e => rfl
    | ok x =>
      obtain ⟨on, m'⟩ := x
      rw [ht] at h
      cases on
      · rfl
      · exact go_stays_single (n := n) k (m := m') h

/-- **C132, end.** In single precision, with at most 49 % of a square per period: if the places of the sensors are of moderate size and the walls are seen in time,
the test ends: it passes if a goal can be reached, and panics if not. -/
theorem C132_ends (hg : GoodExp exp) (he : Steep exp) (hε : ε ≤ 1 / 1000) (hU : Circular L) (hL : Rooted L) (H : Hunts V a j Vs as js p s o g.quest)
    (hq : p * V ≤ 0.49 * s) {goals : List Coord} (hr : Request g.W ⟨0, 1⟩ goals) (hn : Searcher.new g.W ⟨0, 1⟩ goals = .ok g.searcher) (hs : Sorts g.sort)
    (hm : Reachable g.W maze) (hf : ∀ c, Valid g.W c → Walls.wallState g.W maze c = .ok (.checked (truth c))) (m : Attempt)
    (h : Aware exp g.W maze truth m) (hl : m.hunt = g.quest.start (arith exp) L) (hopen : Walls.wallState g.W m.walls ⟨0, 1⟩ = .ok (.checked false))
    (hout : ∃ x, Adjacent g.W ⟨0, 1⟩ x ∧ Walls.wallState g.W maze x = .ok (.checked false)) (hv : ∀ n, InView exp L ε g m n)
    (hp : Prompt (arith exp) L g.quest g.W g.searcher (mapAfter (arith exp) L g m)) :
    ∃ N, ∀ n, N ≤ n → (Solvable g.W maze goals → g.test (arith exp) L n m = .ok (some ())) ∧
      (¬ Solvable g.W maze goals → g.test (arith exp) L n m = .error .unreachable) := by
  have hW := hr.width
  have aw := fun i => after_aware hg he hε hW hs hf i h (hv i)
  have hiff := solvable_iff (maze := maze) hr
  have hout' : ∃ x, Adjacent g.W ⟨0, 1⟩ x ∧ pessimistic (oracle g.W maze) x = false := by
    obtain ⟨x, x1, x2⟩ := hout
    refine ⟨x, x1, ?_⟩
    unfold pessimistic
    rw [oracle_checked.2 x2]
    simp
  have stay : ∀ k, (∀ m', g.go (arith exp) L (k + 1) m ≠ .ok (true, m')) → ∀ n, k + 1 ≤ n → g.test (arith exp) L n m = g.test (arith exp) L (k + 1) m := by
    intro k hk n hle
    obtain ⟨j, rfl⟩ : ∃ j, n = k + 1 + j := ⟨n - (k + 1), by omega⟩
    unfold Kit.test
    rw [go_stays_single j hk]
  rcases C126_ends hU hL H hq hr hn _ (mapAfter (arith exp) L g m) (fun i => mapAfter_truthful hf (aw i))
    (fun i => (C24_walls_slotConsistent hW (aw i).map).1) (fun i => after_extends hg he hε hW hs hf i h (hv (i + 1))) (oracle_checked.2 hopen) hout' hp with
    ⟨k, l, path, r, p1, p2⟩ | ⟨k, r, p⟩
  · refine ⟨k + 1, fun n hle => ?_⟩
    rcases go_hunt hg he hε hW hs hf (mapAfter (arith exp) L g m) (k + 1) 0 h (hv _) (fun k => by rw [Nat.zero_add]) with
      ⟨e, q1, q2⟩ | ⟨l', q1, q2⟩ | ⟨k', l', m2, q0, q1, q2, q3, q4, q5⟩
    · rw [hl, r] at q2; cases q2
    · rw [hl, r] at q2; cases q2
    · rw [stay k (by rw [q1]; simp) n hle]
      refine ⟨fun _ => left_single hg he hε hU hL H hr hn hs hm hf h hl (hv _) q0 q1 q2 q3 q4 q5, fun hno => ?_⟩
      rw [hiff.2 hno] at p1
      cases p1
  · refine ⟨k + 1, fun n hle => ?_⟩
    rcases go_hunt hg he hε hW hs hf (mapAfter (arith exp) L g m) (k + 1) 0 h (hv _) (fun k => by rw [Nat.zero_add]) with
      ⟨e, q1, q2⟩ | ⟨l', q1, q2⟩ | ⟨k', l', m2, -, q1, q2, q3, q4, q5⟩
    · rw [hl, r] at q2
      cases q2
      rw [stay k (by rw [q1]; simp) n hle]
      refine ⟨fun hyes => absurd hyes (hiff.1 p), fun _ => ?_⟩
      unfold Kit.test
      rw [q1]
      rfl
    · rw [hl, r] at q2; cases q2
    · rw [hl, r] at q2; cases q2

end Verif.Props
