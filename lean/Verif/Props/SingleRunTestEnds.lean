import Verif.Props.SingleRunTest
import Verif.Props.RunTrial
import Verif.Props.StraightRun
import Verif.Props.Guard
import Verif.Props.SingleSimLook
/-!
# C133: how the whole test of the fast run in single precision ends
-/
namespace Verif.Props
open Verif Verif.Spec Verif.Single Verif.Binary32 Verif.Proof
open Verif.Run (Node EdgeKind HeapOps)

/-- The outcome of the loop, for all numbers of rounds. -/
theorem sprint_outcome (A : Arith) (L : Platform) (g : Supervisor) : ∀ (l : List Target) (m : Sprint), Hands A L.toLib m.stints l →
    (∀ n, ∃ m', g.go A L n m = .ok (decide (n ≤ l.length), m')) ∨
    ∃ i t e m', l[i]? = some t ∧ g.go A L i m = .ok (true, m') ∧ Declined A L g m' t e ∧ (∀ n ≤ i, ∃ m1, g.go A L n m = .ok (true, m1)) ∧
      ∀ n, i < n → g.go A L n m = .error e
  | l, m, h => by
    obtain ⟨-, h2, h3⟩ := sprint_turn A L g m
    rcases hands_cases h with ⟨rfl, st, hu⟩ | ⟨t, l', st, rfl, hu, hh⟩
    · obtain ⟨m', e1, -⟩ := h2 st hu
      refine .inl fun n => ?_
      cases n with
      | zero => exact ⟨m, rfl⟩
      | succ n =>
        refine ⟨m', ?_⟩
        rw [Supervisor.go, e1]
        rfl
    · rcases h3 t st hu with ⟨e, e1, hd⟩ | ⟨m1, e1, e2, -⟩
      · refine .inr ⟨0, t, e, m, rfl, rfl, hd, fun n hn => ?_, fun n hn => ?_⟩
        · obtain rfl : n = 0 := by omega
          exact ⟨m, rfl⟩
        · obtain ⟨n, rfl⟩ : ∃ k, n = k + 1 := ⟨n - 1, by omega⟩
          rw [Supervisor.go, e1]
          rfl
      · have go_succ : ∀ k, g.go A L (k + 1) m = g.go A L k m1 := fun k => by rw [Supervisor.go, e1]; rfl
        rw [← e2] at hh
        rcases sprint_outcome A L g l' m1 hh with a | ⟨i, t', e, m', a1, a2, a3, a4, a5⟩
        · refine .inl fun n => ?_
          cases n with
          | zero => exact ⟨m, by simp [Supervisor.go]⟩
          | succ n =>
            obtain ⟨m', b⟩ := a n
            exact ⟨m', by rw [go_succ, b]; simp⟩
        · refine .inr ⟨i + 1, t', e, m', by simpa using a1, by rw [go_succ]; exact a2, a3, fun n hn => ?_, fun n hn => ?_⟩
          · cases n with
            | zero => exact ⟨m, rfl⟩
            | succ n => rw [go_succ]; exact a4 n (by omega)
          · obtain ⟨n, rfl⟩ : ∃ k, n = k + 1 := ⟨n - 1, by omega⟩
            rw [go_succ]
            exact a5 n (by omega)

/-- **C133.** The whole test of the fast run in single precision, on every maze that has been read, with every robot, supervisor and simulator, all goals but the start
and settings as in C127: the planner panics on a path that is too long, and so does the test; or it finds no path, and the test panics; or the robot is given
targets that are exactly at the poses of the path, in this order, one in each round, and either the test passes, after exactly as many rounds as there are
targets, or it fails in one of these rounds because the supervisor panics or a voltage is not a number of at most 4 V. Nothing else can fail: no
`unreachable!()`, no `unwrap` of a target, and the loop always ends. -/
theorem C133_test {exp : F → F} {L : Platform} {V a j p s w ℓ : ℝ} {W : Nat} {c : Dash} (hU : Circular L.toLib) (hR : Rooted L.toLib)
    (H : Dashes V a j p s w ℓ W c) (hW : Supported W) {ops : HeapOps} (hO : HeapLaws ops Run.QUE_MAX) {text : List Char} {sim : Single.Simulator}
    (ht : Walls.fromStr W text = .ok (.ok sim.walls)) {goals : List Node} (hs : ⟨0, 0, .north⟩ ∉ goals) (g : Single.Supervisor) (robot : Single.Robot) :
    let run n := c.test (arith exp) L g W ops n goals robot sim
    let planned := Run.shortestPath W 65535 ops ⟨0, 0, .north⟩ (fun n => decide (n ∈ goals)) (shut W sim.walls) RunTrial.runCost
    (planned = .error .capacity ∧ ∀ n, run n = .error .capacity) ∨
    (∃ d, planned = .ok (none, d) ∧ ∀ n, run n = .error .unwrapNone) ∨
    ∃ path k d stints l, planned = .ok (some (path, k), d) ∧ c.plan (arith exp) L.toLib path.length 0 (.fin 0) path = .ok stints ∧
      (∀ t ∈ l, Commanded (arith exp) L.toLib t) ∧ Calls l (path.dropLast.map fun x => placeOfNode (arith exp) x c.squareWidth) ∧
      ((∀ n, run n = .ok (if n ≤ l.length then none else some ())) ∨
        ∃ i t e m, l[i]? = some t ∧ g.go (arith exp) L i ⟨robot, sim, stints⟩ = .ok (true, m) ∧ Declined (arith exp) L g m t e ∧
          ∀ n, run n = if n ≤ i then .ok none else .error e) := by
  intro run planned
  have hrun : ∀ n, run n = (do
      let path ← RunTrial.runPath W ops sim.walls goals
      let stints ← c.plan (arith exp) L.toLib path.length 0 (.fin 0) path
      let (on, _) ← g.go (arith exp) L n ⟨robot, sim, stints⟩
      return if on then none else some ()) := fun n => rfl
  rw [runPath_eq hW ht] at hrun
  rcases C31_only_long_paths_panic W 65535 ops hO ⟨0, 0, .north⟩ (fun n => decide (n ∈ goals)) (shut W sim.walls) RunTrial.runCost hW (start_legal hW) (by norm_num) with
    ⟨res, d, hp⟩ | ⟨hp, -⟩
  · cases res with
    | none =>
      refine .inr (.inl ⟨d, hp, fun n => ?_⟩)
      rw [hrun, hp]
      rfl
    | some pk =>
      obtain ⟨path, k⟩ := pk
      obtain ⟨st, l, a1, -, a3, a4, a5⟩ := C127_planned (exp := exp) hU hR H hO hW (start_legal hW) (by norm_num) (by simpa using hs) hp
      refine .inr (.inr ⟨path, k, d, st, l, hp, a1, a4, a5, ?_⟩)
      have hr2 : ∀ n, run n = (do
          let (on, _) ← g.go (arith exp) L n ⟨robot, sim, st⟩
          return if on then none else some ()) := by
        intro n
        rw [hrun, hp]
        simp only [bind, Except.bind, unwrap, pure, Except.pure]
        rw [a1]
      rcases sprint_outcome (arith exp) L g l ⟨robot, sim, st⟩ a3 with hpass | ⟨i, t, e, m, b1, b2, b3, b4, b5⟩
      · left
        intro n
        obtain ⟨m', h1⟩ := hpass n
        rw [hr2, h1]
        by_cases hn : n ≤ l.length <;> simp [bind, Except.bind, pure, Except.pure, hn]
      · right
        refine ⟨i, t, e, m, b1, b2, b3, fun n => ?_⟩
        rw [hr2]
        by_cases hn : n ≤ i
        · obtain ⟨m', h1⟩ := b4 n hn
          rw [h1, if_pos hn]
          rfl
        · rw [b5 n (by omega), if_neg hn]
          rfl
  · refine .inl ⟨hp, fun n => ?_⟩
    rw [hrun, hp]
    rfl

/-- **C133.** While the robot takes itself to be in the maze, off the lines of the outer border and not at a place computed for a pillar, with a speed below
2⁶ m/s, and moderate accelerations and jerks are demanded, the supervisor does not panic: only the voltages can make the test fail. -/
theorem C133_cause {exp : F → F} {L : Platform} {w x y : ℝ} {g : Single.Supervisor} (hL : SoundPlatform L) (hg : Reasonable w g) {m : Sprint} {t : Single.Target} {e : Panic}
    (h : Declined (arith exp) L g m t e) (hs : Stands w x y (supposed (arith exp) L m)) (hi : Asked (wished (arith exp) L m t)) (hp : ¬ OnPillar w x y) :
    e = .assert ∧ ∃ i, g.supervise (arith exp) L (wished (arith exp) L m t) (supposed (arith exp) L m) = .ok i ∧ Mag 60 i.ux ∧ Mag 60 i.uy ∧
      ¬ (Modest (voltages (arith exp) L m t i).left ∧ Modest (voltages (arith exp) L m t i).right) := by
  rcases C122_total (exp := exp) hL hg hs hi with ⟨o, e1, b1, b2, -⟩ | ⟨-, h'⟩
  · rcases h with h | ⟨rfl, i, e2, hn⟩
    · rw [e1] at h; cases h
    · rw [e1] at e2
      cases e2
      exact ⟨rfl, o, e1, b1, b2, hn⟩
  · exact absurd h' hp

/-! ## Cases -/

/-- A run over two squares, in single precision, with the simulator of the test, any robot and any supervisor: as long as it has not failed, the
simulated mouse is no faster than 17 m/s. -/
example (exp : F → F) (walls : Walls.Walls) (robot : Single.Robot) (g : Single.Supervisor) (stints : List (Place × Stint)) (n : Nat) (on : Bool) (m' : Sprint) :
    let z : Single.AxisState := ⟨.fin (45 / 1000), .fin 0, .fin 0⟩
    let s := Single.Simulator.new walls ⟨z, z, z⟩ ⟨z, z, z⟩ (.fin (37 / 10)) (.fin (1 / 1000)) (.fin (1865 / 1000)) (.fin (4443 / 10000))
      (.fin (8239 / 100)) (.fin (2855 / 10000)) (.fin (335 / 10000))
    g.go (arith exp) (platformOf Control.Trig.real 3.14 (2 ^ 32 - 1)) n ⟨robot, s, stints⟩ = .ok (on, m') →
    Upto 17 (transVel (arith exp) (libOf Control.Trig.real 3.14) m'.simulator.current) := by
  intro z s h
  have hr : AtRest s.current := ⟨45 / 1000, 45 / 1000, 45 / 1000, by norm_num [abs_le], by norm_num [abs_le], by norm_num [abs_le], rfl⟩
  have H : SimFit s 0 (37 / 10) (1 / 1000) (1865 / 1000) (4443 / 10000) (8239 / 100) (2855 / 10000) (335 / 10000) :=
    ⟨⟨rfl, by norm_num, by norm_num⟩, ⟨rfl, by norm_num, by norm_num⟩, ⟨rfl, by norm_num [abs_le], by norm_num [abs_of_pos]⟩,
      ⟨rfl, by norm_num, by norm_num⟩, ⟨rfl, by norm_num [abs_le], by norm_num [abs_of_pos]⟩, ⟨rfl, by norm_num, by norm_num⟩,
      ⟨rfl, by norm_num [abs_le]⟩, ⟨le_rfl, by norm_num, by norm_num⟩⟩
  have := (C133_bounded (exp := exp) (L := platformOf Control.Trig.real 3.14 (2 ^ 32 - 1)) (circle_real 3.14) g ⟨robot, s, stints⟩ H hr hr ⟨rfl, rfl⟩ n h).2.2.1
  exact Upto.mono this (by norm_num [abs_of_pos])

/-- A maze of 16 × 16 squares with three open squares ahead of the start and the goal at their end, the settings of the test, any robot, supervisor and simulator: the planner finds
the straight way, and the test passes after as many rounds as there are targets, unless it fails in one of them for one of the two reasons. -/
example (exp : F → F) (text : List Char) (sim : Single.Simulator) (ht : Walls.fromStr 16 text = .ok (.ok sim.walls))
    (hopen : ∀ i < 3, Walls.wallState 16 sim.walls ⟨0, 2 * i + 1⟩ = .ok (.checked false)) (g : Single.Supervisor) (robot : Single.Robot) :
    let L := platformOf Control.Trig.real 3.14 (2 ^ 32 - 1)
    let run n := trialDash.test (arith exp) L g 16 (listHeap Run.QUE_MAX) n [⟨0, 6, .north⟩] robot sim
    ∃ N, 1 ≤ N ∧ ((∀ n, run n = .ok (if n ≤ N then none else some ())) ∨
      ∃ i t e m, i < N ∧ Declined (arith exp) L g m t e ∧ ∀ n, run n = if n ≤ i then .ok none else .error e) := by
  intro L run
  have hW : Supported 16 := ⟨4, by norm_num, rfl⟩
  have H : Dashes 1 10 100 0.001 0.09 0.5 0.2 16 trialDash := { trial_dashes with maze := by norm_num }
  obtain ⟨dr, hp⟩ := C118_straight hW (listHeapLaws Run.QUE_MAX) (isWall := shut 16 sim.walls) (k := 3) (goals := [⟨0, 6, .north⟩]) (by norm_num) (by norm_num)
    (fun i hi => by unfold shut; rw [hopen i hi]; simp) (by simp) (by simp)
  rcases C133_test (exp := exp) (L := L) circular_real (rooted_real _ _) H hW (listHeapLaws Run.QUE_MAX) ht (goals := [⟨0, 6, .north⟩]) (by simp) g robot with
    ⟨h, -⟩ | ⟨d, h, -⟩ | ⟨path, k, d, stints, l, h, -, -, ⟨ts, c1, c2⟩, h'⟩
  · rw [hp] at h; cases h
  · rw [hp] at h; cases h
  · rw [hp] at h
    cases h
    have := c1.length_le
    rw [c2.length_eq] at this
    refine ⟨l.length, by simpa using this, h'.imp id ?_⟩
    rintro ⟨i, t, e, m, a1, -, a3, a4⟩
    exact ⟨i, t, e, m, (List.getElem?_eq_some_iff.1 a1).1, a3, a4⟩

end Verif.Props
