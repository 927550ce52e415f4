import Verif.Props.SingleRunTestModel
import Verif.Props.SingleRun
import Verif.Props.StraightRun
/-!
# C133: a maze on which the test of the fast run passes
-/
namespace Verif.Props
open Verif Verif.Spec Verif.Single Verif.RunTrial Verif.Trial
open Verif.Run (Node HeapOps)

theorem run_settings : RunOk runConfig := test_settings

/-- On a straight way the robot never takes itself to slide, nor to be out of the maze. -/
theorem straight_close {pi : ℝ} {k : Nat} (hk : 0 < k) (hk1 : k ≤ 31) (hpi : 0 ≤ pi) (maze : Walls.Walls) {top : Nat} (htop : 2900 ≤ top)
    {tr : List (Detect.Pose × Driver.Traj)} (hp : Driver.runPlan runConfig 2 0 0 [⟨0, 0, .north⟩, ⟨0, 2 * k, .north⟩] = .ok tr) :
    (∀ n, ∃ m, (runGear .real pi).go n (initialRun maze tr) = .ok (decide (n ≤ straightRounds k), m)) ∧ ∀ n, StaysClose (runGear .real pi) top (initialRun maze tr) n := by
  have htop' : (2900 : ℝ) ≤ top := by exact_mod_cast htop
  have goes : ∀ n, ∃ m, (runGear .real pi).go n (initialRun maze tr) = .ok (decide (n ≤ straightRounds k), m) := by
    obtain ⟨tr', l, h1, h2, h3, -, m, h4, -⟩ := C119_follows (pi := pi) hk hk1 hpi maze
    rw [hp] at h1
    cases h1
    rcases run_go (g := runGear .real pi) rfl (m := initialRun maze tr) h2 with hpass | ⟨i, t, e, m', b1, b2, b3, b4, b5⟩
    · rw [h3] at hpass
      exact hpass
    · exfalso
      obtain ⟨hl, -⟩ := List.getElem?_eq_some_iff.1 b1
      have := b5 (straightRounds k) (by omega)
      rw [h4] at this
      cases this
  refine ⟨goes, fun n i _ m' hm => ?_⟩
  have hiN : i ≤ straightRounds k := by
    obtain ⟨m1, h1⟩ := goes i
    rw [h1] at hm
    by_contra hn
    rw [decide_eq_false hn] at hm
    cases hm
  obtain ⟨P, N, hf, hN, hr, h3, h4⟩ := run_all hk hk1
  obtain ⟨f, hfj, hpr⟩ := pace_produces hf 0.045 0.045
  have hk' : (k : ℝ) ≤ 31 := by exact_mod_cast hk1
  have hd : (k : ℝ) * 0.09 ≤ 2.8 := by norm_num; linarith
  rw [straight_plan hk hk1] at hp
  cases hp
  have hi : Issues [((⟨0.045, 0.045, Real.pi / 2⟩ : Detect.Pose), Driver.Traj.straight (Straight.straightGenerate runGen 0.001 (k * 0.09) 0 0.5).1)] ((List.range (N + 1)).map f) :=
    issues_shifted fun n => (outputs_shifted _ n _).trans (hpr n)
  set m0 := initialRun maze [((⟨0.045, 0.045, Real.pi / 2⟩ : Detect.Pose), Driver.Traj.straight (Straight.straightGenerate runGen 0.001 (k * 0.09) 0 0.5).1)] with hm0
  have h0 : Ready P N f (Trial.initial maze maze 0) 0 m0 ⟨0.045, 0, 0, 0, 0, 0⟩ := by
    refine ⟨?_, ?_, ?_⟩
    · exact initial_lane maze maze 0
    · rw [Nat.sub_zero, ← List.range_eq_range']
      exact hi
    · have e : P.at 0 = (0, 0, 0) := by
        unfold Pace.at
        rw [if_pos (Nat.zero_le _)]
        simp
      simp [e, Along.off, Pace.off, Off.none]
  obtain ⟨m, s, k1, k2, k3⟩ := ready_all hpi hf hr hd hfj h0 i (by omega)
  rw [k1] at hm
  cases hm
  have he : m'.estimator.estimate .real m'.state (Trial.sensed .real m'.simulator) =
    (⟨0.001, 0.76094276, 100, 0.1, 0, s.speed⟩, ⟨⟨0.045, 0, 0⟩, ⟨s.place, s.speed, (s.v - s.vp) / 0.001⟩, ⟨Real.pi / 2, 0, 0⟩⟩) := k2.lane.estimate
  have hplace : s.place ≤ 2.9 := by
    rcases Nat.lt_or_ge N i with hlt | hle
    · have a := abs_le.1 (k3 (by omega))
      have b := (way_bounds hf le_rfl).2
      norm_num at a b hd ⊢
      linarith
    · obtain ⟨-, a, -⟩ := ready_next hpi hf hr hd hfj hle k2
      have a := abs_le.1 a
      have b := (way_bounds hf hle).2
      norm_num at a b hd ⊢
      linarith
  refine ⟨?_, ?_, ?_⟩
  · show Real.cos (m'.estimator.estimate .real m'.state (Trial.sensed .real m'.simulator)).1.slip ≠ 0
    rw [he, Real.cos_zero]
    exact one_ne_zero
  · show (m'.estimator.estimate .real m'.state (Trial.sensed .real m'.simulator)).2.x.x * 1000 ≤ _
    rw [he]
    norm_num
    linarith
  · show (m'.estimator.estimate .real m'.state (Trial.sensed .real m'.simulator)).2.y.x * 1000 ≤ _
    rw [he]
    norm_num at hplace ⊢
    linarith

/-- **C133.** The test can pass: the whole test with the values of `tests/run.rs`, in floating point numbers without rounding, on every maze of every supported size with a straight way
from the start, for goals at its end and none nearer, and for every queue. It passes after as many rounds as there are targets. -/
theorem C133_passes {pi : ℝ} {W : Nat} (hW : Supported W) {ops : HeapOps} (L : HeapLaws ops Run.QUE_MAX) (hpi : 0 < pi) {text : List Char} {maze : Walls.Walls}
    (ht : Walls.fromStr W text = .ok (.ok maze)) {goals : List Node} {k : Nat} (hk : 0 < k) (hkW : k < W)
    (hopen : ∀ i < k, Walls.wallState W maze ⟨0, 2 * i + 1⟩ = .ok (.checked false)) (hg : ⟨0, 2 * k, .north⟩ ∈ goals) (hfar : ∀ g ∈ goals, 2 * k ≤ g.y)
    {top : Nat} (htop : 2900 ≤ top) (n : Nat) :
    let i := initialRun maze []
    (dashOf runConfig).test exact (platformOf .real pi top) (supervisorOf ⟨100, 0.02, 0.09⟩) W ops n goals (robotOf i.estimator i.state ⟨40, 4⟩ i.tracker i.controller)
      (simulatorOf i.simulator) = .ok (if n ≤ straightRounds k then none else some ()) := by
  intro i
  have hW1 := hW.le
  obtain ⟨dr, hp⟩ := C118_straight hW L (isWall := shut W maze) hk hkW (fun i hi => by unfold shut; rw [hopen i hi]; simp) hg hfar
  obtain ⟨-, -, hpath, -⟩ := C29_path_valid W 65535 ops L ⟨0, 0, .north⟩ _ _ _ hW (start_legal hW) (by norm_num) _ _ _ hp
  obtain ⟨st, tr, e1, e2, hs⟩ := same_plan .real pi run_settings hW (len := 2) _ _ 0 0 hpath (by intro m hm; cases hm; exact start_legal hW) rfl le_rfl run_settings.v.le
    (fun h => absurd h (lt_irrefl 0))
  obtain ⟨goes, close⟩ := straight_close hk (by omega) hpi.le maze htop e2
  obtain ⟨m', hm⟩ := goes n
  have htop' : (2900 : ℝ) ≤ top := by exact_mod_cast htop
  have same := C133_model (g := runGear .real pi) (top := top) hpi (by norm_num [runGear]; linarith) n
    (m := ⟨robotOf i.estimator i.state ⟨40, 4⟩ i.tracker i.controller, simulatorOf i.simulator, st⟩) (m' := initialRun maze tr) ⟨rfl, rfl, hs⟩
    (by constructor <;> norm_num [initialRun, Estimate.Estimator.new, Control.Controller.new, Sim.Simulator.new]) (close n)
  rw [hm] at same
  have hrun : RunTrial.runPath W ops (simulatorOf i.simulator).walls goals = .ok [⟨0, 0, .north⟩, ⟨0, 2 * k, .north⟩] := by
    show RunTrial.runPath W ops maze goals = _
    rw [runPath_eq hW ht, hp]
    rfl
  unfold Dash.test
  rw [hrun]
  simp only [bind, Except.bind, List.length_cons, List.length_nil]
  have e1' : (dashOf runConfig).plan exact (platformOf .real pi top).toLib (0 + 1 + 1) 0 (.fin 0) [⟨0, 0, .north⟩, ⟨0, 2 * k, .north⟩] = .ok st := e1
  rw [e1']
  dsimp only
  have same' : Results (fun x y => x.1 = y.1 ∧ SprintSame (runGear .real pi) x.2 y.2 ∧ Tractable y.2)
    ((supervisorOf ⟨100, 0.02, 0.09⟩).go exact (platformOf .real pi top) n ⟨robotOf i.estimator i.state ⟨40, 4⟩ i.tracker i.controller, simulatorOf i.simulator, st⟩)
    (.ok (decide (n ≤ straightRounds k), m')) := same
  cases hx : (supervisorOf ⟨100, 0.02, 0.09⟩).go exact (platformOf .real pi top) n ⟨robotOf i.estimator i.state ⟨40, 4⟩ i.tracker i.controller, simulatorOf i.simulator, st⟩ with
  | error e => rw [hx] at same'; exact same'.elim
  | ok x =>
    rw [hx] at same'
    obtain ⟨on, a⟩ := x
    obtain ⟨e3, -⟩ := same'
    dsimp only at e3 ⊢
    rw [e3]
    by_cases hn : n ≤ straightRounds k <;> simp [hn, pure, Except.pure]

/-- **C133.** On such a way the simulated robot ends within 4.3 mm of the centre of the goal square, exactly on the middle line and looking ahead. -/
theorem C133_arrives {pi : ℝ} (hpi : 0 < pi) (maze : Walls.Walls) {k : Nat} (hk : 0 < k) (hk1 : k ≤ 31) {top : Nat} (htop : 2900 ≤ top)
    {st : List (Place × Stint)} {tr : List (Detect.Pose × Driver.Traj)} (hp : Driver.runPlan runConfig 2 0 0 [⟨0, 0, .north⟩, ⟨0, 2 * k, .north⟩] = .ok tr)
    (hs : List.Forall₂ SetSame st tr) :
    let i := initialRun maze []
    ∃ m y, (supervisorOf ⟨100, 0.02, 0.09⟩).go exact (platformOf .real pi top) (straightRounds k)
        ⟨robotOf i.estimator i.state ⟨40, 4⟩ i.tracker i.controller, simulatorOf i.simulator, st⟩ = .ok (true, m) ∧
      m.simulator.current.x.x = .fin 0.045 ∧ m.simulator.current.y.x = .fin y ∧ m.simulator.current.theta.x = .fin (Real.pi / 2) ∧ |y - (0.045 + 0.09 * k)| ≤ 0.0043 := by
  intro i
  have htop' : (2900 : ℝ) ≤ top := by exact_mod_cast htop
  obtain ⟨-, close⟩ := straight_close hk hk1 hpi.le maze htop hp
  obtain ⟨tr', l, h1, -, -, -, m', h4, -, h6, h7, h8⟩ := C119_follows (pi := pi) hk hk1 hpi.le maze
  rw [hp] at h1
  cases h1
  have same := C133_model (g := runGear .real pi) (top := top) hpi (by norm_num [runGear]; linarith) (straightRounds k)
    (m := ⟨robotOf i.estimator i.state ⟨40, 4⟩ i.tracker i.controller, simulatorOf i.simulator, st⟩) (m' := initialRun maze tr) ⟨rfl, rfl, hs⟩
    (by constructor <;> norm_num [initialRun, Estimate.Estimator.new, Control.Controller.new, Sim.Simulator.new]) (close _)
  rw [h4] at same
  have same' : Results (fun x y => x.1 = y.1 ∧ SprintSame (runGear .real pi) x.2 y.2 ∧ Tractable y.2)
    ((supervisorOf ⟨100, 0.02, 0.09⟩).go exact (platformOf .real pi top) (straightRounds k)
      ⟨robotOf i.estimator i.state ⟨40, 4⟩ i.tracker i.controller, simulatorOf i.simulator, st⟩) (.ok (true, m')) := same
  cases hx : (supervisorOf ⟨100, 0.02, 0.09⟩).go exact (platformOf .real pi top) (straightRounds k)
      ⟨robotOf i.estimator i.state ⟨40, 4⟩ i.tracker i.controller, simulatorOf i.simulator, st⟩ with
  | error e => rw [hx] at same'; exact same'.elim
  | ok x =>
    rw [hx] at same'
    obtain ⟨on, a⟩ := x
    obtain ⟨e3, s, -⟩ := same'
    dsimp only at e3 s
    subst e3
    refine ⟨a, m'.simulator.current.y.x, rfl, ?_, ?_, ?_, h8⟩
    · rw [s.simulator, ← h6]; rfl
    · rw [s.simulator]; rfl
    · rw [s.simulator, ← h7]; rfl

/-- A maze and goals for which the test in floating point numbers without rounding passes after 406 rounds, with a heap and 32 bits. -/
example : ∃ text maze, Walls.fromStr 16 text = .ok (.ok maze) ∧ ∀ n,
    let i := initialRun maze []
    (dashOf runConfig).test exact (platformOf .real Real.pi (2 ^ 32 - 1)) (supervisorOf ⟨100, 0.02, 0.09⟩) 16 (listHeap Run.QUE_MAX) n [⟨0, 6, .north⟩, ⟨8, 8, .east⟩]
      (robotOf i.estimator i.state ⟨40, 4⟩ i.tracker i.controller) (simulatorOf i.simulator) = .ok (if n ≤ 406 then none else some ()) := by
  obtain ⟨maze, e, f, -⟩ := C09_canonical (W := 16) ⟨4, by omega, rfl⟩ (fun c => decide (c.x = 31 ∨ c.y = 31 ∨ c.x = 1))
  have ho : ∀ i < 3, Walls.wallState 16 maze ⟨0, 2 * i + 1⟩ = .ok (.checked false) := by
    intro i hi
    rw [f _ ⟨by simp, by simp only; omega, by simp only; omega⟩]
    have : 2 * i + 1 ≠ 31 := by omega
    simp [this]
  exact ⟨_, maze, e, C133_passes (W := 16) (k := 3) ⟨4, by omega, rfl⟩ (listHeapLaws Run.QUE_MAX) Real.pi_pos e (by omega) (by omega) ho (by simp) (by simp) (by norm_num)⟩

/-- On a way of three squares: the trajectories that are planned without rounding, and the place at the end. -/
example (maze : Walls.Walls) (st : List (Place × Stint)) (tr : List (Detect.Pose × Driver.Traj))
    (hp : Driver.runPlan runConfig 2 0 0 [⟨0, 0, .north⟩, ⟨0, 6, .north⟩] = .ok tr) (hs : List.Forall₂ SetSame st tr) :
    let i := initialRun maze []
    ∃ m y, (supervisorOf ⟨100, 0.02, 0.09⟩).go exact (platformOf .real Real.pi (2 ^ 32 - 1)) 406
        ⟨robotOf i.estimator i.state ⟨40, 4⟩ i.tracker i.controller, simulatorOf i.simulator, st⟩ = .ok (true, m) ∧ m.simulator.current.y.x = .fin y ∧ |y - 0.315| ≤ 0.0043 := by
  intro i
  obtain ⟨m, y, h1, -, h2, -, h3⟩ := C133_arrives (k := 3) Real.pi_pos maze (by omega) (by omega) (top := 2 ^ 32 - 1) (by norm_num) hp hs
  refine ⟨m, y, h1, h2, ?_⟩
  rw [show (0.315 : ℝ) = 0.045 + 0.09 * (3 : Nat) by norm_num]
  exact h3

end Verif.Props
