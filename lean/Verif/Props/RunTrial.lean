import Verif.Spec.RunTrial
import Verif.Props.Driver
import Verif.Props.Trial
import Verif.Props.Control
/-!
# C117: the whole integration test of the fast run
-/
namespace Verif.Props
open Verif Verif.Control Verif.Detect Verif.Sim Verif.Spec Verif.Trial Verif.Driver Verif.RunTrial Verif.Slalom
open Verif.Run (Node Posture EdgeKind HeapOps)

theorem issues_end {tr : List (Detect.Pose × Traj)} (h : Issues tr []) : ∃ tr', nextTarget .real tr = .ok (none, tr') := by
  have h1 := h 1
  rw [runTargets] at h1
  cases e : nextTarget .real tr with
  | error x => rw [e] at h1; simp [bind, Except.bind] at h1
  | ok p =>
    obtain ⟨o, tr'⟩ := p
    cases o with
    | none => exact ⟨tr', rfl⟩
    | some t => rw [e] at h1; simp [bind, Except.bind, pure, Except.pure, runTargets] at h1

theorem issues_next {tr : List (Detect.Pose × Traj)} {t : Target} {l : List Target} (h : Issues tr (t :: l)) :
    ∃ tr', nextTarget .real tr = .ok (some t, tr') ∧ Issues tr' l := by
  cases e : nextTarget .real tr with
  | error x =>
    have h1 := h 1
    rw [runTargets, e] at h1; simp [bind, Except.bind] at h1
  | ok p =>
    obtain ⟨o, tr'⟩ := p
    cases o with
    | none =>
      have h1 := h 1
      rw [runTargets, e] at h1; simp [bind, Except.bind, pure, Except.pure] at h1
    | some u =>
      have key : ∀ n, u = t ∧ runTargets .real n tr' = .ok (l.take n, decide (l.length < n)) := by
        intro n
        have h1 := h (n + 1)
        rw [runTargets, e] at h1
        simp only [bind, Except.bind, pure, Except.pure] at h1
        cases f : runTargets .real n tr' with
        | error x => rw [f] at h1; simp at h1
        | ok q =>
          rw [f] at h1
          simp at h1
          obtain ⟨⟨a, b⟩, c⟩ := h1
          refine ⟨a, ?_⟩
          rw [← b, ← c]
      exact ⟨tr', by rw [(key 0).1], fun n => (key n).2⟩

/-- One round for a target. -/
theorem run_turn {g : RunGear} (hg : g.T = .real) {m : Runner} {t : Target} {tr : List (Detect.Pose × Traj)} (h : nextTarget .real m.trajectories = .ok (some t, tr)) :
    (∃ m', g.turn m = .ok (true, m') ∧ m'.trajectories = tr ∧ Passed g m t m') ∨ ∃ e, g.turn m = .error e ∧ Refused g m t e := by
  obtain ⟨es, hes⟩ : ∃ es, es = m.estimator.estimate g.T m.state (sensed g.T m.simulator) := ⟨_, rfl⟩
  unfold RunGear.turn Refused Passed
  have e2 : believed g m = es.2 := by rw [hes]; rfl
  rw [hg] at hes ⊢
  simp only [bind, Except.bind, h, ← hes]
  have e3 : g.navigation.navigate es.2 t = demanded g m t := by rw [← e2]; rfl
  rw [e3, ← e2]
  cases hs : g.supervisor.supervise .real (demanded g m t) (believed g m) with
  | error e =>
    right
    exact ⟨e, rfl, .inl rfl⟩
  | ok i =>
    simp only
    cases ht : trackSupervised .real g.pi m.tracker (believed g m) t i with
    | none =>
      right
      refine ⟨_, rfl, .inr ⟨rfl, i, rfl, ?_⟩⟩
      rintro left right ⟨tr', a, b, c, v, hh, -⟩
      rw [hg, ht] at hh
      cases hh
    | some p =>
      obtain ⟨tr', a, b⟩ := p
      simp only
      by_cases hv : |(m.controller.control a b).2.left| ≤ 4 ∧ |(m.controller.control a b).2.right| ≤ 4
      · left
        rw [if_pos hv]
        exact ⟨_, rfl, rfl, i, _, _, rfl, ⟨tr', a, b, _, _, by rw [hg, ht], rfl, rfl, rfl⟩, hv.1, hv.2, rfl, rfl⟩
      · right
        rw [if_neg hv]
        refine ⟨_, rfl, .inr ⟨rfl, i, rfl, ?_⟩⟩
        rintro left right ⟨tr'', a', b', c, v, hh, hc, rfl, rfl⟩
        rw [hg, ht] at hh
        cases hh
        rw [hc] at hv
        by_contra hn
        push Not at hn
        exact hv hn

/-- The loop: it ends after the targets, or a round before fails. -/
theorem run_go {g : RunGear} (hg : g.T = .real) {l : List Target} : ∀ {m : Runner}, Issues m.trajectories l →
    (∀ n, ∃ m', g.go n m = .ok (decide (n ≤ l.length), m')) ∨
    ∃ i t e m', l[i]? = some t ∧ g.go i m = .ok (true, m') ∧ Refused g m' t e ∧ (∀ n ≤ i, ∃ m', g.go n m = .ok (true, m')) ∧ ∀ n, i < n → g.go n m = .error e := by
  induction l with
  | nil =>
    intro m h
    left
    obtain ⟨tr, e⟩ := issues_end h
    intro n
    cases n with
    | zero => exact ⟨m, rfl⟩
    | succ n =>
      refine ⟨⟨(m.estimator.estimate g.T m.state (sensed g.T m.simulator)).2, m.tracker, m.controller, (m.estimator.estimate g.T m.state (sensed g.T m.simulator)).1,
        m.simulator, tr⟩, ?_⟩
      rw [RunGear.go]
      unfold RunGear.turn
      rw [hg]
      simp [bind, Except.bind, e, pure, Except.pure]
  | cons t l ih =>
    intro m h
    obtain ⟨tr, e, hi⟩ := issues_next h
    rcases run_turn hg e with ⟨m', e1, e2, -⟩ | ⟨x, e1, hr⟩
    · have hgo : ∀ n, g.go (n + 1) m = g.go n m' := by
        intro n
        rw [RunGear.go, e1]
        simp [bind, Except.bind]
      rcases ih (m := m') (by rw [e2]; exact hi) with hp | ⟨i, t', e', m'', h1, h2, h3, h4, h5⟩
      · left
        intro n
        cases n with
        | zero => exact ⟨m, by simp [RunGear.go]⟩
        | succ n =>
          obtain ⟨m'', h2⟩ := hp n
          refine ⟨m'', ?_⟩
          rw [hgo, h2]
          simp
      · right
        refine ⟨i + 1, t', e', m'', by simpa using h1, by rw [hgo, h2], h3, ?_, ?_⟩
        · intro n hn
          cases n with
          | zero => exact ⟨m, rfl⟩
          | succ n => rw [hgo]; exact h4 n (by omega)
        · intro n hn
          cases n with
          | zero => omega
          | succ n => rw [hgo]; exact h5 n (by omega)
    · right
      refine ⟨0, t, x, m, rfl, rfl, hr, ?_, ?_⟩
      · intro n hn
        cases n with
        | zero => exact ⟨m, rfl⟩
        | succ n => omega
      · intro n hn
        cases n with
        | zero => omega
        | succ n =>
          rw [RunGear.go, e1]
          rfl

theorem supported_lt {W : Nat} (hW : Supported W) : W < 256 := by
  rcases hW.cases with rfl | rfl | rfl | rfl | rfl | rfl <;> decide

theorem supported_pow {W : Nat} (hW : Supported W) : ∃ k, k ≤ 6 ∧ W = 2 ^ k := by
  obtain ⟨k, h, e⟩ := hW
  exact ⟨k, by omega, e⟩

theorem start_legal {W : Nat} (hW : Supported W) : Legal W ⟨0, 0, .north⟩ := by
  rcases hW.cases with rfl | rfl | rfl | rfl | rfl | rfl <;> decide

theorem new_legal {W : Nat} (hW : Supported W) {n : Node} (h : Legal W n) : Node.new W n.x n.y n.posture = some n :=
  (C25_node_new W n.x n.y (supported_lt hW) n.posture n).2 ⟨rfl, supported_pow hW, h⟩

theorem goals_eq {W : Nat} (hW : Supported W) : ∀ {goals : List Node}, (∀ g ∈ goals, Legal W g) →
    (goals.map fun g => (g.x, g.y, g.posture)).mapM (fun p => unwrap (Node.new W p.1 p.2.1 p.2.2)) = (.ok goals : R (List Node)) := by
  intro goals
  induction goals with
  | nil => intro _; rfl
  | cons g goals ih =>
    intro h
    rw [List.map_cons, List.mapM_cons, ih fun x hx => h x (List.mem_cons_of_mem _ hx)]
    simp only
    rw [new_legal hW (h g List.mem_cons_self)]
    rfl

/-- The path the test drives. -/
theorem runPath_eq {W : Nat} (hW : Supported W) {text : List Char} {maze : Walls.Walls} (ht : Walls.fromStr W text = .ok (.ok maze)) (ops : HeapOps) (goals : List Node) :
    runPath W ops maze goals = (do
      let (found, _) ← Run.shortestPath W 65535 ops ⟨0, 0, .north⟩ (fun n => decide (n ∈ goals)) (shut W maze) runCost
      let (path, _) ← unwrap found
      return path) := by
  unfold runPath
  have e1 : Node.new W 0 0 .north = some ⟨0, 0, .north⟩ := new_legal hW (start_legal hW)
  have e2 : (fun coord => decide (oracle W maze coord ≠ .checked false)) = shut W maze := by
    funext c
    unfold shut
    simp only [ne_eq, oracle_checked]
  have e3 : (fun node => goals.any fun goal => decide (node = goal)) = fun n => decide (n ∈ goals) := by
    funext n
    rw [Bool.eq_iff_iff]
    simp
  rw [e1, asking_eq hW (.parsed ht)]
  simp only [unwrap, bind, Except.bind, e2, e3]

/-- C117: how the whole test of the fast run ends, on every maze, with every goals but the start itself, for every queue that satisfies the laws of a heap:

* the planner panics on a path that is too long, and so does the test, or it finds no path, and the test panics;
* or it finds one, and the robot is given targets that lead from rest at the start to one of the goals. Either the test passes, after exactly as many
  rounds as there are targets, or it fails, in one of these rounds, because the supervisor panics or the voltages are not within 4 V.

Nothing else can fail, and the loop always ends. -/
theorem C117_outcome {W : Nat} (hW : Supported W) {ops : HeapOps} (L : HeapLaws ops Run.QUE_MAX) (pi : ℝ) {text : List Char} {maze : Walls.Walls}
    (ht : Walls.fromStr W text = .ok (.ok maze)) {goals : List Node} (hg : ∀ g ∈ goals, Legal W g) (hs : ⟨0, 0, .north⟩ ∉ goals) :
    let run n := wholeRun .real pi W ops n text (goals.map fun g => (g.x, g.y, g.posture))
    let planned := Run.shortestPath W 65535 ops ⟨0, 0, .north⟩ (fun n => decide (n ∈ goals)) (shut W maze) runCost
    (planned = .error .capacity ∧ ∀ n, run n = .error .capacity) ∨
    (∃ d, planned = .ok (none, d) ∧ ∀ n, run n = .error .unwrapNone) ∨
    ∃ path k d goal trajectories l q v, planned = .ok (some (path, k), d) ∧ goal ∈ goals ∧
      Issues trajectories l ∧ Drive 1 10 0.001 (poseOfNode ⟨0, 0, .north⟩ 0.09) 0 q v l ∧ Near 2.7e-8 q (poseOfNode goal 0.09) ∧
      ((∀ n, run n = .ok (if n ≤ l.length then none else some ())) ∨
        ∃ i t e m, l[i]? = some t ∧ (runGear .real pi).go i (initialRun maze trajectories) = .ok (true, m) ∧ Refused (runGear .real pi) m t e ∧
          ∀ n, run n = if n ≤ i then .ok none else .error e) := by
  intro run planned
  have hrun : ∀ n, run n = (do
      let path ← runPath W ops maze goals
      let trajectories ← runPlan runConfig path.length 0 0 path
      let (on, _) ← (runGear .real pi).go n (initialRun maze trajectories)
      return if on then none else some ()) := by
    intro n
    show wholeRun _ _ _ _ _ _ _ = _
    unfold wholeRun
    rw [goals_eq hW hg, ht]
    rfl
  rw [runPath_eq hW ht] at hrun
  rcases C31_only_long_paths_panic W 65535 ops L ⟨0, 0, .north⟩ (fun n => decide (n ∈ goals)) (shut W maze) runCost hW (start_legal hW) (by norm_num) with
    ⟨res, d, hp⟩ | ⟨hp, -⟩
  · cases res with
    | none =>
      right; left
      refine ⟨d, hp, fun n => ?_⟩
      rw [hrun, hp]
      rfl
    | some pk =>
      obtain ⟨path, k⟩ := pk
      right; right
      obtain ⟨goal, tr, l, q, v, a1, a2, a3, a4, a5, -⟩ := C77_planned test_settings L hW (start_legal hW) (by norm_num) (by simpa using hs) hp
      refine ⟨path, k, d, goal, tr, l, q, v, hp, by simpa using a1, a3, a4, ?_, ?_⟩
      · norm_num at a5 ⊢
        exact a5
      have hr2 : ∀ n, run n = (do
          let (on, _) ← (runGear .real pi).go n (initialRun maze tr)
          return if on then none else some ()) := by
        intro n
        rw [hrun, hp]
        simp only [bind, Except.bind, unwrap, pure, Except.pure]
        have : runPlan runConfig path.length 0 0 path = .ok tr := a2
        rw [this]
      rcases run_go (g := runGear .real pi) rfl (m := initialRun maze tr) a3 with hpass | ⟨i, t, e, m, b1, b2, b3, b4, b5⟩
      · left
        intro n
        obtain ⟨m', h1⟩ := hpass n
        rw [hr2, h1]
        by_cases hn : n ≤ l.length <;> simp [bind, Except.bind, pure, Except.pure, hn]
      · right
        refine ⟨i, t, e, m, b1, b2, b3, fun n => ?_⟩
        rw [hr2]
        by_cases hn : n ≤ i
        · obtain ⟨m', h1⟩ := b4 n hn
          rw [h1, if_pos hn]
          rfl
        · rw [b5 n (by omega), if_neg hn]
          rfl
  · left
    refine ⟨hp, fun n => ?_⟩
    rw [hrun, hp]
    rfl

/-- C117: while the robot takes itself to be between the outer borders of the largest maze, and not right on a pillar, the supervisor does not panic: only the
voltages can make the test fail. -/
theorem C117_cause {pi : ℝ} {m : Runner} {t : Target} {e : Panic} (h : Refused (runGear .real pi) m t e)
    (hx0 : 0 ≤ (believed (runGear .real pi) m).x.x) (hx1 : (believed (runGear .real pi) m).x.x < 64 * 0.09)
    (hy0 : 0 ≤ (believed (runGear .real pi) m).y.x) (hy1 : (believed (runGear .real pi) m).y.x < 64 * 0.09)
    (hp : ∀ i j : Int, ((believed (runGear .real pi) m).x.x, (believed (runGear .real pi) m).y.x) ≠ pillar (runGear .real pi).supervisor i j) :
    e = .assert ∧ ∃ i, (runGear .real pi).supervisor.supervise .real (demanded (runGear .real pi) m t) (believed (runGear .real pi) m) = .ok i ∧
      ∀ left right, Volts (runGear .real pi) m t i left right → 4 < |left| ∨ 4 < |right| := by
  rcases h with h | h
  · exfalso
    obtain ⟨s, hs⟩ : ∃ s, s = believed (runGear .real pi) m := ⟨_, rfl⟩
    rw [← hs] at hx0 hx1 hy0 hy1 hp h
    have cell : ∀ x : ℝ, 0 ≤ x → x < 64 * 0.09 → ∃ i : Nat, i ≤ 124 ∧ i * (0.09 : ℝ) ≤ x ∧ x < (i + 1) * (0.09 : ℝ) := by
      intro x h0 h1
      have hn : 0 ≤ x / 0.09 := by positivity
      have f1 := Nat.floor_le hn
      have f2 := Nat.lt_floor_add_one (x / 0.09)
      rw [le_div_iff₀ (by norm_num)] at f1
      rw [div_lt_iff₀ (by norm_num)] at f2
      refine ⟨⌊x / 0.09⌋₊, ?_, f1, f2⟩
      have : ((⌊x / 0.09⌋₊ : Nat) : ℝ) < 64 := by
        have : ((⌊x / 0.09⌋₊ : Nat) : ℝ) * 0.09 < 64 * 0.09 := lt_of_le_of_lt f1 h1
        exact lt_of_mul_lt_mul_right this (by norm_num)
      have : ⌊x / 0.09⌋₊ < 64 := by exact_mod_cast this
      omega
    obtain ⟨i, i1, i2, i3⟩ := cell _ hx0 hx1
    obtain ⟨j, j1, j2, j3⟩ := cell _ hy0 hy1
    obtain ⟨p, q, hn, hpq⟩ := C50_pillars (runGear .real pi).supervisor 90 (by norm_num) (by norm_num [runGear]) s.x.x s.y.x i j i1 j1 i2 i3 j2 j3
    obtain ⟨o, ho⟩ := C49_total .real (runGear .real pi).supervisor (demanded (runGear .real pi) m t) s _ (by simp) hn (by
      intro a ha
      simp only [List.mem_cons, List.not_mem_nil, or_false] at ha
      rcases ha with rfl | rfl | rfl | rfl | rfl | rfl
      · exact (hp _ _).symm
      · exact (hp _ _).symm
      · exact (hp _ _).symm
      · exact (hp _ _).symm
      · rcases hpq with hpq | hpq | hpq | hpq <;> rw [Prod.mk.injEq] at hpq <;> rw [hpq.1] <;> exact (hp _ _).symm
      · rcases hpq with hpq | hpq | hpq | hpq <;> rw [Prod.mk.injEq] at hpq <;> rw [hpq.2] <;> exact (hp _ _).symm)
    have h' : (runGear .real pi).supervisor.supervise .real (demanded (runGear .real pi) m t) s = .error e := h
    rw [ho] at h'
    cases h'
  · exact h

/-- C117: in mazes of at most eight squares the planner does not panic, and the test panics before the first round exactly when there is no way to a goal that costs
less than 65535. -/
theorem C117_small {W : Nat} (hW : Supported W) (h8 : W ≤ 8) {ops : HeapOps} (L : HeapLaws ops Run.QUE_MAX) (pi : ℝ) {text : List Char} {maze : Walls.Walls}
    (ht : Walls.fromStr W text = .ok (.ok maze)) {goals : List Node} (hg : ∀ g ∈ goals, Legal W g) (hs : ⟨0, 0, .north⟩ ∉ goals) :
    (∃ e, wholeRun .real pi W ops 0 text (goals.map fun g => (g.x, g.y, g.posture)) = .error e) ↔
      ∀ path c, GoalPath W ⟨0, 0, .north⟩ (fun n => decide (n ∈ goals)) (shut W maze) runCost path c → 65535 ≤ c := by
  obtain ⟨res, hp⟩ := C31_small_mazes W 65535 ops L ⟨0, 0, .north⟩ (fun n => decide (n ∈ goals)) (shut W maze) runCost hW h8 (start_legal hW) (by norm_num)
  rw [← (C30_cheapest W 65535 ops L ⟨0, 0, .north⟩ (fun n => decide (n ∈ goals)) (shut W maze) runCost hW (start_legal hW) (by norm_num) res hp).2]
  rcases C117_outcome hW L pi ht hg hs with ⟨h, -⟩ | ⟨d, h, hr⟩ | ⟨path, k, d, goal, tr, l, q, v, h, -, -, -, -, hr⟩
  · rw [hp] at h
    cases h
  · rw [hp] at h
    cases h
    exact iff_of_true ⟨_, hr 0⟩ rfl
  · rw [hp] at h
    cases h
    refine iff_of_false ?_ (by simp)
    rintro ⟨e, he⟩
    rcases hr with hr | ⟨i, t, x, m, -, -, -, hr⟩
    · have := (hr 0).symm.trans he
      cases this
    · have := (hr 0).symm.trans he
      simp at this

/-- C117: the test cannot be used with the start among the goals: it panics in the first round. -/
theorem C117_at_start {W : Nat} (hW : Supported W) {ops : HeapOps} (L : HeapLaws ops Run.QUE_MAX) (pi : ℝ) {text : List Char} {maze : Walls.Walls}
    (ht : Walls.fromStr W text = .ok (.ok maze)) {goals : List Node} (hg : ∀ g ∈ goals, Legal W g)
    (hp : ∃ k d, Run.shortestPath W 65535 ops ⟨0, 0, .north⟩ (fun n => decide (n ∈ goals)) (shut W maze) runCost = .ok (some ([⟨0, 0, .north⟩], k), d)) (n : Nat) :
    wholeRun .real pi W ops (n + 1) text (goals.map fun g => (g.x, g.y, g.posture)) = .error .unreachable := by
  obtain ⟨k, d, hp⟩ := hp
  unfold wholeRun
  rw [goals_eq hW hg, ht]
  simp only [bind, Except.bind]
  rw [runPath_eq hW ht, hp]
  simp only [bind, Except.bind, unwrap, pure, Except.pure]
  rw [show [(⟨0, 0, .north⟩ : Node)].length = 1 from rfl, (C77_at_goal _).1]
  rfl

end Verif.Props
