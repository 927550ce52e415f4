import Verif.Spec.SingleRunTest
import Verif.Props.SingleSimRun
import Verif.Props.SingleRun
/-!
# C133: the whole test of the fast run in single precision
-/
namespace Verif.Props
open Verif Verif.Spec Verif.Single Verif.Binary32 Verif.Proof
open Verif.Run (Node EdgeKind HeapOps)

theorem modest_iff (v : F) : v.abs.le (.fin 4) ↔ Modest v := by
  cases v with
  | nan => exact ⟨fun h => h.elim, fun ⟨_, h, _⟩ => by cases h⟩
  | pinf => exact ⟨fun h => h.elim, fun ⟨_, h, _⟩ => by cases h⟩
  | ninf => exact ⟨fun h => h.elim, fun ⟨_, h, _⟩ => by cases h⟩
  | fin r => exact ⟨fun h => ⟨r, rfl, h⟩, fun ⟨_, h, b⟩ => by cases h; exact b⟩

/-- A round, by the target that is due. -/
theorem sprint_turn (A : Arith) (L : Platform) (g : Supervisor) (m : Sprint) :
    (∀ e, upcoming A L.toLib m.stints = .error e → g.turn A L m = .error e) ∧
    (∀ st, upcoming A L.toLib m.stints = .ok (none, st) → ∃ m', g.turn A L m = .ok (false, m') ∧ m'.simulator = m.simulator) ∧
    ∀ t st, upcoming A L.toLib m.stints = .ok (some t, st) → (∃ e, g.turn A L m = .error e ∧ Declined A L g m t e) ∨
      ∃ m', g.turn A L m = .ok (true, m') ∧ m'.stints = st ∧ Granted A L g m t m' := by
  unfold Supervisor.turn
  refine ⟨fun e h => ?_, fun st h => ?_, fun t st h => ?_⟩
  · rw [h]; rfl
  · rw [h]; exact ⟨_, rfl, rfl⟩
  · rw [h]
    simp only [bind, Except.bind, pure, Except.pure]
    cases hi : g.supervise A L (m.robot.navigation.navigate A (m.robot.estimator.estimate A L.toLib m.robot.state (senses A L.toLib m.simulator)).2 t)
        (m.robot.estimator.estimate A L.toLib m.robot.state (senses A L.toLib m.simulator)).2 with
    | error e => exact .inl ⟨e, rfl, .inl hi⟩
    | ok i =>
      dsimp only
      split_ifs with hv
      · exact .inr ⟨_, rfl, rfl, i, hi, (modest_iff _).1 hv.1, (modest_iff _).1 hv.2, rfl, rfl⟩
      · exact .inl ⟨_, rfl, .inr ⟨rfl, i, hi, fun h => hv ⟨(modest_iff _).2 h.1, (modest_iff _).2 h.2⟩⟩⟩

theorem modest_number {v : F} (h : Modest v) : v ≠ .nan := by
  obtain ⟨r, rfl, -⟩ := h
  exact fun h => by cases h

/-- What is done to the simulator. -/
theorem sprint_events (A : Arith) (L : Platform) (g : Supervisor) : ∀ (n : Nat) (m : Sprint) {on : Bool} {m' : Sprint}, g.go A L n m = .ok (on, m') →
    ∃ es : List SimEvent, (∀ e ∈ es, e.Numbers) ∧ m'.simulator = simEvents A L.toLib es m.simulator
  | 0, m, on, m', h => by cases h; exact ⟨[], by simp, rfl⟩
  | n + 1, m, on, m', h => by
    rw [Supervisor.go] at h
    obtain ⟨h1, h2, h3⟩ := sprint_turn A L g m
    rcases hu : upcoming A L.toLib m.stints with e | ⟨_ | t, st⟩
    · rw [h1 e hu] at h; cases h
    · obtain ⟨m1, e1, e2⟩ := h2 st hu
      rw [e1] at h
      cases h
      exact ⟨[], by simp, e2⟩
    · rcases h3 t st hu with ⟨e, e1, -⟩ | ⟨m1, e1, -, i, -, l, r, e2, -⟩
      · rw [e1] at h; cases h
      · rw [e1] at h
        obtain ⟨es, a1, a2⟩ := sprint_events A L g n m1 (h : g.go A L n m1 = .ok (on, m'))
        refine ⟨.apply (voltages A L m t i).left (voltages A L m t i).right :: .step :: es, ?_, ?_⟩
        · intro e he
          rcases List.mem_cons.1 he with rfl | he
          · exact ⟨modest_number l, modest_number r⟩
          rcases List.mem_cons.1 he with rfl | he
          · trivial
          · exact a1 e he
        · rw [a2, e2]; rfl

/-- **C133.** Run the loop of the test in single precision with whatever robot, gains, supervisor and trajectories. As long as the test has not failed,
everything the simulator holds and returns is finite: the assertion keeps voltages that are not numbers away from it. Forward speed and turn rate stay
within 2.4 times and 1.02 times what the largest voltage drives them to, each wheel turns by at most a metre in a period, position and angle stay below
2²⁴. -/
theorem C133_bounded {exp : F → F} {L : Platform} {η M T kt tt kr tr w : ℝ} (hL : CircleTrig L.toLib η) (g : Supervisor) (m : Sprint)
    (H : SimFit m.simulator η M T kt tt kr tr w) (hc : AtRest m.simulator.current) (hl : AtRest m.simulator.last)
    (hv : m.simulator.rightVoltage = .fin 0 ∧ m.simulator.leftVoltage = .fin 0) (n : Nat) {on : Bool} {m' : Sprint}
    (hn : g.go (arith exp) L n m = .ok (on, m')) :
    (Upto M m'.simulator.leftVoltage ∧ Upto M m'.simulator.rightVoltage) ∧
    (Upto (2 ^ 24) m'.simulator.current.x.x ∧ Upto (2 ^ 24) m'.simulator.current.y.x ∧ Upto (2 ^ 24) m'.simulator.current.theta.x) ∧
    Upto (12 / 5 * (|kt| * M) + 1 / 10 ^ 5) (transVel (arith exp) L.toLib m'.simulator.current) ∧
    Upto (51 / 50 * (|kr| * M) + 1 / 10 ^ 5) m'.simulator.angularVelocity ∧
    (Upto 1 (m'.simulator.distance (arith exp) L.toLib).1 ∧ Upto 1 (m'.simulator.distance (arith exp) L.toLib).2) ∧
    Upto (10 ^ 8) (m'.simulator.transAcc (arith exp) L.toLib) := by
  obtain ⟨es, a1, a2⟩ := sprint_events (arith exp) L g n m hn
  rw [a2]
  exact C131_bounded hL m.simulator H hc hl hv es a1

/-! ## How it ends -/

/-- The first target, and the ones after it. -/
theorem hands_cases {A : Arith} {L : Lib} {stints : List (Place × Stint)} {l : List Target} (h : Hands A L stints l) :
    (l = [] ∧ ∃ st, upcoming A L stints = .ok (none, st)) ∨ ∃ t l' st, l = t :: l' ∧ upcoming A L stints = .ok (some t, st) ∧ Hands A L st l' := by
  have h1 := h 1
  rw [dashTargets] at h1
  rcases hu : upcoming A L stints with e | ⟨_ | t, st⟩
  · rw [hu] at h1; cases h1
  · rw [hu] at h1
    have h2 := (Prod.mk.inj (Except.ok.inj h1)).2
    have : l.length < 1 := of_decide_eq_true h2.symm
    exact .inl ⟨List.length_eq_zero_iff.1 (by omega), st, rfl⟩
  · rw [hu] at h1
    have h2 := (Prod.mk.inj (Except.ok.inj h1)).1
    cases l with
    | nil => cases h2
    | cons a l' =>
      obtain rfl : t = a := (List.cons.inj h2).1
      refine .inr ⟨t, l', st, rfl, rfl, fun n => ?_⟩
      have hn := h (n + 1)
      rw [dashTargets, hu] at hn
      simp only [bind, Except.bind] at hn
      cases hd : dashTargets A L n st with
      | error e => rw [hd] at hn; cases hn
      | ok x =>
        rw [hd] at hn
        obtain ⟨ts, b⟩ := x
        obtain ⟨e1, e2⟩ := Prod.mk.inj (Except.ok.inj hn)
        rw [List.take_succ_cons] at e1
        have e3 : ts = l'.take n := (List.cons.inj e1).2
        have e4 : b = decide ((t :: l').length < n + 1) := e2
        rw [e3, e4]
        simp

/-- **C133.** If the trajectories hand out the targets `l`: the loop commands one target of `l` in every round. It fails in the first round in which the
supervisor panics or a voltage is not a number of at most 4 V, with that panic and no other; otherwise it ends after the last target. -/
theorem C133_ends (A : Arith) (L : Platform) (g : Supervisor) : ∀ (n : Nat) (l : List Target) (m : Sprint), Hands A L.toLib m.stints l →
    (∃ k m' t e, k < n ∧ g.go A L k m = .ok (true, m') ∧ l[k]? = some t ∧ Declined A L g m' t e ∧ g.go A L n m = .error e) ∨
    ((∃ m', g.go A L n m = .ok (decide (n ≤ l.length), m')) ∧
      ∀ k < n, ∀ t, l[k]? = some t → ∃ m1 m2, g.go A L k m = .ok (true, m1) ∧ g.go A L (k + 1) m = .ok (true, m2) ∧ Granted A L g m1 t m2)
  | 0, l, m, _ => .inr ⟨⟨m, by simp [Supervisor.go]⟩, fun k hk => absurd hk (by omega)⟩
  | n + 1, l, m, h => by
    obtain ⟨-, h2, h3⟩ := sprint_turn A L g m
    rcases hands_cases h with ⟨rfl, st, hu⟩ | ⟨t, l', st, rfl, hu, hh⟩
    · obtain ⟨m', e1, -⟩ := h2 st hu
      refine .inr ⟨⟨m', ?_⟩, fun k _ t ht => by simp at ht⟩
      rw [Supervisor.go, e1]
      simp only [bind, Except.bind, pure, Except.pure]
      simp
    · rcases h3 t st hu with ⟨e, e1, hd⟩ | ⟨m1, e1, e2, hg⟩
      · refine .inl ⟨0, m, t, e, by omega, rfl, rfl, hd, ?_⟩
        rw [Supervisor.go, e1]
        rfl
      · have go_succ : ∀ k, g.go A L (k + 1) m = g.go A L k m1 := fun k => by rw [Supervisor.go, e1]; rfl
        rw [← e2] at hh
        rcases C133_ends A L g n l' m1 hh with ⟨k, m', t', e, hk, a1, a2, a3, a4⟩ | ⟨⟨m', a1⟩, a2⟩
        · exact .inl ⟨k + 1, m', t', e, by omega, by rw [go_succ]; exact a1, by simpa using a2, a3, by rw [go_succ]; exact a4⟩
        · refine .inr ⟨⟨m', ?_⟩, fun k hk t' ht => ?_⟩
          · rw [go_succ, a1]; simp
          · cases k with
            | zero =>
              obtain rfl : t = t' := by simpa using ht
              exact ⟨m, m1, rfl, by rw [go_succ]; rfl, hg⟩
            | succ k =>
              obtain ⟨b1, b2, c1, c2, c3⟩ := a2 k (by omega) t' (by simpa using ht)
              exact ⟨b1, b2, by rw [go_succ]; exact c1, by rw [go_succ]; exact c2, c3⟩

/-! ## Estimates that are not numbers -/

theorem mapM_two {α β : Type} {f : α → R β} {a b : α} {l : List α} {r : List β} (h : (a :: b :: l).mapM f = .ok r) : ∃ x y r', r = x :: y :: r' := by
  rw [List.mapM_cons, List.mapM_cons] at h
  simp only [bind, Except.bind, pure, Except.pure] at h
  cases ha : f a with
  | error e => rw [ha] at h; cases h
  | ok x =>
    rw [ha] at h
    cases hb : f b with
    | error e => rw [hb] at h; cases h
    | ok y =>
      rw [hb] at h
      cases hl : List.mapM f l with
      | error e => rw [hl] at h; cases h
      | ok r' => rw [hl] at h; cases h; exact ⟨x, y, r', rfl⟩

theorem pillars_two {A : Arith} {L : Platform} {g : Supervisor} {x y : F} {r : List (F × F)} (h : g.nearestPillars A L x y = .ok r) :
    ∃ p q r', r = p :: q :: r' := by
  unfold Supervisor.nearestPillars at h
  simp only [bind, Except.bind, List.cons_append] at h
  repeat' split at h
  all_goals first | cases h | exact mapM_two h

/-- **C133, the supervisor.** Whatever the arithmetic, the supervisor panics when the position or the velocity of the robot is not a number. -/
theorem supervise_numbers {A : Arith} {L : Platform} {g : Supervisor} {i o : Input} {s : State} (h : g.supervise A L i s = .ok o) :
    s.x.x ≠ .nan ∧ s.y.x ≠ .nan ∧ s.x.v ≠ .nan ∧ s.y.v ≠ .nan := by
  by_contra hn
  have hk : ∀ p, (key A i (g.constraint A s p)).isNan := by
    intro p
    have : key A i (g.constraint A s p) = .nan := by
      unfold key Supervisor.constraint
      dsimp only
      by_cases h1 : s.x.x = .nan
      · rw [h1]; simp only [nan_sub, mul_nan, nan_mul, nan_add]
      by_cases h2 : s.y.x = .nan
      · rw [h2]; simp only [nan_sub, mul_nan, nan_mul, nan_add, add_nan]
      by_cases h3 : s.x.v = .nan
      · rw [h3]; simp only [mul_nan, nan_mul, nan_add, add_nan]
      by_cases h4 : s.y.v = .nan
      · rw [h4]; simp only [mul_nan, nan_mul, nan_add, add_nan]
      · exact absurd ⟨h1, h2, h3, h4⟩ hn
    rw [this]
    trivial
  unfold Supervisor.supervise at h
  cases hp : g.nearestPillars A L s.x.x s.y.x with
  | error e => rw [hp] at h; cases h
  | ok r =>
    obtain ⟨p, q, r', rfl⟩ := pillars_two hp
    have : Single.pick A i ((p :: q :: r').map (g.constraint A s)) = .error .unwrapNone := by
      rw [List.map_cons, List.map_cons, Single.pick, List.foldlM_cons, if_pos (.inl (hk p))]
      rfl
    rw [hp] at h
    simp only [bind, Except.bind] at h
    rw [this] at h
    cases h

/-- **C133.** In every round that does not fail, position and velocity that the robot takes itself to have are numbers, and both voltages are numbers of at most
4 V. -/
theorem C133_numbers (A : Arith) (L : Platform) (g : Supervisor) (m : Sprint) {m' : Sprint} (h : g.turn A L m = .ok (true, m')) :
    (m'.robot.state.x.x ≠ .nan ∧ m'.robot.state.y.x ≠ .nan ∧ m'.robot.state.x.v ≠ .nan ∧ m'.robot.state.y.v ≠ .nan) ∧
    ∃ l r : F, Modest l ∧ Modest r ∧ m'.simulator = (m.simulator.apply l r).step A L.toLib := by
  obtain ⟨h1, h2, h3⟩ := sprint_turn A L g m
  rcases hu : upcoming A L.toLib m.stints with e | ⟨_ | t, st⟩
  · rw [h1 e hu] at h; cases h
  · obtain ⟨m1, e1, e2⟩ := h2 st hu
    rw [e1] at h
    cases h
  · rcases h3 t st hu with ⟨e, e1, -⟩ | ⟨m1, e1, -, i, hi, l, r, e2, e3⟩
    · rw [e1] at h; cases h
    · rw [e1] at h
      cases h
      rw [e3]
      exact ⟨supervise_numbers hi, _, _, l, r, e2⟩

end Verif.Props
