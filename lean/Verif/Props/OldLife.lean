import Verif.Proof.OldLife
/-!
# C94: the life of the former robot
-/
namespace Verif.Props
open Verif Verif.Run Verif.Spec Verif.Old Verif.Old.FastRun Verif.Old.Life Verif.Proof Verif.Proof.OldN Verif.Proof.OldR Verif.Proof.OldL Verif.Props.Old

variable {C : Life.Config} {cost : Pattern → Nat} {real : Wall → Bool} {goal0 : Node} {rest : List Node} {b b' : Belief}
  {count : Nat} {s s' : Admin} {cs new : List Command} {r : Result} {e : Moment}

section inv

theorem finished_at {op : Operator} {mode : Mode} (S : LifeSetting C cost real goal0 rest) (h : OpInv C cost real count b op mode cs)
    (hF : Finished op) : LifeDrive C.search.W (posBlocked real) C.search.start cs op.current ∧ EndsAt C op.current mode := by
  cases h with
  | search s rs b0 h h1 h2 h3 =>
    obtain ⟨-, -, h4⟩ := OldS.explores_inv S.search h
    exact ⟨tour_drive h4, (explores_final S h hF).1, trivial⟩
  | setup back k n cs h1 h2 h3 h4 h5 h6 h7 h8 => cases back <;> exact ⟨h7, h3, trivial⟩
  | run back k cur path i n cs h1 h2 h3 h4 h5 h6 h7 h8 h9 h10 h11 h12 =>
    have hF' : path.length ≤ i + 1 := by cases back <;> exact hF
    have hn : n = cur := by
      have hi : i < path.length := (List.getElem?_eq_some_iff.mp h6).1
      rw [List.getLast?_eq_getElem?, show path.length - 1 = i from by omega, h6] at h5
      exact Option.some.inj h5
    subst hn
    cases back <;> exact ⟨h10, h3, h4⟩

/-- The place of a mode in the order. -/
def spot (count : Nat) : Mode → Nat
  | .search _ => 0
  | .returnSetup k => 4 * (count - k) + 1
  | .ret k => 4 * (count - k) + 2
  | .runSetup k => 4 * (count - k) - 1
  | .run k => 4 * (count - k)
  | .idle => 4 * count + 3

/-- The modes after the search. -/
def afterSearch : Nat → List Mode
  | 0 => [.returnSetup 0, .ret 0, .idle]
  | n + 1 => .returnSetup (n + 1) :: .ret (n + 1) :: .runSetup n :: .run n :: afterSearch n

theorem order_eq (count : Nat) : ModeOrder count = .search count :: afterSearch count := by
  unfold ModeOrder
  rw [List.cons_append, List.cons.injEq]
  refine ⟨rfl, ?_⟩
  induction count with
  | zero => rfl
  | succ n ih =>
    rw [List.range_succ, List.reverse_append, afterSearch, ← ih]
    rfl

theorem order_tail : ∀ count : Nat, (afterSearch count)[4 * count + 2]? = some .idle ∧
    (∀ k ≤ count, (afterSearch count)[4 * (count - k)]? = some (.returnSetup k) ∧ (afterSearch count)[4 * (count - k) + 1]? = some (.ret k)) ∧
    ∀ k < count, (afterSearch count)[4 * (count - k) - 2]? = some (.runSetup k) ∧ (afterSearch count)[4 * (count - k) - 1]? = some (.run k) := by
  intro count
  induction count with
  | zero =>
    refine ⟨rfl, fun k hk => ?_, fun k hk => absurd hk (Nat.not_lt_zero _)⟩
    obtain rfl : k = 0 := by omega
    exact ⟨rfl, rfl⟩
  | succ n ih =>
    obtain ⟨h1, h2, h3⟩ := ih
    have get : ∀ i, (afterSearch (n + 1))[i + 4]? = (afterSearch n)[i]? := fun i => rfl
    refine ⟨?_, fun k hk => ?_, fun k hk => ?_⟩
    · rw [show 4 * (n + 1) + 2 = 4 * n + 2 + 4 from by omega, get, h1]
    · by_cases hkn : k = n + 1
      · subst hkn
        rw [Nat.sub_self]
        exact ⟨rfl, rfl⟩
      · rw [show 4 * (n + 1 - k) = 4 * (n - k) + 4 from by omega, show 4 * (n - k) + 4 + 1 = 4 * (n - k) + 1 + 4 from rfl, get, get]
        exact h2 k (by omega)
    · by_cases hkn : k = n
      · subst hkn
        rw [show k + 1 - k = 1 from by omega]
        exact ⟨rfl, rfl⟩
      · rw [show 4 * (n + 1 - k) - 2 = 4 * (n - k) - 2 + 4 from by omega, show 4 * (n + 1 - k) - 1 = 4 * (n - k) - 1 + 4 from by omega, get, get]
        exact h3 k (by omega)

theorem op_mode {op : Operator} {mode : Mode} (h : OpInv C cost real count b op mode cs) :
    (ModeOrder count)[spot count mode]? = some mode ∧ (ModeOrder count)[spot count mode + 1]? = some mode.successor ∧ ModeFits (some op) mode := by
  obtain ⟨h1, h2, h3⟩ := order_tail count
  have get : ∀ i, (ModeOrder count)[i + 1]? = (afterSearch count)[i]? := by intro i; rw [order_eq]; rfl
  cases h with
  | search s rs b0 h _ _ _ =>
    refine ⟨by rw [order_eq]; rfl, ?_, trivial⟩
    have := (h2 count (Nat.le_refl _)).1
    rw [Nat.sub_self] at this
    rw [spot, get]
    exact this
  | setup back k n cs _ hk =>
    cases back with
    | true =>
      obtain ⟨g1, g2⟩ := h2 k hk
      refine ⟨?_, ?_, trivial⟩
      · show (ModeOrder count)[4 * (count - k) + 1]? = _
        rw [get]; exact g1
      · show (ModeOrder count)[4 * (count - k) + 1 + 1]? = _
        rw [get]; exact g2
    | false =>
      have hk : k < count := hk
      obtain ⟨g1, g2⟩ := h3 k hk
      refine ⟨?_, ?_, trivial⟩
      · show (ModeOrder count)[4 * (count - k) - 1]? = _
        rw [show 4 * (count - k) - 1 = 4 * (count - k) - 2 + 1 from by omega, get]; exact g1
      · show (ModeOrder count)[4 * (count - k) - 1 + 1]? = _
        rw [get]; exact g2
  | run back k cur path i n cs _ hk =>
    cases back with
    | true =>
      have hk : k ≤ count := hk
      obtain ⟨g1, g2⟩ := h2 k hk
      refine ⟨?_, ?_, trivial⟩
      · show (ModeOrder count)[4 * (count - k) + 1 + 1]? = _
        rw [get]; exact g2
      · show (ModeOrder count)[4 * (count - k) + 2 + 1]? = _
        rw [get]
        simp only [runMode, Mode.successor]
        split
        · subst k
          exact h1
        · obtain ⟨g3, -⟩ := h3 (k - 1) (by omega)
          rw [show 4 * (count - (k - 1)) - 2 = 4 * (count - k) + 2 from by omega] at g3
          exact g3
    | false =>
      have hk : k < count := hk
      obtain ⟨g1, g2⟩ := h3 k hk
      refine ⟨?_, ?_, trivial⟩
      · show (ModeOrder count)[4 * (count - k)]? = _
        rw [show 4 * (count - k) = 4 * (count - k) - 1 + 1 from by omega, get]; exact g2
      · show (ModeOrder count)[4 * (count - k) + 1]? = _
        rw [get]
        exact (h2 k (by omega)).1

variable (C cost real) in
/-- The state of the administrator. -/
inductive AdminInv (count : Nat) (b : Belief) : Admin → List Command → Prop
  | alive (op : Operator) (mode : Mode) (cs : List Command) : OpInv C cost real count b op mode cs → AdminInv count b ⟨some op, mode, false, true⟩ cs
  | dead (m : Node) (cs : List Command) : TrueBelief C.search.W real b → LifeDrive C.search.W (posBlocked real) C.search.start cs m → EndsAt C m (.ret 0) →
      After C real ((4 * count + 2) * most C.search.W) cs → AdminInv count b ⟨none, .idle, false, false⟩ cs

theorem op_after {op : Operator} (h : OpInv C cost real count b op (.ret 0) cs) : After C real ((4 * count + 2) * most C.search.W) cs := by
  generalize hm : Mode.ret 0 = mode at h
  cases h with
  | search => cases hm
  | setup back => cases back <;> cases hm
  | run back k cur path i n cs h1 h2 h3 h4 h5 h6 h7 h8 h9 h10 h11 h12 =>
    cases back with
    | false => cases hm
    | true =>
      cases hm
      refine h12.mono ?_
      obtain ⟨c, hc⟩ := h7
      have := few_poses h11 (fast_legal hc h8)
      have hi : i < path.length := (List.getElem?_eq_some_iff.mp h6).1
      show (4 * (count - 0) + 1) * most C.search.W + i ≤ _
      rw [show 4 * count + 2 = (4 * (count - 0) + 1) + 1 from by omega, Nat.add_mul (4 * (count - 0) + 1) 1]
      omega

theorem step_cases {op op' : Operator} {a : Agent} {out : Outcome} (hr : op.step C b a = .ok (out, new, op')) (ho : out = .done) :
    a.full = some false ∧ a.empty = some true ∧ op.next C b = .ok (.finish, op') := by
  subst ho
  unfold Operator.step at hr
  cases hf : a.full with
  | none => rw [hf] at hr; cases hr
  | some f =>
    cases f with
    | true => rw [hf] at hr; cases hr
    | false =>
      rw [hf] at hr
      cases hn : op.next C b with
      | error e => simp only [hn, bind, Except.bind] at hr; cases hr
      | ok ro =>
        obtain ⟨r, op1⟩ := ro
        cases r with
        | other => simp only [hn, bind, Except.bind, pure, Except.pure] at hr; cases hr
        | command c =>
          simp only [hn, bind, Except.bind, pure, Except.pure] at hr
          split at hr <;> cases hr
        | waiting => simp only [hn, bind, Except.bind, pure, Except.pure] at hr; cases hr
        | finish =>
          simp only [hn, bind, Except.bind, pure, Except.pure] at hr
          split at hr
          · rename_i he
            cases hr
            exact ⟨rfl, he, rfl⟩
          · cases hr

theorem step_error {op : Operator} {a : Agent} {p : Panic} (hr : op.step C b a = .error p) : op.next C b = .error p := by
  unfold Operator.step at hr
  cases hf : a.full with
  | none => rw [hf] at hr; cases hr
  | some f =>
    cases f with
    | true => rw [hf] at hr; cases hr
    | false =>
      rw [hf] at hr
      cases hn : op.next C b with
      | error e => simp only [hn, bind, Except.bind] at hr; cases hr; rfl
      | ok ro =>
        obtain ⟨r, op1⟩ := ro
        cases r <;> simp only [hn, bind, Except.bind, pure, Except.pure] at hr <;> cases hr

theorem next_error (S : LifeSetting C cost real goal0 rest) {op : Operator} {mode : Mode} {p : Panic} (h : OpInv C cost real count b op mode cs)
    (hr : op.next C b = .error p) : ∃ c, op = .search c ∧ Old.Search.nextCommand C.search b c = .error p := by
  cases h with
  | search s rs b0 h h1 h2 h3 =>
    refine ⟨s, rfl, ?_⟩
    simp only [Operator.next] at hr
    cases hn : Old.Search.nextCommand C.search b s with
    | error e => rw [hn] at hr; cases hr; rfl
    | ok x => rw [hn] at hr; cases hr
  | setup back => rw [setup_next] at hr; cases hr
  | run back k cur path i n cs h1 h2 h3 h4 h5 h6 h7 h8 h9 h10 h11 h12 =>
    rw [run_next] at hr
    obtain ⟨c, hc⟩ := h7
    by_cases hi : i + 1 < path.length
    · have := S.search.width.le
      obtain ⟨n', m, kd, t, e1, e2, e3, e4, e5⟩ := next_eq (cur := cur) (by omega) hc h8 hi
      rw [e5] at hr
      cases hr
    · rw [next_finish (by omega)] at hr
      cases hr

theorem finish_search {op : Operator} {mode : Mode} {c : Old.Search.Commander} (h : OpInv C cost real count b op mode cs)
    (hr : op.next C b = .ok (.finish, .search c)) : op = .search c ∧ c.phase = .final := by
  cases h with
  | search s rs b0 h h1 h2 h3 =>
    cases hn : Old.Search.nextCommand C.search b s with
    | error e => simp only [Operator.next, hn, bind, Except.bind] at hr; cases hr
    | ok rs' =>
      obtain ⟨r', s'⟩ := rs'
      simp only [Operator.next, hn, bind, Except.bind, pure, Except.pure, Except.ok.injEq, Prod.mk.injEq, Operator.search.injEq] at hr
      obtain ⟨hr, rfl⟩ := hr
      obtain ⟨g1, g2⟩ := search_step h3 hn
      obtain ⟨g3, rfl⟩ := g2 (by cases r' <;> first | rfl | cases hr)
      exact ⟨rfl, g3⟩
  | setup back => rw [setup_next] at hr; cases back <;> cases hr
  | run back k cur path i n cs =>
    rw [run_next] at hr
    cases hn : RunCommander.nextCommand ⟨cur, path, i⟩ with
    | error e => rw [hn] at hr; cases hr
    | ok x => rw [hn] at hr; cases back <;> simp [Except.map, runOp] at hr

/-- One call of `run`. -/
theorem admin_step (S : LifeSetting C cost real goal0 rest) (h : AdminInv C cost real count b s cs) (hL : Learns b e.belief)
    (hT' : TrueBelief C.search.W real e.belief) (ha : e.agent.accepts = true) (ha' : e.newAgent.accepts = true) :
    (∀ r new s', Admin.run C e s = .ok (r, new, s') → AdminInv C cost real count e.belief s' (cs ++ new) ∧
      ((r = .ok ∧ s'.operator ≠ none ∧ s'.mode = s.mode) ∨
       (s'.mode = s.mode.successor ∧ (∃ m, LifeDrive C.search.W (posBlocked real) C.search.start cs m ∧ EndsAt C m s.mode) ∧
        e.agent.full = some false ∧ e.agent.empty = some true ∧
        ((r = .ok ∧ s'.operator ≠ none ∧ s.mode ≠ .ret 0 ∧ ∃ c, new = [c]) ∨ (r = .unsupported ∧ s'.operator = none ∧ s.mode = .ret 0 ∧ new = []))))) ∧
    (∀ p, Admin.run C e s = .error p → (s.operator = none ∧ p = .unreachable) ∨ (p = .capacity ∧ 8 < C.search.W) ∨
      (∃ c rs b0, s.operator = some (.search c) ∧ Explores C.search real b0 c rs ∧ Learns b0 b ∧ Old.Search.nextCommand C.search e.belief c = .error p) ∨
      (p = .unreachable ∧ ∃ c, s.operator = some (.search c) ∧ c.phase = .final ∧ cellOf c.current = cellOf C.search.start)) := by
  cases h with
  | dead m cs h1 h2 h3 h4 =>
    constructor
    · intro r new s' hr
      cases hr
    · intro p hp
      cases hp
      exact Or.inl ⟨rfl, rfl⟩
  | alive op mode cs h =>
    have h0 := h
    have h := h.learn hT' hL
    have hrun : Admin.run C e ⟨some op, mode, false, true⟩ = (do
      match ← op.step C e.belief e.agent with
      | (.incompleted, cs, op) => return (.ok, cs, ⟨some op, mode, false, true⟩)
      | (.failed, cs, op) => return (.operatorError, cs, ⟨some op, mode, false, true⟩)
      | (.done, cs, op) =>
        let (ok, cs', s) ← Admin.exchangeOperator C e.belief e.newAgent ⟨some op, mode.successor, false, false⟩ mode.successor
        return if ok then (.ok, cs ++ cs', { s with interrupts := true }) else (.unsupported, cs ++ cs', s)) := rfl
    rw [hrun]
    cases hs : op.step C e.belief e.agent with
    | error p =>
      simp only [bind, Except.bind]
      refine ⟨fun r new s' hr => (by cases hr), fun p' hp => ?_⟩
      cases hp
      obtain ⟨c, ho, hc⟩ := next_error S h (step_error hs)
      cases h0 with
      | search c' rs b0 hE hE1 _ _ => cases ho; exact Or.inr (Or.inr (Or.inl ⟨c, rs, b0, rfl, hE, hE1, hc⟩))
      | setup back => cases back <;> cases ho
      | run back => cases back <;> cases ho
    | ok x =>
      obtain ⟨out, new1, op1⟩ := x
      obtain ⟨g1, g2, g3⟩ := op_step S h ha hs
      cases out with
      | failed => exact absurd rfl g1
      | incompleted =>
        simp only [bind, Except.bind, pure, Except.pure]
        refine ⟨fun r new s' hr => ?_, fun p' hp => by cases hp⟩
        cases hr
        exact ⟨.alive _ _ _ g2, Or.inl ⟨rfl, by simp, rfl⟩⟩
      | done =>
        obtain ⟨rfl, hF⟩ := g3 rfl
        rw [List.append_nil] at g2
        obtain ⟨d1, d2⟩ := finished_at S g2 hF
        have hfe := step_cases hs rfl
        obtain ⟨x1, x2, x3, x4⟩ := op_exchange S g2 hF ha'
        simp only [bind, Except.bind, pure, Except.pure, Admin.exchangeOperator]
        cases hx : exchange C e.belief e.newAgent op1 mode.successor with
        | error p =>
          simp only
          refine ⟨fun r new s' hr => (by cases hr), fun p' hp => ?_⟩
          cases hp
          rcases x4 _ hx with hc | ⟨hp, c, rfl, hc⟩
          · exact Or.inr (Or.inl hc)
          · obtain ⟨rfl, hf⟩ := finish_search h hfe.2.2
            exact Or.inr (Or.inr (Or.inr ⟨hp, c, rfl, hf, hc⟩))
        | ok o =>
          cases o with
          | none =>
            obtain rfl := x2 hx
            simp only
            refine ⟨fun r new s' hr => ?_, fun p' hp => by cases hp⟩
            cases hr
            refine ⟨?_, Or.inr ⟨rfl, ⟨_, d1, d2⟩, hfe.1, hfe.2.1, Or.inr ⟨by simp, by simp, by simp, by simp⟩⟩⟩
            simp only [List.append_nil]
            exact .dead _ _ hT' d1 d2 (op_after g2)
          | some co =>
            obtain ⟨c, op2⟩ := co
            simp only
            refine ⟨fun r new s' hr => ?_, fun p' hp => by cases hp⟩
            cases hr
            refine ⟨.alive _ _ _ (x1 c op2 hx), Or.inr ⟨rfl, ⟨_, d1, d2⟩, hfe.1, hfe.2.1, Or.inl ⟨by simp, by simp, ?_, ⟨c, rfl⟩⟩⟩⟩
            intro hm
            rw [x3 hm] at hx
            cases hx

theorem lives_inv (S : LifeSetting C cost real goal0 rest) (h : Lives C real count b s cs) : AdminInv C cost real count b s cs := by
  induction h with
  | start b a c op hT ho ha hr =>
    obtain ⟨m, h1, -⟩ := OldS.init_step S.search.width S.search.start ho
    have hn : Old.Search.nextCommand C.search b (.new C.search.start) = .ok (.command C.search.start .init, ⟨m, .solving, []⟩) := by
      simp only [Old.Search.nextCommand, Old.Search.Commander.new, h1, bind, Except.bind, pure, Except.pure]
    have hE := Explores.call b b _ _ _ _ (Explores.start b hT ho) (fun _ h => h) hT hn
    simp only [construct, Operator.new, Operator.next, hn, searchAnswer, ha, if_true, bind, Except.bind, pure, Except.pure, Except.ok.injEq,
      Option.some.injEq, Prod.mk.injEq] at hr
    obtain ⟨rfl, rfl⟩ := hr
    exact .alive _ _ _ (OpInv.search _ _ b hE (fun _ h => h) hT (by simp))
  | call b e s s' r cs new _ hL hT' ha ha' hr ih => exact ((admin_step S ih hL hT' ha ha').1 r new s' hr).1

end inv

/-! ## The theorems -/

/-- **C94, one drive**: all commands of the whole life, of the search, the rotations, the returns and the fast runs, lead one after the other
from the start through openings of the maze: each begins at the pose where the one before it ends. -/
theorem C94_drive (S : LifeSetting C cost real goal0 rest) (h : Lives C real count b s cs) :
    ∃ m, LifeDrive C.search.W (posBlocked real) C.search.start cs m := by
  cases lives_inv S h with
  | alive op mode cs h => exact (h.drive S).2
  | dead m cs _ h => exact ⟨m, h⟩

/-- **C94, modes**: the mode is at some place of `ModeOrder` and the operator is the one of the mode. A call leaves the mode as it is, or goes
to the next one; it does so only when the agent has no command left, and the mouse is then in a cell: at the start after a return, and at the goal
after a fast run. -/
theorem C94_modes (S : LifeSetting C cost real goal0 rest) (h : Lives C real count b s cs) (hL : Learns b e.belief)
    (hT' : TrueBelief C.search.W real e.belief) (ha : e.agent.accepts = true) (ha' : e.newAgent.accepts = true)
    (hr : Admin.run C e s = .ok (r, new, s')) :
    ModeFits s.operator s.mode ∧ ModeFits s'.operator s'.mode ∧ s'.select = false ∧ s'.interrupts = s'.operator.isSome ∧
    ∃ i, (ModeOrder count)[i]? = some s.mode ∧ (s'.mode = s.mode ∨ (ModeOrder count)[i + 1]? = some s'.mode ∧
      e.agent.full = some false ∧ e.agent.empty = some true ∧
      ∃ m, LifeDrive C.search.W (posBlocked real) C.search.start cs m ∧ EndsAt C m s.mode) := by
  have hI := lives_inv S h
  obtain ⟨h1, h2⟩ := (admin_step S hI hL hT' ha ha').1 r new s' hr
  have fits : ∀ {b s cs}, AdminInv C cost real count b s cs → ModeFits s.operator s.mode ∧ s.select = false ∧ s.interrupts = s.operator.isSome := by
    rintro b s cs h
    cases h with
    | alive op mode cs h => exact ⟨(op_mode h).2.2, rfl, rfl⟩
    | dead => exact ⟨trivial, rfl, rfl⟩
  refine ⟨(fits hI).1, (fits h1).1, (fits h1).2.1, (fits h1).2.2, ?_⟩
  cases hI with
  | dead => cases hr
  | alive op mode cs h =>
    obtain ⟨m1, m2, -⟩ := op_mode h
    refine ⟨_, m1, ?_⟩
    rcases h2 with ⟨-, -, h2⟩ | ⟨h2, h3, h4, h5, -⟩
    · exact Or.inl h2
    · exact Or.inr ⟨by rw [h2]; exact m2, h4, h5, h3⟩

/-- **C94, end**: a call never reports an error of the operator. It reports an unsupported mode exactly at the end of the last return; then the
operator is lost and the interrupts stay off, and the next call panics. -/
theorem C94_end (S : LifeSetting C cost real goal0 rest) (h : Lives C real count b s cs) (hL : Learns b e.belief)
    (hT' : TrueBelief C.search.W real e.belief) (ha : e.agent.accepts = true) (ha' : e.newAgent.accepts = true)
    (hr : Admin.run C e s = .ok (r, new, s')) :
    r ≠ .operatorError ∧ (r = .unsupported ↔ s'.operator = none) ∧
    (s'.operator = none → s.mode = .ret 0 ∧ s'.mode = .idle ∧ s'.interrupts = false ∧ ∀ e', Admin.run C e' s' = .error .unreachable) := by
  have hI := lives_inv S h
  obtain ⟨h1, h2⟩ := (admin_step S hI hL hT' ha ha').1 r new s' hr
  have dead : s'.operator = none → s'.mode = .idle ∧ s'.interrupts = false ∧ ∀ e', Admin.run C e' s' = .error .unreachable := by
    intro hn
    cases h1 with
    | alive => cases hn
    | dead => exact ⟨rfl, rfl, fun _ => rfl⟩
  rcases h2 with ⟨rfl, h2, -⟩ | ⟨-, -, -, -, ⟨rfl, h2, -⟩ | ⟨rfl, h2, h3, -⟩⟩
  · exact ⟨by simp, ⟨fun h => (by cases h), fun h => absurd h h2⟩, fun h => absurd h h2⟩
  · exact ⟨by simp, ⟨fun h => (by cases h), fun h => absurd h h2⟩, fun h => absurd h h2⟩
  · exact ⟨by simp, ⟨fun _ => h2, fun _ => rfl⟩, fun h => ⟨h3, dead h⟩⟩

/-- **C94, no panic**: as long as there is an operator, a call panics only if a vector is full, in mazes of more than 8 x 8 cells; if the search has
lost its way, which `Revisits` describes; or if the search has ended in the start cell. -/
theorem C94_no_panic (S : LifeSetting C cost real goal0 rest) (h : Lives C real count b s cs) (hL : Learns b e.belief)
    (hT' : TrueBelief C.search.W real e.belief) (ha : e.agent.accepts = true) (ha' : e.newAgent.accepts = true) (ho : s.operator ≠ none)
    {p : Panic} (hp : Admin.run C e s = .error p) :
    (p = .capacity ∧ 8 < C.search.W) ∨
    (∃ c, s.operator = some (.search c) ∧ ∃ b0, TrueBelief C.search.W real b0 ∧ Learns b0 b ∧ Revisits C.search b0 (aheadCell c.current)) ∨
    (p = .unreachable ∧ ∃ c, s.operator = some (.search c) ∧ c.phase = .final ∧ cellOf c.current = cellOf C.search.start) := by
  rcases (admin_step S (lives_inv S h) hL hT' ha ha').2 p hp with ⟨h1, -⟩ | h1 | ⟨c, rs, b0, h1, h2, h3, h4⟩ | h1
  · exact absurd h1 ho
  · exact Or.inl h1
  · obtain ⟨q, w, q1, ⟨g, q2, q3⟩, q4, -⟩ := S.way
    obtain ⟨w', q5, -⟩ := charged_fast q4
    have hreach : ∀ g ∈ goal0 :: rest, Connected C.search.W (posBlocked real) (cellOf C.search.start) (cellOf g) := by
      intro g' hg'
      have := path_connected q5 q1 S.search.start.1 q3
      rw [ahead_cell S.search.start, ahead_cell (S.search.goalCells g q2)] at this
      obtain ⟨-, e1, e2⟩ := (goal_cell S g).mp q2
      obtain ⟨-, e3, e4⟩ := (goal_cell S g').mp hg'
      unfold cellOf at this ⊢
      rw [e3, e4, ← e1, ← e2]
      exact this
    rcases C88_no_panic S.search S.afford hreach h2 (OldS.learns_trans h3 hL) hT' h4 with h | ⟨b1, g1, g2, g3⟩
    · exact Or.inl h
    · exact Or.inr (Or.inl ⟨c, h1, b1, g1, OldS.learns_trans g2 h3, g3⟩)
  · exact Or.inr (Or.inr h1)

/-- **C94, home**: if the search has ended in the start cell, the construction of the operator of the return panics. -/
theorem C94_home (S : LifeSetting C cost real goal0 rest) (h : Lives C real count b s cs) (hL : Learns b e.belief)
    (hT' : TrueBelief C.search.W real e.belief) (hf : e.agent.full = some false) (he : e.agent.empty = some true) {c : Old.Search.Commander}
    (hs : s.operator = some (.search c)) (hc : c.phase = .final) (hh : cellOf c.current = cellOf C.search.start) :
    ∃ p, Admin.run C e s = .error p := by
  cases lives_inv S h with
  | dead => cases hs
  | alive op mode cs h =>
    cases hs
    have hk := h.learn hT' hL
    generalize ho : Operator.search c = op at h hk
    cases hk with
    | setup back => cases back <;> cases ho
    | run back => cases back <;> cases ho
    | search c' rs b0 h1 h2 h3 h4 =>
      cases ho
      obtain ⟨f1, f2, f3⟩ := explores_final S h1 hc
      obtain ⟨hT0, -, f4⟩ := OldS.explores_inv S.search h1
      obtain ⟨L⟩ := S.search.heap
      obtain ⟨hp, hx, hy⟩ := dest_place S true
      obtain ⟨r1, -⟩ := C93_reach (b := e.belief) S.search.width L S.search.costs S.search.fit S.bear (C93_setting hT' S.search.closed).1 f1 hp hx hy
      have hn : Old.Search.nextCommand C.search e.belief c = .ok (.finish, c) := by
        unfold Old.Search.nextCommand
        rw [hc]
        rfl
      have hexc : exchange C e.belief e.newAgent (.search c) (.returnSetup count) = setupNew C true e.belief e.newAgent c.current := by
        unfold exchange
        rw [show Operator.current (.search c) = c.current from rfl, legal_ofNode f1.1]
        rfl
      cases hv : SetupCommander.new (solveTo C e.belief true) c.current with
      | ok s =>
        refine absurd ?_ (r1 s hv).1
        rw [start_cell S] at hh
        unfold cellOf at hh
        obtain ⟨e1, e2⟩ := Prod.mk.inj hh
        exact Prod.ext (by simpa [dest] using e1) (by simpa [dest] using e2)
      | error p =>
        refine ⟨p, ?_⟩
        have : setupNew C true e.belief e.newAgent c.current = .error p := by
          unfold setupNew
          rw [hv]
          rfl
        simp [Admin.run, Operator.step, Operator.next, hf, he, hn, searchAnswer, Mode.successor, Admin.exchangeOperator, hexc, this, bind, Except.bind,
          pure, Except.pure]

/-- **C94, length**: the commands of the search come first, and after a search that has ended there are at most as many others as the
`4 * count + 2` operators after it can give, each at most one for every pose of the maze. -/
theorem C94_length (S : LifeSetting C cost real goal0 rest) (h : Lives C real count b s cs) :
    ∃ ss l, cs = ss.map (fun e => .search e.1 e.2) ++ l ∧ (∀ n k, Command.search n k ∉ l) ∧ InOrder C.search.start ss ∧
      l.length ≤ (4 * count + 2) * (2 * C.search.W * (2 * C.search.W) * 8) ∧
      (Balanced cost → ss.length ≤ (2 * (C.search.W * C.search.W) + 1) * (8 * (C.search.W * C.search.W) + 1) + 1) := by
  have fin : ∀ {cs}, After C real ((4 * count + 2) * most C.search.W) cs → ∃ ss l, cs = ss.map (fun e => .search e.1 e.2) ++ l ∧
      (∀ n k, Command.search n k ∉ l) ∧ InOrder C.search.start ss ∧ l.length ≤ (4 * count + 2) * (2 * C.search.W * (2 * C.search.W) * 8) ∧
      (Balanced cost → ss.length ≤ (2 * (C.search.W * C.search.W) + 1) * (8 * (C.search.W * C.search.W) + 1) + 1) := by
    rintro cs ⟨b0, s0, rs, l, h1, -, h3, h4, h5⟩
    exact ⟨commandsOf rs, l, h3, h5, (C88_tour S.search h1).2, h4, fun hB => C88_bounded S.search hB h1⟩
  cases lives_inv S h with
  | dead m cs _ _ _ h => exact fin h
  | alive op mode cs h =>
    cases h with
    | search s rs b0 hE h1 h2 h3 =>
      exact ⟨commandsOf rs, [], by simp, by simp, (C88_tour S.search hE).2, by simp, fun hB => C88_bounded S.search hB hE⟩
    | setup back k n cs h1 h2 h3 h4 h5 h6 h7 h8 =>
      refine fin (h8.mono (Nat.mul_le_mul_right _ ?_))
      cases back with
      | true => show 4 * (count - k) + 1 ≤ _; omega
      | false => show 4 * (count - k) - 1 ≤ _; omega
    | run back k cur path i n cs h1 h2 h3 h4 h5 h6 h7 h8 h9 h10 h11 h12 =>
      refine fin (h12.mono ?_)
      obtain ⟨c, hc⟩ := h7
      have := few_poses h11 (fast_legal hc h8)
      have hi : i < path.length := (List.getElem?_eq_some_iff.mp h6).1
      have hrk : rank count back k + 1 ≤ 4 * count + 2 := by
        cases back with
        | true => show 4 * (count - k) + 1 + 1 ≤ _; omega
        | false => show 4 * (count - k) - 1 + 1 ≤ _; omega
      have := Nat.mul_le_mul_right (most C.search.W) hrk
      rw [Nat.add_mul] at this
      omega

/-- **C94, setting**: the way of `LifeSetting` exists if the goal is connected with the start, and the start cell has no opening but the one ahead. -/
theorem C94_way (hS : Setting C.search cost real goal0 rest) (hA : Affordable C.search cost) (hB : Bearable C.search.W cost C.search.MAX)
    (hg : goalsOf C.search.W C.gx C.gy = .ok C.search.goals) (hp : Place C.search.W C.gx C.gy) (hc : C.gx % 2 = 0 ∧ C.gy % 2 = 0)
    (hh : C.search.start.x = C.rx ∧ C.search.start.y = C.ry) (hne : (C.gx, C.gy) ≠ (C.rx, C.ry))
    (hexit : ∀ c D, Between (cellOf C.search.start) c D → Valid C.search.W c → posBlocked real c = false →
      (c.x : Int) = C.search.start.x + (heading C.search.start.posture).1 ∧ (c.y : Int) = C.search.start.y + (heading C.search.start.posture).2)
    (hcon : Connected C.search.W (posBlocked real) (cellOf C.search.start) ((C.gx : Int), (C.gy : Int))) : LifeSetting C cost real goal0 rest := by
  refine ⟨hS, hA, hB, hg, hp, hc, hh, hne, ?_⟩
  obtain ⟨M, hM1, hM2⟩ := hB
  have hst := hS.start
  have hev : OldR.Even (cellOf C.search.start) := ⟨by show (C.search.start.x : Int) % 2 = 0; have := hst.2; omega, by show (C.search.start.y : Int) % 2 = 0; have := hst.2; omega⟩
  obtain ⟨e, he, ho, k, hk, path, hd, c, p1, p2, p3, p4, p5⟩ :=
    connected_goes hS.closed (enough (g := ⟨C.gx, C.gy, .north⟩) hM1 hp.1 hp.2.1) hev
      (by obtain ⟨⟨q1, q2, -⟩, -⟩ := hst; unfold InRange cellOf; simp only; omega)
      (by
        intro he
        apply hne
        unfold cellOf at he
        obtain ⟨e1, e2⟩ := Prod.mk.inj he
        rw [hh.1] at e1
        rw [hh.2] at e2
        exact Prod.ext (by simpa using e1.symm) (by simpa using e2.symm)) hcon
  -- the pose is the start
  have hpose : pose (cellOf C.search.start) e = C.search.start := by
    obtain ⟨c, c1, c2, c3, c4⟩ := ho
    have hex := hexit c (next (cellOf C.search.start) e) ⟨hev.1, hev.2, e, he, c1, c2, rfl⟩ c3 c4
    obtain ⟨⟨-, -, hp'⟩, h1, h2⟩ := hst
    have hpo : C.search.start.posture ∈ [Posture.north, .east, .south, .west] := by
      rcases hp' with ⟨_, _, hp⟩ | ⟨h, _⟩
      · simpa using hp
      · omega
    simp only [add, cellOf] at c1 c2
    generalize C.search.start = st at *
    obtain ⟨x, y, q⟩ := st
    have key : ∀ q ∈ [Posture.north, .east, .south, .west], facing (heading q) = q := by decide
    have hee : e = heading q := by ext <;> simp only at * <;> omega
    subst hee
    simp only [pose, cellOf, key q hpo]
    simp
  have h0 : goal0 ∈ goal0 :: rest := List.mem_cons_self ..
  obtain ⟨g0, r0, k1, k2⟩ := place_goals hp
  rw [hg, hS.goals] at k1
  cases k1
  have hg0 := (k2 _).mp h0
  refine ⟨path, c, by rw [p1, hpose], ⟨pose ((C.gx : Int), (C.gy : Int)) hd, ?_, p2⟩, charged_place hg0.2.1.symm hg0.2.2.symm p4, ?_⟩
  · exact (k2 _).mpr ⟨charged_legal p4 (by rw [p1, hpose]) hst.1 p2, by simp [pose], by simp [pose]⟩
  · have hs : cost (.straight (cellsApart C.search.start goal0)) ≤ M := by
      have := enough (g := goal0) hM1 hg0.1.1 hg0.1.2.1 (.straight 1) (by decide) C.search.start hst.1.1 hst.1.2.1
      omega
    have : (k + 1) * M ≤ C.search.W * C.search.W * M := Nat.mul_le_mul_right _ hk
    rw [Nat.add_mul] at this
    omega

/-- **C94, selection during a search**: if the switch is pressed while the mouse searches, the next call panics, whichever mode is selected: the
pose of a search is no pose of a run. -/
theorem C94_select (S : Setting C.search cost real goal0 rest) {c : Old.Search.Commander} {rs : List Old.Search.Reply} (h : Explores C.search real b c rs)
    (h1 : c.phase = .solving ∨ c.phase = .waiting) (mode : Mode) (on : Bool) :
    Admin.run C e ⟨some (.search c), mode, true, on⟩ = .error .unwrapNone := by
  obtain ⟨-, hI, -⟩ := OldS.explores_inv S h
  have hl : SearchLegal C.search.W c.current := by
    generalize commandsOf rs = l at hI
    cases hI with
    | initial => rcases h1 with h | h <;> cases h
    | solving cur ks hs hk => exact hs.legal
    | waiting cur ks l b0 hs hk h2 h3 h4 h5 => exact hs.legal
    | final => rcases h1 with h | h <;> cases h
  have : RunNode.ofNode c.current = none := by
    unfold RunNode.ofNode
    rw [if_neg]
    intro hv
    obtain ⟨-, -, hL⟩ := (valid_iff (W := C.search.W) _ hl.1 hl.2.1).mp hv
    have ha := OldS.axis hl
    obtain ⟨l1, l2, l3⟩ := hl
    rcases hL with ⟨g1, g2, -⟩ | ⟨-, g⟩
    · rcases l3 with h | h <;> omega
    · simp only [List.mem_cons, List.not_mem_nil, or_false] at ha
      rcases ha with h | h | h | h <;> rw [h] at g <;> simp at g
  simp [Admin.run, Admin.exchangeOperator, exchange, Operator.current, this, bind, Except.bind]

/-- **C94, selection during a run**: if a return is selected while the mouse drives to a goal, the next command turns at the end of the plan,
wherever the mouse is. -/
theorem C94_select_run {c : RunCommander} {op : Operator} (ho : op = .run c ∨ op = .ret c) (mode : Mode) (on : Bool) {k : Nat} (hs : e.selected = .returnSetup k)
    {cmd : Command} (hr : Admin.run C e ⟨some op, mode, true, on⟩ = .ok (r, new, s')) (hm : cmd ∈ new) : ∃ kind, cmd = .rotate c.current kind := by
  have hc : op.current = c.current := by rcases ho with rfl | rfl <;> rfl
  have hn : ∀ n, RunNode.ofNode c.current = some n → n = c.current := by
    intro n h
    unfold RunNode.ofNode at h
    split at h
    · exact (Option.some.inj h).symm
    · cases h
  unfold Admin.run at hr
  simp only [if_true, Admin.exchangeOperator, exchange, hc, hs, bind, Except.bind, pure, Except.pure] at hr
  cases ht : RunNode.ofNode c.current with
  | none => rw [ht] at hr; cases hr
  | some n =>
    obtain rfl := hn n ht
    rw [ht] at hr
    simp only [construct, bind, Except.bind, pure, Except.pure] at hr
    cases hv : SetupCommander.new (C.solveReturn e.belief) c.current with
    | error p => rw [hv] at hr; cases hr
    | ok sc =>
      obtain ⟨i, nk, -, rfl, -, -⟩ := choose_ok _ hv
      rw [hv] at hr
      simp only [Operator.new, Operator.next, SetupCommander.nextCommand, setupAnswer, bind, Except.bind, pure, Except.pure] at hr
      cases ha : e.newAgent.accepts with
      | false => rw [ha] at hr; cases hr
      | true =>
        rw [ha] at hr
        cases hr
        exact ⟨nk.2, List.mem_singleton.mp hm⟩

/-- **C94, switch**: an interrupt changes nothing but whether a mode is to be selected. It requests that exactly if the switch is pressed and the tick of the
operator, if there is one, succeeds, and never takes a request back; it fails exactly if none is requested and the tick of the operator fails. -/
theorem C94_switch (enabled ok : Bool) (s : Admin) :
    (s.tick enabled ok).2 = { s with select := (s.tick enabled ok).2.select } ∧
    ((s.tick enabled ok).2.select = true ↔ s.select = true ∨ (enabled = true ∧ (s.operator = none ∨ ok = true))) ∧
    ((s.tick enabled ok).1 = false ↔ s.select = false ∧ s.operator ≠ none ∧ ok = false) := by
  obtain ⟨op, mode, select, on⟩ := s
  cases select <;> cases enabled <;> cases ok <;> cases op <;> simp [Admin.tick]

/-- **C94, selection**: a call after a request, if it does not panic, sets the selected mode. If that is not the idle one, the request is done, the
interrupts are on, and the new operator is of that mode and has given its first command. If it is the idle one, the call fails, the operator is lost, the
interrupts are off and the request remains, so that the next call panics. -/
theorem C94_selected (hs : s.select = true) (hr : Admin.run C e s = .ok (r, new, s')) :
    s'.mode = e.selected ∧
    (e.selected ≠ .idle → r = .ok ∧ s'.select = false ∧ s'.interrupts = true ∧ new.length = 1 ∧ s'.operator ≠ none ∧ ModeFits s'.operator e.selected) ∧
    (e.selected = .idle → r = .unsupported ∧ s'.select = true ∧ s'.interrupts = false ∧ new = [] ∧ s'.operator = none ∧
      ∀ e', Admin.run C e' s' = .error .unwrapNone) := by
  unfold Admin.run at hr
  simp only [hs, if_true, bind, Except.bind, pure, Except.pure] at hr
  have first {op op' : Operator} {c : Command} {m : Mode} (hf : ModeFits (some op) m) (h : Operator.new C e.belief e.newAgent op = .ok (c, op')) : ModeFits (some op') m := by
    unfold Operator.new at h
    cases hn : op.next C e.belief with
    | error p => rw [hn] at h; cases h
    | ok x =>
      obtain ⟨an, op1⟩ := x
      have h1 : ModeFits (some op1) m := by
        cases op with
        | search c =>
          simp only [Operator.next, bind, Except.bind, pure, Except.pure] at hn
          split at hn
          · cases hn
          · cases hn; cases m <;> exact hf
        | returnSetup c => cases hn; cases m <;> exact hf
        | runSetup c => cases hn; cases m <;> exact hf
        | ret c =>
          simp only [Operator.next, bind, Except.bind, pure, Except.pure] at hn
          split at hn
          · cases hn
          · cases hn; cases m <;> exact hf
        | run c =>
          simp only [Operator.next, bind, Except.bind, pure, Except.pure] at hn
          split at hn
          · cases hn
          · cases hn; cases m <;> exact hf
      rw [hn] at h
      simp only [bind, Except.bind, pure, Except.pure] at h
      cases an with
      | command c' =>
        dsimp only at h
        split at h
        · cases h; exact h1
        · cases h
      | finish => cases h
      | waiting => cases h
      | other => cases h
  have built {node : Node} {m : Mode} {o : Option (Command × Operator)} (h : construct C e.belief e.newAgent node m = .ok o) :
      (m = .idle ∧ o = none) ∨ (m ≠ .idle ∧ ∃ c op, o = some (c, op) ∧ ModeFits (some op) m) := by
    have go {op : Operator} (hf : ModeFits (some op) m) (hm : m ≠ .idle)
        (h : (Operator.new C e.belief e.newAgent op >>= fun x => (pure (some x) : R _)) = .ok o) :
        m ≠ .idle ∧ ∃ c op, o = some (c, op) ∧ ModeFits (some op) m := by
      cases hn : Operator.new C e.belief e.newAgent op with
      | error p => rw [hn] at h; cases h
      | ok x =>
        rw [hn] at h
        cases h
        exact ⟨hm, x.1, x.2, rfl, first hf hn⟩
    cases m with
    | idle => cases h; exact .inl ⟨rfl, rfl⟩
    | search k => exact .inr (go (op := .search (.new node)) trivial (by simp) h)
    | returnSetup k =>
      simp only [construct, bind, Except.bind] at h
      split at h
      · cases h
      · exact .inr (go (op := .returnSetup _) trivial (by simp) h)
    | ret k =>
      simp only [construct, bind, Except.bind] at h
      split at h
      · cases h
      · exact .inr (go (op := .ret _) trivial (by simp) h)
    | runSetup k =>
      simp only [construct, bind, Except.bind] at h
      split at h
      · cases h
      · exact .inr (go (op := .runSetup _) trivial (by simp) h)
    | run k =>
      simp only [construct, bind, Except.bind] at h
      split at h
      · cases h
      · exact .inr (go (op := .run _) trivial (by simp) h)
  unfold Admin.exchangeOperator at hr
  cases ho : s.operator with
  | none => simp only [ho] at hr; cases hr
  | some op =>
    simp only [ho, exchange, bind, Except.bind, pure, Except.pure] at hr
    cases hn : RunNode.ofNode op.current with
    | none => rw [hn] at hr; cases hr
    | some node =>
      rw [hn] at hr
      cases hb : construct C e.belief e.newAgent node e.selected with
      | error p => simp only [hb] at hr; cases hr
      | ok o =>
        simp only [hb] at hr
        rcases built hb with ⟨h1, rfl⟩ | ⟨h1, c, op', rfl, h2⟩
        · cases hr
          refine ⟨rfl, fun h => absurd h1 h, fun _ => ⟨rfl, rfl, rfl, rfl, rfl, fun e' => ?_⟩⟩
          simp [Admin.run, Admin.exchangeOperator, bind, Except.bind]
        · cases hr
          exact ⟨rfl, fun _ => ⟨rfl, rfl, rfl, rfl, by simp, h2⟩, fun h => absurd h h1⟩

/-- **C94, setting**: the way of `LifeSetting` exists as well if the solver finds it in what can be known of the maze. -/
theorem C94_found (hS : Setting C.search cost real goal0 rest) (hA : Affordable C.search cost) (hB : Bearable C.search.W cost C.search.MAX)
    (hg : goalsOf C.search.W C.gx C.gy = .ok C.search.goals) (hp : Place C.search.W C.gx C.gy) (hc : C.gx % 2 = 0 ∧ C.gy % 2 = 0)
    (hh : C.search.start.x = C.rx ∧ C.search.start.y = C.ry) (hT : TrueBelief C.search.W real b) {path : List Node}
    (hs : C.solveGoal b C.search.start = .ok (some path)) : LifeSetting C cost real goal0 rest := by
  obtain ⟨L⟩ := hS.heap
  obtain ⟨⟨q, c, g, q1, q2, q3, q4, q5, q6⟩, hne⟩ := solve_cheap hS.width L hS.costs hS.fit hS.start.1 hp hs
  refine ⟨hS, hA, hB, hg, hp, hc, hh, fun he => hne (by rw [he, hh.1, hh.2]), q, c, q1, ⟨g, ?_, q2⟩, ?_⟩
  all_goals
    obtain ⟨g0, r0, k1, k2⟩ := place_goals hp
    rw [hg, hS.goals] at k1
    cases k1
  · exact (k2 g).mpr ⟨charged_legal q5 q1 hS.start.1 q2, q3, q4⟩
  · obtain ⟨-, e1, e2⟩ := (k2 _).mp (List.mem_cons_self ..)
    have ea : cellsApart C.search.start goal0 = cellsApart C.search.start ⟨C.gx, C.gy, .north⟩ := by unfold cellsApart; rw [e1, e2]
    refine ⟨charged_place e1.symm e2.symm (charged_mono (fun c hc => (uncertain_open hT _ hc).1) q5), ?_⟩
    rw [ea]
    exact q6

/-! ## A whole life -/

/-- Agents that take every command at once. -/
def quick (b : Belief) : Moment := ⟨b, ⟨some false, some true, true⟩, ⟨some false, some true, true⟩, .idle⟩

/-- Calls of `run` with such agents. -/
def calls (C : Life.Config) : List Belief → Admin → R (List Command × Admin)
  | [], s => .ok ([], s)
  | b :: bs, s => do
    let (_, new, s) ← Admin.run C (quick b) s
    let (l, s) ← calls C bs s
    return (new ++ l, s)

/-- A life from the beginning. -/
def lifeOf (C : Life.Config) (count : Nat) (b : Belief) (bs : List Belief) : R (List Command × Admin) := do
  match ← construct C b (quick b).agent C.search.start (.search count) with
  | none => .error .unreachable
  | some (c, op) =>
    let (l, s) ← calls C bs ⟨some op, .search count, false, true⟩
    return (c :: l, s)

theorem calls_live {C : Life.Config} {real : Wall → Bool} {count : Nat} : ∀ (bs : List Belief) (b : Belief) (s s' : Admin) (cs l : List Command),
    (∀ b' ∈ bs, TrueBelief C.search.W real b') → (b :: bs).IsChain Learns → Lives C real count b s cs → calls C bs s = .ok (l, s') →
    ∃ b', (b :: bs).getLast? = some b' ∧ Lives C real count b' s' (cs ++ l) := by
  intro bs
  induction bs with
  | nil => intro b s s' cs l _ _ h h'; cases h'; exact ⟨b, rfl, by simpa using h⟩
  | cons b1 bs ih =>
    intro b s s' cs l hT hL h h'
    rw [calls] at h'
    cases hr : Admin.run C (quick b1) s with
    | error p => rw [hr] at h'; cases h'
    | ok x =>
      obtain ⟨r, new, s1⟩ := x
      rw [hr] at h'
      simp only [bind, Except.bind] at h'
      cases hc : calls C bs s1 with
      | error p => rw [hc] at h'; cases h'
      | ok y =>
        obtain ⟨l1, s2⟩ := y
        rw [hc] at h'
        cases h'
        rw [List.isChain_cons_cons] at hL
        have h1 := Lives.call b (quick b1) s s1 r cs new h hL.1 (hT b1 (List.mem_cons_self ..)) rfl rfl hr
        have := ih b1 s1 _ _ l1 (fun b' hb => hT b' (List.mem_cons_of_mem _ hb)) hL.2 h1 hc
        rw [List.append_assoc] at this
        simpa using this

theorem life_lives {C : Life.Config} {real : Wall → Bool} {count : Nat} {bs : List Belief} {b : Belief} {s : Admin} {cs : List Command}
    (hT : ∀ b' ∈ b :: bs, TrueBelief C.search.W real b') (hL : (b :: bs).IsChain Learns) (ho : OpenAhead C.search.W b C.search.start)
    (h : lifeOf C count b bs = .ok (cs, s)) : ∃ b', (b :: bs).getLast? = some b' ∧ Lives C real count b' s cs := by
  unfold lifeOf at h
  cases hc : construct C b (quick b).agent C.search.start (.search count) with
  | error p => rw [hc] at h; cases h
  | ok o =>
    cases o with
    | none => rw [hc] at h; cases h
    | some x =>
      obtain ⟨c, op⟩ := x
      rw [hc] at h
      simp only [bind, Except.bind] at h
      cases hr : calls C bs ⟨some op, .search count, false, true⟩ with
      | error p => rw [hr] at h; cases h
      | ok y =>
        obtain ⟨l, s1⟩ := y
        rw [hr] at h
        cases h
        have h0 := Lives.start (count := count) b (quick b).agent c op (hT b (List.mem_cons_self ..)) ho rfl hc
        exact calls_live bs b _ _ _ l (fun b' hb => hT b' (List.mem_cons_of_mem _ hb)) hL h0 hr

def smallLife : Life.Config := ⟨smallConfig, 4, 4, 0, 0⟩

/-- The maze of 4 x 4 cells with the two walls. -/
theorem small_life : LifeSetting smallLife linearCost (walled twoWalls) ⟨4, 4, .north⟩ [⟨4, 4, .east⟩, ⟨4, 4, .south⟩, ⟨4, 4, .west⟩] := by
  have step : ∀ (C D : V) (c : Verif.Search.Coord), Between C c D → Valid 4 c → posBlocked (walled twoWalls) c = false →
      Joined 4 (posBlocked (walled twoWalls)) C D := fun C D c h1 h2 h3 => ⟨c, h1, h2, h3⟩
  refine C94_way (small_setting twoWalls) ⟨15, by decide, by decide⟩ ((C93_setting (knowing_true (walled twoWalls) []) (walled_closed _)).2 (by decide)).1
    (by decide) (by decide) (by decide) (by decide) (by decide) ?_ ?_
  · rintro ⟨x, y⟩ D ⟨-, -, e, he, h1, h2, rfl⟩ hv hw
    have h1 : (x : Int) = 0 + e.1 := h1
    have h2 : (y : Int) = 0 + e.2 := h2
    simp only [List.mem_cons, List.not_mem_nil, or_false] at he
    rcases he with rfl | rfl | rfl | rfl
    · obtain rfl : x = 0 := by omega
      obtain rfl : y = 1 := by omega
      decide
    · obtain rfl : x = 1 := by omega
      obtain rfl : y = 0 := by omega
      exact absurd hw (by decide)
    · omega
    · omega
  · refine .head (step _ (0, 2) ⟨0, 1⟩ (by decide) (by decide) (by decide)) ?_
    refine .head (step _ (0, 4) ⟨0, 3⟩ (by decide) (by decide) (by decide)) ?_
    refine .head (step _ (2, 4) ⟨1, 4⟩ (by decide) (by decide) (by decide)) ?_
    exact .single (step _ (4, 4) ⟨3, 4⟩ (by decide) (by decide) (by decide))

/-- The modes of the lives of 0, 1, .. calls. -/
def modesOf (C : Life.Config) (count : Nat) (b : Belief) (l : List Nat) : List (Option Mode) :=
  l.map fun k => (lifeOf C count b (List.replicate k b)).toOption.map fun x => x.2.mode

/-- A whole life with one fast run in 16 calls and with 16 commands. -/
example : ∃ b s cs, Lives smallLife (walled twoWalls) 1 b s cs ∧ cs.length = 16 ∧ s.operator.isNone = true ∧ s.interrupts = false ∧
    modesOf smallLife 1 (knowing (walled twoWalls) allWalls) [1, 2, 6, 7, 10, 11, 15, 16, 17] = [some (.search 1), some (.returnSetup 1), some (.ret 1),
      some (.runSetup 0), some (.run 0), some (.returnSetup 0), some (.ret 0), some .idle, none] := by
  have hk : (match lifeOf smallLife 1 (knowing (walled twoWalls) allWalls) (List.replicate 16 (knowing (walled twoWalls) allWalls)) with
      | .ok (cs, s) => cs.length == 16 && s.operator.isNone && !s.interrupts | .error _ => false) = true := by decide +kernel
  cases h : lifeOf smallLife 1 (knowing (walled twoWalls) allWalls) (List.replicate 16 (knowing (walled twoWalls) allWalls)) with
  | error p => rw [h] at hk; cases hk
  | ok x =>
    obtain ⟨cs, s⟩ := x
    rw [h] at hk
    simp only [Bool.and_eq_true, beq_iff_eq, Bool.not_eq_true'] at hk
    obtain ⟨b, -, hb⟩ := life_lives (real := walled twoWalls) (fun b' hb => by
      rcases List.mem_cons.mp hb with rfl | hb
      · exact knowing_true _ _
      · rw [List.eq_of_mem_replicate hb]; exact knowing_true _ _) (by
        have : ∀ k (b : Belief), (b :: List.replicate k b).IsChain Learns := by
          intro k b
          induction k with
          | zero => simp
          | succ k ih => rw [List.replicate_succ, List.isChain_cons_cons]; exact ⟨fun _ h => h, ih⟩
        exact this _ _) (open_ahead twoWalls (by decide) _) h
    exact ⟨b, s, cs, hb, hk.1.1, hk.1.2, hk.2, by decide +kernel⟩

/-! ## A life that ends after the search -/

def homeLife : Life.Config := ⟨{ smallConfig with start := ⟨2, 0, .north⟩, goals := [⟨6, 0, .north⟩, ⟨6, 0, .east⟩, ⟨6, 0, .south⟩, ⟨6, 0, .west⟩] }, 6, 0, 2, 0⟩

/-- The walls right of and above the cell above the start. -/
def homeWalls : List Wall := [⟨1, 1, false⟩, ⟨1, 1, true⟩]

theorem home_life : LifeSetting homeLife linearCost (walled homeWalls) ⟨6, 0, .north⟩ [⟨6, 0, .east⟩, ⟨6, 0, .south⟩, ⟨6, 0, .west⟩] := by
  have hk : (match homeLife.solveGoal (knowing (walled homeWalls) allWalls) ⟨2, 0, .north⟩ with | .ok (some _) => true | _ => false) = true := by
    decide +kernel
  have hs := small_setting homeWalls
  cases h : homeLife.solveGoal (knowing (walled homeWalls) allWalls) ⟨2, 0, .north⟩ with
  | error p => rw [h] at hk; cases hk
  | ok o =>
    cases o with
    | none => rw [h] at hk; cases hk
    | some path =>
      exact C94_found ⟨hs.width, hs.costs, hs.fit, hs.pos, hs.heap, hs.sort, by decide, rfl, by decide, hs.closed⟩ ⟨15, by decide, by decide⟩
        ((C93_setting (knowing_true (walled homeWalls) []) (walled_closed _)).2 (by decide)).1 (by decide) (by decide) (by decide) (by decide)
        (knowing_true _ _) h

/-- A selection of the setup of a run (in the first case) and of the idle mode (in the second) during a return: `C94_selected` applies. -/
example : (match lifeOf smallLife 1 (knowing (walled twoWalls) allWalls) (List.replicate 6 (knowing (walled twoWalls) allWalls)) with
    | .ok (_, s) => [Mode.runSetup 3, .idle].map fun m =>
      (match Admin.run smallLife { quick (knowing (walled twoWalls) allWalls) with selected := m } (s.tick true true).2 with
        | .ok (r, new, s') => some (r, new.length, s'.select, s'.interrupts) | .error _ => none)
    | .error _ => []) = [some (.ok, 1, false, true), some (.unsupported, 0, true, false)] := by decide +kernel

/-- **C94, a search that ends at home**: in this maze the mouse turns back into the start cell; if it has then learned all walls of the path, the
search ends there, and the first call after the last command panics. -/
theorem C94_home_case : ∃ b s cs, Lives homeLife (walled homeWalls) 1 b s cs ∧ Admin.run homeLife (quick b) s = .error .unreachable := by
  let b0 := knowing (walled homeWalls) [⟨1, 0, true⟩]
  let b1 := knowing (walled homeWalls) [⟨1, 0, true⟩, ⟨1, 1, false⟩, ⟨1, 1, true⟩]
  let b2 := knowing (walled homeWalls) allWalls
  have hk : (match lifeOf homeLife 1 b0 [b0, b1, b2] with
      | .ok (_, s) => (match Admin.run homeLife (quick b2) s with | .error .unreachable => true | _ => false) | .error _ => false) = true := by
    decide +kernel
  cases h : lifeOf homeLife 1 b0 [b0, b1, b2] with
  | error p => rw [h] at hk; cases hk
  | ok x =>
    obtain ⟨cs, s⟩ := x
    rw [h] at hk
    obtain ⟨b, hb, hl⟩ := life_lives (real := walled homeWalls) (fun b' hb => by
      simp only [List.mem_cons, List.not_mem_nil, or_false] at hb
      rcases hb with rfl | rfl | rfl | rfl <;> exact knowing_true _ _) (by
        simp only [List.isChain_cons_cons, List.isChain_singleton, and_true]
        exact ⟨fun _ h => h, knowing_learns _ (by decide), knowing_learns _ (by decide)⟩)
      (⟨⟨2, 1⟩, by decide, by decide, by decide, by decide⟩) h
    cases hb
    refine ⟨b2, s, cs, hl, ?_⟩
    cases hr : Admin.run homeLife (quick b2) s with
    | ok y => simp only [hr] at hk; cases hk
    | error p => simp only [hr] at hk; cases p <;> first | rfl | cases hk

end Verif.Props
