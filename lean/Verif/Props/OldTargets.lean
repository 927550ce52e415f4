import Verif.Proof.OldTargets
import Verif.Props.OldTraject
/-!
# C98: the targets of the former fast runs
-/
namespace Verif.Props
open Verif.Props.Old (listQueue listQueueLaws)
open Verif Verif.Control Verif.Straight Verif.Slalom Verif.Spec Verif.StraightP Verif.Old Verif.Old.Targets Verif.Proof.OldG
open Verif.Spec.Traject (Outputs Gives Stutter FirstFree after commands underway)
open Verif.Old.FastRun (RunState RunCommand RunCommander runState solveIn uncertain)
open Verif.Old.Traject (tracking Tracking Answer Event Proc)
open Verif.Run (Node TrajectoryKind EdgeKind)

variable {c : Config}

theorem moves_of {W : Nat} {isWall : Search.Coord → Bool} {path : List Node} {cs : List RunCommand} (h : Commands W isWall path cs) :
    Moves W isWall path.length 0 path cs := by
  obtain ⟨h1, h2⟩ := h
  suffices hh : ∀ (p2 : List Node) (c2 : List RunCommand) (i : Nat), path.drop i = p2 → cs.drop i = c2 → i < path.length →
      Moves W isWall path.length i p2 c2 by exact hh _ _ 0 rfl rfl (by omega)
  intro p2
  induction p2 with
  | nil =>
    intro c2 i hp _ hi
    have := congrArg List.length hp
    simp at this
    omega
  | cons n p2 ih =>
    intro c2 i hp hc hi
    have hn : path[i]? = some n := by rw [← List.head?_drop, hp]; rfl
    cases c2 with
    | nil =>
      have := congrArg List.length hc
      simp at this
      have h3 := congrArg List.length hp
      simp at h3
      have : p2 = [] := List.length_eq_zero_iff.1 (by omega)
      subst this
      exact .last i n
    | cons cmd c2 =>
      have hcmd : cs[i]? = some cmd := by rw [← List.head?_drop, hc]; rfl
      obtain ⟨a1, ⟨m, k, a2, a3, a4⟩, a5⟩ := h2 i cmd hcmd
      rw [hn] at a1
      cases a1
      have hp2 : path.drop (i + 1) = p2 := by rw [← List.tail_drop, hp]; rfl
      have hc2 : cs.drop (i + 1) = c2 := by rw [← List.tail_drop, hc]; rfl
      have hl : i + 1 < path.length := (List.getElem?_eq_some_iff.1 a2).1
      have hlc : i < cs.length := (List.getElem?_eq_some_iff.1 hcmd).1
      cases p2 with
      | nil => have := congrArg List.length hp2; simp at this; omega
      | cons m' p2 =>
        have hm : path[i + 1]? = some m' := by rw [← List.head?_drop, hp2]; rfl
        rw [a2] at hm
        cases hm
        have hst : cmd.state = runState i path.length := by
          unfold runState
          cases hs : cmd.state <;> rw [hs] at a5 <;> simp only [Speed] at a5
          · rw [if_pos (by omega)]
          · rw [if_neg (by omega), if_neg (by omega), if_neg (by omega)]
          · rw [if_neg (by omega), if_neg (by omega), if_pos (by omega)]
          · rw [if_neg (by omega), if_pos (by omega)]
        have := Moves.cons i cmd.node m p2 k cmd.route c2 a3 a4 (ih _ (i + 1) hp2 hc2 hl)
        rw [← hst] at this
        exact this

/-- **C98, targets.** For the commands of a run along a plan, converted and generated one after the other, all trajectories end, and their targets
in order lead from the first pose of the plan, at rest, exactly past every pose but the last to a pose within a millionth of a square
width of the last, forward only. Successive targets are close; their speeds differ by no more than the acceleration allows, except perhaps at one
place, and not even there when the plan has at most five poses or the shortest straight of the slalom table is enough for reaching the speed
of the run. With three commands or more the mouse stops, when that straight is enough for stopping; with one or two it never does. -/
theorem C98_targets (hc : RunOk c.toRunConfig) {W : Nat} (hW : Supported W) {isWall : Search.Coord → Bool} {path : List Node} {cs : List RunCommand}
    (h : Commands W isWall path cs) {start goal : Node} (hs : path.head? = some start) (hg : path.getLast? = some goal) (hn : Legal W start)
    (h1 : cs ≠ []) :
    ∃ l q' v', Gives runStepper (trajectories c 0 cs) l [] ∧ (∀ t ∈ trajectories c 0 cs, ∃ y l', Outputs runStepper t (y :: l') none) ∧
      Drive c.gen.vMax c.gen.aMax c.period (poseOfNode start c.squareWidth) 0 q' v' l ∧
      Near (1e-6 * c.squareWidth) q' (poseOfNode goal c.squareWidth) ∧
      Visits c.squareWidth l path.dropLast ∧
      Steps (runStep c.toRunConfig) (c.gen.aMax * c.period + c.slalomVelocity) l ∧
      (∃ l1 l2, l = l1 ++ l2 ∧ Steps (runStep c.toRunConfig) (c.gen.aMax * c.period) l1 ∧ Steps (runStep c.toRunConfig) (c.gen.aMax * c.period) l2) ∧
      (cs.length ≤ 4 ∨ c.slalomVelocity + resolution c.gen.vMax ≤ c.gen.vMax ∧
          rampDist c.gen 0 (c.slalomVelocity + resolution c.gen.vMax) < 0.1564 * c.squareWidth →
        Steps (runStep c.toRunConfig) (c.gen.aMax * c.period) l) ∧
      (3 ≤ cs.length → Roomy c.gen c.slalomVelocity 0 (0.1564 * c.squareWidth) → v' = 0) ∧
      (cs.length ≤ 2 → 0 < v') := by
  have hl := h.1
  have h2 : 2 ≤ path.length := by
    have := List.length_pos_iff.2 h1
    omega
  obtain ⟨l, v', ⟨r1, r2, ⟨st, gl, q', g1, g2, g3, g4⟩, r5⟩, ⟨s1, l1, l2, s2, -, s3, s4⟩, h3, h4, h5⟩ := whole_run (c := c) hc hW (moves_of h) hs hn h2
  rw [hs] at g1
  rw [hg] at g2
  cases g1
  cases g2
  exact ⟨l, q', v', r1, r2, g4, g3, r5, s1, ⟨l1, l2, s2, s3, s4⟩, fun h => h3 (h.imp_left (by omega)), fun h => h4 (by omega), fun h => h5 (by omega)⟩

/-- What is handed out of some of the trajectories is a beginning of what all of them give. -/
theorem gives_begin {S T : Type} {step : S → Option (T × S)} {ss more left : List S} {ts l : List T} (h : Gives step ss ts left)
    (h' : Gives step (ss ++ more) l []) : ts <+: l := by
  have h2 : Gives step (ss ++ more) ts (left ++ more) := by
    clear h'
    induction h with
    | nil =>
      cases more with
      | nil => exact .nil
      | cons s more => exact .partway _ _ _ _ (.start s)
    | partway s ss l s' h => exact .partway _ _ _ _ h
    | over s ss l ts left h _ ih => exact .over _ _ _ _ _ h ih
  clear h
  generalize hr : left ++ more = left' at h2
  clear hr
  generalize ss ++ more = all at *
  induction h2 generalizing l with
  | nil => exact List.nil_prefix
  | partway s ss l0 s' h =>
    cases h' with
    | over _ _ l1 ts1 _ h1 _ =>
      have : l0 <+: l1 := by
        clear * - h h1
        generalize hr : some s' = r at h
        induction h generalizing l1 with
        | start s => exact List.nil_prefix
        | over s _ => cases hr
        | more s x s1 l r e _ ih =>
          cases h1 with
          | over _ e' => rw [e] at e'; cases e'
          | more _ x' s1' l1 _ e' h1 =>
            rw [e] at e'
            cases e'
            exact List.cons_prefix_cons.2 ⟨rfl, ih _ h1 hr⟩
      exact this.trans (List.prefix_append _ _)
  | over s ss l0 ts left h _ ih =>
    cases h' with
    | over _ _ l1 ts1 _ h1 h2 =>
      have : l0 = l1 := by
        clear * - h h1
        generalize hr : none = r at h
        induction h generalizing l1 with
        | start s => cases hr
        | over s e =>
          cases h1 with
          | over => rfl
          | more _ _ _ _ _ e' => rw [e] at e'; cases e'
        | more s x s1 l r e _ ih =>
          cases h1 with
          | over _ e' => rw [e] at e'; cases e'
          | more _ x' s1' l1 _ e' h1 =>
            rw [e] at e'
            cases e'
            rw [ih _ h1 hr]
      subst this
      exact (List.prefix_append_right_inj _).2 (ih h2)

theorem commands_map {S : Type} (ts : List S) : commands (ts.map Answer.command) = ts := by
  unfold commands
  induction ts with
  | nil => rfl
  | cons t ts ih => rw [List.map_cons, List.filterMap_cons]; simp only [ih]

/-- **C98, at any time.** However the interrupts interleave with the main loop, the targets handed to the robot so far are a beginning of the targets
of the run, in order, up to repetitions. -/
theorem C98_any_time {first : Detect.Pose × Driver.Traj} {rest : List (Detect.Pose × Driver.Traj)} {l : List Target} (hl : Gives runStepper (first :: rest) l [])
    {es : List Event} {xs : List Target} {p : Proc (Tracking (Detect.Pose × Driver.Traj) Target) (Detect.Pose × Driver.Traj)}
    (h : (Tracking.start first (rest.map .command)).run (tracking runStepper) es = .ok (xs, p)) :
    ∃ k, Stutter xs (l.take k) := by
  obtain ⟨fresh, f1, f2⟩ := C95_targets h
  obtain ⟨-, -, used, u1, u2, -⟩ := C95_commands_tracking h
  have hp : p.accepted <+: first :: rest := by
    have e : rest = commands used ++ commands p.answers := by
      have := congrArg commands u1
      rw [commands_map] at this
      rw [this]
      exact List.filterMap_append
    refine (List.prefix_append _ (underway p.place)).trans ?_
    rw [u2, e]
    exact List.cons_prefix_cons.2 ⟨rfl, List.prefix_append _ _⟩
  obtain ⟨more, hm⟩ := hp
  have := gives_begin f1 (by rw [hm]; exact hl)
  exact ⟨fresh.length, by rw [← List.prefix_iff_eq_take.1 this]; exact f2⟩

/-- **C98, completion.** If the first interrupt finds the lock free, and again and again the main loop goes on and an interrupt finds the lock free, then
nothing panics, and the run returns `Ok`; the robot has then been handed exactly the targets of the run, in order, up to repetitions. -/
theorem C98_completes {first : Detect.Pose × Driver.Traj} {rest : List (Detect.Pose × Driver.Traj)} {l : List Target} (hl : Gives runStepper (first :: rest) l [])
    (hf : ∀ t ∈ first :: rest, ∃ y l', Outputs runStepper t (y :: l') none) {σ : Nat → Event}
    (hσ : FirstFree (tracking runStepper) σ (Tracking.start first (rest.map .command))) (hm : ∀ n, ∃ m, n ≤ m ∧ σ m = .main)
    (ht : ∀ n, ∃ m, n ≤ m ∧ σ m = .tick ∧ ∀ xs q, after (tracking runStepper) σ (Tracking.start first (rest.map .command)) m = .ok (xs, q) → q.place.held = false) :
    (∀ n, ∃ r, after (tracking runStepper) σ (Tracking.start first (rest.map .command)) n = .ok r) ∧
    ∃ n xs q, after (tracking runStepper) σ (Tracking.start first (rest.map .command)) n = .ok (xs, q) ∧ q.place = .done ∧ Stutter xs l := by
  have h0 : runStepper first ≠ none := by
    obtain ⟨y, l', h⟩ := hf first (List.mem_cons_self ..)
    cases h with
    | more _ _ _ _ _ e => rw [e]; simp
  refine ⟨fun n => C95_no_panic h0 hσ n, ?_⟩
  obtain ⟨n, xs, q, ts, a1, a2, a3, a4⟩ := C95_completes h0 (by obtain ⟨y, l', h⟩ := hf first (List.mem_cons_self ..); exact ⟨_, h⟩)
    (fun t ht => by
      rw [commands_map] at ht
      obtain ⟨y, l', h⟩ := hf t (List.mem_cons_of_mem _ ht)
      exact ⟨_, h⟩)
    (fun a ha => by
      obtain ⟨t, -, rfl⟩ := List.mem_map.1 ha
      exact .inl ⟨t, rfl⟩) hσ hm ht
  rw [commands_map] at a3
  have e : ts = l := by
    have h1 := gives_begin (more := []) a3 (by rw [List.append_nil]; exact hl)
    have h2 := gives_begin (more := []) hl (by rw [List.append_nil]; exact a3)
    exact List.IsPrefix.eq_of_length h1 (le_antisymm h1.length_le h2.length_le)
  exact ⟨n, xs, q, a1, a2, e ▸ a4⟩

/-- **C98, from the plan.** The commander made for what is known of the walls gives commands whose targets lead from the start to the goal position. -/
theorem C98_planned (hc : RunOk c.toRunConfig) {W : Nat} {b : Belief} {cost : Pattern → Nat} {conv : Pattern → R Nat} {Q : Queue Nat} {MAX x y : Nat} {start : Node}
    (hW : Supported W) (L : QueueLaws Q HEAP_MAX) (hcv : ∀ p, Occurs W p → conv p = .ok (cost p))
    (hfit : ∀ p q, Occurs W p → Occurs W q → cost p + cost q ≤ MAX) (hstart : Legal W start) (hp : Place W x y) {r : RunCommander}
    (h : RunCommander.new (solveIn W b conv Q MAX x y) start = .ok r) :
    ∃ cs l q' v', Commands W (posBlocked (uncertain b)) r.path cs ∧
      (∀ k, replies RunCommander.nextCommand k r =
        .ok ((cs.take k).map .command ++ List.replicate (k - cs.length) .finish, { r with iter := min k cs.length })) ∧
      r.current.x = x ∧ r.current.y = y ∧ Gives runStepper (trajectories c 0 cs) l [] ∧
      Drive c.gen.vMax c.gen.aMax c.period (poseOfNode start c.squareWidth) 0 q' v' l ∧
      Near (1e-6 * c.squareWidth) q' (poseOfNode r.current c.squareWidth) ∧ Visits c.squareWidth l r.path.dropLast := by
  obtain ⟨cs, a1, a2⟩ := C92_commands hW L hcv hfit hstart hp h
  obtain ⟨⟨-, b1, b2, -, b3, b4, b5, -⟩, -⟩ := C92_new hW L hcv hfit hstart hp h
  have hne : cs ≠ [] := by
    rintro rfl
    have := a1.1
    simp at this
    omega
  obtain ⟨l, q', v', d1, -, d2, d3, d4, -⟩ := C98_targets hc hW a1 b1 b2 hstart hne
  exact ⟨cs, l, q', v', a1, a2, b3, b4, d1, d2, d3, d4⟩

/-! ### Cases -/

/-- The settings of the project's test of the fast run, with an offset. -/
noncomputable def sample : Config := ⟨⟨⟨1, 10, 100⟩, 0.001, 0.09, 0.5⟩, 0.01⟩

theorem sample_ok : RunOk sample.toRunConfig := test_settings

/-- The run of the case of C92: two commands, so that it does not stop. -/
theorem sample_plan : ∃ r, RunCommander.new (solveIn 4 bareKnown defaultLinear (listQueue Nat HEAP_MAX) 65535 2 6) ⟨0, 0, .north⟩ = .ok r ∧
    r.path = [⟨0, 0, .north⟩, ⟨0, 4, .north⟩, ⟨2, 6, .east⟩] := by
  have h : (RunCommander.new (solveIn 4 bareKnown defaultLinear (listQueue Nat HEAP_MAX) 65535 2 6) ⟨0, 0, .north⟩).toOption.map (·.path) =
      some [⟨0, 0, .north⟩, ⟨0, 4, .north⟩, ⟨2, 6, .east⟩] := by decide +kernel
  cases hr : RunCommander.new (solveIn 4 bareKnown defaultLinear (listQueue Nat HEAP_MAX) 65535 2 6) ⟨0, 0, .north⟩ with
  | error e => rw [hr] at h; cases h
  | ok r => rw [hr] at h; exact ⟨r, rfl, Option.some.inj h⟩

/-- The hypotheses of `C98_planned` and `C98_targets` are met. -/
example : ∃ r cs l q' v', RunCommander.new (solveIn 4 bareKnown defaultLinear (listQueue Nat HEAP_MAX) 65535 2 6) ⟨0, 0, .north⟩ = .ok r ∧
    Commands 4 (posBlocked (uncertain bareKnown)) r.path cs ∧ cs.length = 2 ∧ Gives runStepper (trajectories sample 0 cs) l [] ∧
    Drive 1 10 0.001 (poseOfNode ⟨0, 0, .north⟩ 0.09) 0 q' v' l ∧ Near (1e-6 * 0.09) q' (poseOfNode ⟨2, 6, .east⟩ 0.09) ∧ 0 < v' := by
  obtain ⟨r, hr, hp⟩ := sample_plan
  obtain ⟨cs, a1, -⟩ := C92_commands four (listQueueLaws _ _) (fun p hp => ((C84_default_costs four).1 p hp).1)
    (fun p q hp hq => ((C84_default_costs four).2.1 p q hp hq).1) (by decide) (by decide) hr
  have hl : cs.length = 2 := by have := a1.1; rw [hp] at this; simpa using this
  obtain ⟨l, q', v', d1, -, d2, d3, -, -, -, -, -, d4⟩ := C98_targets sample_ok four a1 (start := ⟨0, 0, .north⟩) (goal := ⟨2, 6, .east⟩)
    (by rw [hp]; rfl) (by rw [hp]; rfl) (by decide) (by rintro rfl; cases hl)
  exact ⟨r, cs, l, q', v', hr, a1, hl, d1, d2, d3, d4 (by omega)⟩

/-- A main loop that holds the lock does not hold it at its next access. -/
theorem main_releases {M S T : Type} {A : Traject.Manager M S T} {p q : Proc M S} (h : p.main A = .ok q) (hp : p.place.held = true) : q.place.held = false := by
  obtain ⟨m, place, ans, acc⟩ := p
  cases place <;> simp only [Traject.Place.held] at hp <;> try cases hp
  · cases h; dsimp only; split <;> rfl
  · cases h; dsimp only; split <;> rfl
  · unfold Traject.Proc.main at h
    dsimp only at h
    split at h
    · cases h; rfl
    · cases h
  · cases h; dsimp only; split <;> rfl

/-- When the interrupt and the main loop take turns, the first interrupt finds the lock free, and one of any two does. -/
theorem alternate_fair {S T : Type} {step : S → Option (T × S)} {s : S} {answers : List (Answer S)} (hs : step s ≠ none) :
    FirstFree (tracking step) alternate (Tracking.start s answers) ∧ (∀ n, ∃ m, n ≤ m ∧ alternate m = .main) ∧
    (∀ n, ∃ m, n ≤ m ∧ alternate m = .tick ∧
      ∀ xs q, after (tracking step) alternate (Tracking.start s answers) m = .ok (xs, q) → q.place.held = false) := by
  have hF : FirstFree (tracking step) alternate (Tracking.start s answers) := by
    intro n q h ht
    cases n with
    | zero => cases h; rfl
    | succ n =>
      exfalso
      have hx : ∀ n xs q, after (tracking step) alternate (Tracking.start s answers) (n + 1) = .ok (xs, q) → xs ≠ [] := by
        intro n
        induction n with
        | zero =>
          intro xs q h
          rw [Proof.OldT.after_succ] at h
          obtain ⟨⟨x, s'⟩, hy⟩ := Option.ne_none_iff_exists'.1 hs
          have e : Traject.Proc.event (tracking step) (Tracking.start s answers) (alternate 0) =
              .ok ([x], { (Tracking.start s answers : Proc (Tracking S T) S) with manager := ⟨[s'], some x⟩ }) := by
            simp only [alternate, Traject.Proc.event, Traject.Proc.tick, tracking, Traject.Tracking.next, Tracking.start, Traject.Place.held, Traject.Tracking.pop, hy]
            rfl
          simp only [after, List.range_zero, List.map_nil, Traject.Proc.run, bind, Except.bind, e, pure, Except.pure] at h
          cases h
          simp
        | succ n ih =>
          intro xs q h
          rw [Proof.OldT.after_succ] at h
          cases h1 : after (tracking step) alternate (Tracking.start s answers) (n + 1) with
          | error a => rw [h1] at h; cases h
          | ok r =>
            obtain ⟨ys, r⟩ := r
            rw [h1] at h
            simp only [bind, Except.bind, pure, Except.pure] at h
            cases h2 : Traject.Proc.event (tracking step) r (alternate (n + 1)) with
            | error a => rw [h2] at h; cases h
            | ok r2 =>
              rw [h2] at h
              cases h
              have := ih _ _ h1
              simp [this]
      exact hx n _ _ h rfl
  refine ⟨hF, fun n => ⟨2 * n + 1, by omega, by simp [alternate]⟩, fun n => ?_⟩
  obtain ⟨⟨xs, q⟩, h1⟩ := C95_no_panic hs hF (2 * n)
  cases hh : q.place.held with
  | false =>
    refine ⟨2 * n, by omega, by simp [alternate], fun xs' q' h => ?_⟩
    rw [h1] at h
    cases h
    exact hh
  | true =>
    refine ⟨2 * n + 2, by omega, by simp [alternate], fun xs' q' h => ?_⟩
    have e0 : alternate (2 * n) = .tick := by simp [alternate]
    have e1 : alternate (2 * n + 1) = .main := by simp [alternate]
    rw [show 2 * n + 2 = 2 * n + 1 + 1 from rfl, Proof.OldT.after_succ, Proof.OldT.after_succ, h1, e0, e1] at h
    simp only [bind, Except.bind, pure, Except.pure, Traject.Proc.event] at h
    cases ht : q.tick (tracking step) with
    | error a => rw [ht] at h; cases h
    | ok r =>
      obtain ⟨x, r⟩ := r
      rw [ht] at h
      dsimp only at h
      obtain ⟨m, -, rfl⟩ := Proof.OldT.tick_split ht
      cases hm : Traject.Proc.main (tracking step) { q with manager := m } with
      | error a => rw [hm] at h; cases h
      | ok r2 =>
        rw [hm] at h
        cases h
        exact main_releases hm hh

/-- The hypotheses of `C98_any_time` and `C98_completes` are met: the run of this plan, with a main loop and an interrupt that take turns. -/
example : ∃ cs first rest l, trajectories sample 0 cs = first :: rest ∧ Gives runStepper (first :: rest) l [] ∧
    ∃ n xs q, after (tracking runStepper) alternate (Tracking.start first (rest.map .command)) n = .ok (xs, q) ∧ q.place = .done ∧ Stutter xs l ∧
      ∃ k, Stutter xs (l.take k) := by
  obtain ⟨r, hr, hp⟩ := sample_plan
  obtain ⟨cs, a1, -⟩ := C92_commands four (listQueueLaws _ _) (fun p hp => ((C84_default_costs four).1 p hp).1)
    (fun p q hp hq => ((C84_default_costs four).2.1 p q hp hq).1) (by decide) (by decide) hr
  have hl : cs.length = 2 := by have := a1.1; rw [hp] at this; simpa using this
  obtain ⟨l, q', v', d1, d2, -⟩ := C98_targets sample_ok four a1 (start := ⟨0, 0, .north⟩) (goal := ⟨2, 6, .east⟩)
    (by rw [hp]; rfl) (by rw [hp]; rfl) (by decide) (by rintro rfl; cases hl)
  cases cs with
  | nil => cases hl
  | cons c1 cs =>
    generalize ht : trajectories sample 0 (c1 :: cs) = ts at *
    cases ts with
    | nil => rw [trajectories] at ht; cases ht
    | cons first rest =>
      obtain ⟨y, l', ho⟩ := d2 first (List.mem_cons_self ..)
      obtain ⟨f1, f2, f3⟩ := alternate_fair (answers := rest.map .command) (step := runStepper) (s := first) (by
        cases ho with
        | more _ _ _ _ _ e => rw [e]; simp)
      obtain ⟨-, n, xs, q, e1, e2, e3⟩ := C98_completes d1 d2 f1 f2 f3
      exact ⟨_, first, rest, l, ht, d1, n, xs, q, e1, e2, e3, C98_any_time d1 e1⟩

end Verif.Props
