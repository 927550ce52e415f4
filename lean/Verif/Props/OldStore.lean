import Verif.Spec.OldStore
import Verif.Props.OldLife
import Verif.Props.OldConfig
/-!
# C112: what the former operators hand on
-/
namespace Verif.Props
open Verif Verif.Spec Verif.Old Verif.Old.Store Verif.Old.Robot Verif.Old.Detect Verif.Old.Life
open Verif.Convert (Converter Dir)

variable {K : Kit} {C : Life.Config} {A : Arith} {pi : ℝ} {c : Old.Store.Settings}

/-- From peripherals that are all there a robot can be made, whatever the settings. -/
theorem robot_construct (s : Old.Store.State) (r : Resource K) : ∃ rob rest, RobotPart.construct A pi c s (.of r) = .ok (rob, rest) ∧ Afresh A pi c s.robotState rob ∧
    ∀ com, Owns ⟨com, r.wallManager, rob⟩ r := by
  refine ⟨_, _, rfl, ?_, fun _ => ⟨rfl, rfl, rfl, rfl, rfl, rfl, rfl, rfl⟩⟩
  exact ⟨rfl, rfl, rfl, rfl, rfl, rfl, rfl, rfl, rfl, ⟨rfl, rfl, rfl, rfl⟩, rfl, rfl, rfl, fun _ => rfl, rfl⟩

/-- **C112, configuration.** A robot that is made with a configuration that a builder returned has, in every part, the values that were set last (or the defaults); only the standard deviation that was
set is lost, its place is zero. All peripherals are taken out of the container: a second robot, or any part of one, cannot be made from it. -/
theorem C112_configured (h : List BuilderCall) (cfg : ∀ f : Old.Config.Field, f.type) (hb : (builderAfter h).build.1 = .ok cfg) (s : Old.Store.State) (r : Resource K) :
    ∃ rob rest, RobotPart.construct A pi (.of cfg) s (.of r) = .ok (rob, rest) ∧ Appointed A pi h rob ∧ rob.estimator.inner.devDelta = 0 ∧
      (∀ c s, EstimatorPart.construct A pi c s rest = .error .unreachable) ∧ (∀ c, TrackerPart.construct c rest = .error .unwrapNone) ∧
      ∀ c, DetectorPart.construct c rest = .error .unreachable := by
  have hall : ∀ f, Demanded f → (counts h f).isSome := by
    by_contra hn
    push Not at hn
    obtain ⟨f, hf, hlt⟩ : ∃ f : Old.Config.Field, (Demanded f ∧ ¬ (counts h f).isSome) ∧ ∀ g : Old.Config.Field, g.ctorIdx < f.ctorIdx → ¬ (Demanded g ∧ ¬ (counts h g).isSome) := by
      have hw : ∃ n, ∃ f : Old.Config.Field, f.ctorIdx = n ∧ Demanded f ∧ ¬ (counts h f).isSome := by
        obtain ⟨f, h1, h2⟩ := hn
        exact ⟨_, f, rfl, h1, by simpa using h2⟩
      classical
      obtain ⟨f, h1, h2⟩ := Nat.find_spec hw
      exact ⟨f, h2, fun g hg hg' => Nat.find_min hw (h1 ▸ hg) ⟨g, rfl, hg'⟩⟩
    have := (C111_build h).1 f hf.1 (by simpa using hf.2) fun g hg hl => by
      by_contra hc
      exact hlt g hl ⟨hg, hc⟩
    rw [hb] at this
    cases this
  obtain ⟨cfg', h1, h2⟩ := (C111_build h).2 hall
  rw [hb] at h1
  cases h1
  have h2 : ∀ f, settled h f = some (cfg f) := fun f => (h2 f).symm
  exact ⟨_, _, rfl, ⟨⟨h2 _, h2 _, h2 _, h2 _⟩, h2 _, h2 _, h2 _, h2 _, h2 _, ⟨_, h2 _, rfl⟩, h2 _, h2 _, h2 _, h2 _, h2 _, ⟨_, _, _, _, h2 _, h2 _, h2 _, h2 _, rfl⟩⟩, rfl, fun _ _ => rfl, fun _ => rfl, fun _ => rfl⟩

theorem construct_split (b : Belief) (a : Agent) (n : Run.Node) (mode : Mode) : Life.construct C b a n mode =
    match commander C b n mode with
    | .error p => .error p
    | .ok none => .ok none
    | .ok (some com) =>
      match Operator.new C b a com with
      | .error p => .error p
      | .ok x => .ok (some x) := by
  cases mode with
  | idle => rfl
  | search k => simp only [Life.construct, commander, bind, Except.bind, pure, Except.pure]; split <;> rename_i h <;> rw [h]
  | returnSetup k =>
    simp only [Life.construct, commander, bind, Except.bind, pure, Except.pure]
    cases FastRun.SetupCommander.new (C.solveReturn b) n with
    | error p => rfl
    | ok x => simp only []; split <;> rename_i h <;> rw [h]
  | ret k =>
    simp only [Life.construct, commander, bind, Except.bind, pure, Except.pure]
    cases FastRun.RunCommander.new (C.solveReturn b) n with
    | error p => rfl
    | ok x => simp only []; split <;> rename_i h <;> rw [h]
  | runSetup k =>
    simp only [Life.construct, commander, bind, Except.bind, pure, Except.pure]
    cases FastRun.SetupCommander.new (C.solveGoal b) n with
    | error p => rfl
    | ok x => simp only []; split <;> rename_i h <;> rw [h]
  | run k =>
    simp only [Life.construct, commander, bind, Except.bind, pure, Except.pure]
    cases FastRun.RunCommander.new (C.solveGoal b) n with
    | error p => rfl
    | ok x => simp only []; split <;> rename_i h <;> rw [h]

/-- The construction with a robot is the one without, and a new robot. -/
theorem construct_eq (believe : Nat → Belief) (a : Agent) (s : Old.Store.State) (r : Resource K) (mode : Mode) :
    match Life.construct C (believe r.wallManager) a s.currentNode mode with
    | .error p => Store.construct C A pi c believe a s (.of r) mode = .error p
    | .ok none => Store.construct C A pi c believe a s (.of r) mode = .ok none
    | .ok (some (cmd, com)) => ∃ op, Store.construct C A pi c believe a s (.of r) mode = .ok (some (cmd, op)) ∧ op.commander = com ∧ Owns op r ∧ Afresh A pi c s.robotState op.robot := by
  obtain ⟨rob, rest, h1, h2, h3⟩ := robot_construct (A := A) (pi := pi) (c := c) s r
  rw [construct_split]
  unfold Store.construct
  rw [show (Container.of r).wallManager = r.wallManager from rfl]
  cases commander C (believe r.wallManager) s.currentNode mode with
  | error p => rfl
  | ok o =>
    cases o with
    | none => rfl
    | some com =>
      simp only [bind, Except.bind, pure, Except.pure, h1]
      cases Operator.new C (believe r.wallManager) a com with
      | error p => rfl
      | ok x => exact ⟨⟨x.2, r.wallManager, rob⟩, rfl, rfl, h3 _, h2⟩

/-- **C112, exchange.** An operator is exchanged as it would be without a robot, on what its own memory says: the same panics, the same refusal, the same first command and the same commander.
No `expect` fails that is documented never to. The new operator has exactly the peripherals of the old one, and the same memory; its robot is new but for the estimated state, which is that of the old one. -/
theorem C112_exchange (believe : Nat → Belief) (a : Agent) {op : Old.Store.Operator K} {r : Resource K} (ho : Owns op r) (mode : Mode) :
    match Life.exchange C (believe r.wallManager) a op.commander mode with
    | .error p => Store.exchange C A pi c believe a op mode = .error p
    | .ok none => Store.exchange C A pi c believe a op mode = .ok none
    | .ok (some (cmd, com)) => ∃ op', Store.exchange C A pi c believe a op mode = .ok (some (cmd, op')) ∧ op'.commander = com ∧ Owns op' r ∧
        Afresh A pi c op.robot.estimator.inner.state op'.robot := by
  obtain ⟨com, maze, ⟨⟨e, le, re, imu⟩, ⟨k, lm, rm⟩, ⟨man, ds, past, conv⟩⟩⟩ := op
  obtain ⟨a1, a2, a3, a4, a5, a6, a7, a8⟩ := ho
  simp only at a1 a2 a3 a4 a5 a6 a7 a8
  subst a1 a2 a3 a4 a5 a6 a7
  unfold Life.exchange
  cases hn : RunNode.ofNode com.current with
  | none =>
    simp only [Store.exchange, Store.Operator.deconstruct, RobotPart.deconstruct, StateBuilder.build, StateBuilder.merge, StateBuilder.ofCommander, StateBuilder.ofEstimator, Option.none_or, Option.some_or, hn, expect]
    rfl
  | some n =>
    have h := construct_eq (C := C) (A := A) (pi := pi) (c := c) believe a ⟨n, e.state⟩ r mode
    have he : Store.exchange C A pi c believe a ⟨com, r.wallManager, ⟨⟨e, r.leftEncoder, r.rightEncoder, r.imu⟩, ⟨k, r.leftMotor, r.rightMotor⟩, ⟨man, r.distanceSensors, past, conv⟩⟩⟩ mode =
        Store.construct C A pi c believe a ⟨n, e.state⟩ (.of r) mode := by
      simp only [Store.exchange, Store.Operator.deconstruct, RobotPart.deconstruct, StateBuilder.build, StateBuilder.merge, StateBuilder.ofCommander, StateBuilder.ofEstimator, Option.none_or, Option.some_or, hn, expect]
      rfl
    rw [he]
    exact h

/-- **C112, run.** The whole administrator does what it does without a robot (`robotless`), on what the memory of its operator says: it panics where that does, and otherwise has the same result and the
same commands and the modes, requests and commanders agree. The memories do not change. The motors are stopped exactly when the operator is exchanged. -/
theorem C112_run (e : Old.Store.Moment) {s : Machine K} {r : Resource K} (ho : ∀ op, s.operator = some op → Owns op r) :
    match Admin.run C (momentOf C A e s) (robotless s) with
    | .error p => s.run C A pi c e = .error p
    | .ok (res, cs, adm) => ∃ es s', s.run C A pi c e = .ok (res, cs, es, s') ∧ robotless s' = adm ∧ s'.store = s.store ∧ (∀ op', s'.operator = some op' → Owns op' r) ∧
        ∀ op, s.operator = some op →
          -- no exchange
          (es = [] ∧ s'.mode = s.mode ∧ ∃ com, s'.operator = some { op with commander := com }) ∨
          -- exchange
          (es = [.left (.fin 0), .right (.fin 0)] ∧ (s.select = true ∧ s'.mode = e.selected ∨ s.select = false ∧ s'.mode = s.mode.successor) ∧
            ∀ op', s'.operator = some op' → Afresh A pi c op.robot.estimator.inner.state op'.robot) := by
  obtain ⟨o, mode, sel, on, store⟩ := s
  cases o with
  | none => cases sel <;> rfl
  | some op =>
    have hO := ho op rfl
    clear ho
    have ho := hO
    clear hO
    have hb : ∀ sel, momentOf C A e (⟨some op, mode, sel, on, store⟩ : Machine K) = ⟨Manager.belief A C.search.W e.locked (store r.wallManager), e.agent, e.newAgent, e.selected⟩ := by
      intro sel; unfold momentOf mazeSays; rw [← ho.maze]
    rw [hb]
    have hx : ∀ com m, match Life.exchange C (Manager.belief A C.search.W e.locked (store r.wallManager)) e.newAgent com m with
        | .error p => Store.exchange C A pi c (fun p => Manager.belief A C.search.W e.locked (store p)) e.newAgent { op with commander := com } m = .error p
        | .ok none => Store.exchange C A pi c (fun p => Manager.belief A C.search.W e.locked (store p)) e.newAgent { op with commander := com } m = .ok none
        | .ok (some (cmd, com')) => ∃ op', Store.exchange C A pi c (fun p => Manager.belief A C.search.W e.locked (store p)) e.newAgent { op with commander := com } m = .ok (some (cmd, op')) ∧
            op'.commander = com' ∧ Owns op' r ∧ Afresh A pi c op.robot.estimator.inner.state op'.robot := by
      intro com m
      exact C112_exchange (C := C) (A := A) (pi := pi) (c := c) (fun p => Manager.belief A C.search.W e.locked (store p)) e.newAgent (op := { op with commander := com }) (r := r)
        ⟨ho.1, ho.2, ho.3, ho.4, ho.5, ho.6, ho.7, ho.8⟩ m
    cases sel with
    | true =>
      have hx := hx op.commander e.selected
      simp only [Admin.run, robotless, Option.map_some, if_true, Admin.exchangeOperator, Machine.run, Machine.exchangeOperator, bind, Except.bind, pure, Except.pure]
      cases he : Life.exchange C (Manager.belief A C.search.W e.locked (store r.wallManager)) e.newAgent op.commander e.selected with
      | error p => rw [he] at hx; simp only at hx ⊢; rw [hx]
      | ok x =>
        rw [he] at hx
        cases x with
        | none =>
          simp only at hx ⊢
          rw [hx]
          exact ⟨_, _, rfl, rfl, rfl, fun _ h => (nomatch h), fun _ h => .inr ⟨rfl, by simp, fun _ h => (nomatch h)⟩⟩
        | some x =>
          obtain ⟨cmd, com'⟩ := x
          obtain ⟨op', h1, h2, h3, h4⟩ := hx
          simp only
          rw [h1]
          refine ⟨_, _, rfl, by simp [h2], rfl, fun _ h => by cases h; exact h3, fun _ h => .inr ⟨rfl, by simp, fun _ h' => by cases h; cases h'; exact h4⟩⟩
    | false =>
      simp only [Admin.run, robotless, Option.map_some, Bool.false_eq_true, if_false, Machine.run, bind, Except.bind, pure, Except.pure]
      rw [show store op.maze = store r.wallManager by rw [ho.maze]]
      cases hst : op.commander.step C (Manager.belief A C.search.W e.locked (store r.wallManager)) e.agent with
      | error p => rfl
      | ok x =>
        obtain ⟨out, cs, com⟩ := x
        cases out with
        | incompleted =>
          exact ⟨_, _, rfl, rfl, rfl, fun _ h => by cases h; exact ⟨ho.1, ho.2, ho.3, ho.4, ho.5, ho.6, ho.7, ho.8⟩, fun _ h => .inl ⟨rfl, rfl, com, by cases h; rfl⟩⟩
        | failed =>
          exact ⟨_, _, rfl, rfl, rfl, fun _ h => by cases h; exact ⟨ho.1, ho.2, ho.3, ho.4, ho.5, ho.6, ho.7, ho.8⟩, fun _ h => .inl ⟨rfl, rfl, com, by cases h; rfl⟩⟩
        | done =>
          have hx := hx com mode.successor
          simp only [Admin.exchangeOperator, Machine.exchangeOperator, bind, Except.bind, pure, Except.pure]
          cases he : Life.exchange C (Manager.belief A C.search.W e.locked (store r.wallManager)) e.newAgent com mode.successor with
          | error p => rw [he] at hx; simp only at hx ⊢; rw [hx]
          | ok x =>
            rw [he] at hx
            cases x with
            | none =>
              simp only at hx ⊢
              rw [hx]
              exact ⟨_, _, rfl, rfl, rfl, fun _ h => (nomatch h), fun _ h => .inr ⟨rfl, by simp, fun _ h => (nomatch h)⟩⟩
            | some x =>
              obtain ⟨cmd, com'⟩ := x
              obtain ⟨op', h1, h2, h3, h4⟩ := hx
              simp only
              rw [h1]
              refine ⟨_, _, rfl, by simp [h2], rfl, fun _ h => by cases h; exact h3, fun _ h => .inr ⟨rfl, by simp, fun _ h' => by cases h; cases h'; exact h4⟩⟩

/-- **C112, interrupts.** An interrupt is one of the administrator without its robot, where the operator succeeds if its robot does. It does not change who owns what, and changes only the memory
that the operator owns, if any. If there is no operator, or a mode is to be selected, it does nothing to the robot. -/
theorem C112_tick {sort : List (Dir × F) → List (Dir × F)} {t : Tick} {enabled ok : Bool} {s s' : Machine K} {es : List Effect} {r : Resource K}
    (ho : ∀ op, s.operator = some op → Owns op r) (h : s.tick C A pi sort t enabled = .ok (ok, es, s')) :
    (robotless s).tick enabled ok = (ok, robotless s') ∧ (∀ op, s'.operator = some op → Owns op r) ∧ (∀ p, p ≠ r.wallManager → s'.store p = s.store p) ∧
    (∀ op, s.operator = some op → ∃ op', s'.operator = some op' ∧ op'.commander = op.commander) ∧
    (s.operator = none ∨ s.select = true → es = [] ∧ s'.operator = s.operator ∧ s'.store = s.store) := by
  obtain ⟨o, mode, sel, on, store⟩ := s
  cases sel with
  | true =>
    cases h
    exact ⟨rfl, ho, fun _ _ => rfl, fun op h => ⟨op, h, rfl⟩, fun _ => ⟨rfl, rfl, rfl⟩⟩
  | false =>
    cases o with
    | none =>
      cases h
      exact ⟨by simp [robotless, Admin.tick], ho, fun _ _ => rfl, fun op h => ⟨op, h, rfl⟩, fun _ => ⟨rfl, rfl, rfl⟩⟩
    | some op =>
      have ho := ho op rfl
      simp only [Machine.tick, Bool.false_eq_true, if_false, bind, Except.bind, pure, Except.pure, RobotPart.trackAndUpdate] at h
      cases ht : Robot.trackAndUpdate A pi (convertF op.robot.detector.converter C.search.W sort) C.search.W
          ⟨op.robot.estimator.inner, op.robot.tracker.inner, ⟨op.robot.detector.past, store op.robot.detector.manager⟩⟩ t with
      | error p => rw [ht] at h; cases h
      | ok x =>
        obtain ⟨rob, eff, res⟩ := x
        rw [ht] at h
        cases res with
        | error f =>
          cases h
          refine ⟨by simp [robotless, Admin.tick], fun _ h => by cases h; exact ⟨ho.1, ho.2, ho.3, ho.4, ho.5, ho.6, ho.7, ho.8⟩, fun p hp => ?_, fun _ h => by cases h; exact ⟨_, rfl, rfl⟩, fun h => by simp at h⟩
          exact if_neg (by rw [ho.manager]; exact hp)
        | ok u =>
          cases h
          refine ⟨by simp [robotless, Admin.tick], fun _ h => by cases h; exact ⟨ho.1, ho.2, ho.3, ho.4, ho.5, ho.6, ho.7, ho.8⟩, fun p hp => ?_, fun _ h => by cases h; exact ⟨_, rfl, rfl⟩, fun h => by simp at h⟩
          exact if_neg (by rw [ho.manager]; exact hp)

/-- **C112, report.** An interrupt of an operator is one call of its robot, with the memory it owns, unless a mode is to be selected: it panics if the robot does, does to the motors what the robot
does, fails exactly if the robot reports too high a voltage, and looks for a request of a mode exactly if it does not fail. -/
theorem C112_report {sort : List (Dir × F) → List (Dir × F)} {t : Tick} {enabled : Bool} {s : Machine K} {op : Old.Store.Operator K} (hs : s.select = false) (ho : s.operator = some op) :
    match follow A pi (convertF op.robot.detector.converter C.search.W sort) C.search.W [t]
      ⟨op.robot.estimator.inner, op.robot.tracker.inner, ⟨op.robot.detector.past, s.store op.robot.detector.manager⟩⟩ with
    | .error p => s.tick C A pi sort t enabled = .error p
    | .ok (rob, deeds) => ∃ es result ok s' op', deeds = [(es, result)] ∧ s.tick C A pi sort t enabled = .ok (ok, es, s') ∧
      (ok = true ↔ result = .ok ()) ∧ s'.select = (ok && enabled) ∧ s'.operator = some op' ∧
      op'.robot.estimator.inner = rob.estimator ∧ op'.robot.tracker.inner = rob.tracker ∧ op'.robot.detector.past = rob.detector.past ∧
      s'.store op.robot.detector.manager = rob.detector.memory := by
  obtain ⟨o, mode, sel, on, store⟩ := s
  cases hs
  cases ho
  simp only [follow, Machine.tick, Bool.false_eq_true, if_false, bind, Except.bind, pure, Except.pure, RobotPart.trackAndUpdate]
  cases ht : Robot.trackAndUpdate A pi (convertF op.robot.detector.converter C.search.W sort) C.search.W
      ⟨op.robot.estimator.inner, op.robot.tracker.inner, ⟨op.robot.detector.past, store op.robot.detector.manager⟩⟩ t with
  | error p => rfl
  | ok x =>
    obtain ⟨rob, eff, res⟩ := x
    cases res with
    | error f => exact ⟨eff, .error f, false, _, _, rfl, rfl, by simp, rfl, rfl, rfl, rfl, rfl, if_pos rfl⟩
    | ok u => exact ⟨eff, .ok (), true, _, _, rfl, rfl, by simp, by simp, rfl, rfl, rfl, rfl, if_pos rfl⟩

/-- **C112, life.** However the administrator is run and interrupted, and whatever the sensors answer: as long as there is an operator, it has exactly the peripherals with which the first one was
made, its maze and its detector use the memory that was given with them, and no other memory has changed. -/
theorem C112_life {sort : List (Dir × F) → List (Dir × F)} {r : Resource K} {memory : Nat → Manager.Manager} {s : Machine K} (h : Works C A pi c sort r memory s) :
    (∀ op, s.operator = some op → Owns op r) ∧ ∀ p, p ≠ r.wallManager → s.store p = memory p := by
  induction h with
  | start believe a s mode cmd op on h =>
    refine ⟨fun _ ho => ?_, fun _ _ => rfl⟩
    cases ho
    have := construct_eq (C := C) (A := A) (pi := pi) (c := c) believe a s r mode
    rw [h] at this
    split at this
    · cases this
    · cases this
    · obtain ⟨op', h1, -, h2, -⟩ := this
      cases h1
      exact h2
  | run e s s' res cs es _ h ih =>
    have := C112_run (C := C) (A := A) (pi := pi) (c := c) e ih.1
    rw [h] at this
    split at this
    · cases this
    · obtain ⟨es', s'', h1, -, h2, h3, -⟩ := this
      cases h1
      exact ⟨h3, fun p hp => by rw [h2]; exact ih.2 p hp⟩
  | tick t enabled ok s s' es _ h ih =>
    obtain ⟨-, h1, h2, -⟩ := C112_tick ih.1 h
    exact ⟨h1, fun p hp => (h2 p hp).trans (ih.2 p hp)⟩

/-- **C112, builders.** Peripherals can be put together exactly if none is missing, and otherwise the first missing one is named; a state can be put together exactly if there is a node at which a run may
start or end and a state of the robot. -/
theorem C112_build (b : ResourceBuilder K) (n : StateBuilder) :
    (∀ name, [if b.leftEncoder.isSome then none else some "left_encoder", if b.rightEncoder.isSome then none else some "right_encoder",
        if b.leftMotor.isSome then none else some "left_motor", if b.rightMotor.isSome then none else some "right_motor", if b.imu.isSome then none else some "imu",
        if b.distanceSensors.isSome then none else some "distance_sensors", if b.wallManager.isSome then none else some "wall_manager"].findSome? id = some name →
      b.build = .error name) ∧
    (∀ r : Resource K, b.build = .ok r ↔ b = ⟨some r.leftEncoder, some r.rightEncoder, some r.imu, some r.leftMotor, some r.rightMotor, some r.distanceSensors, some r.wallManager⟩) ∧
    (∀ s, n.build = .ok s ↔ ∃ m, n = ⟨some m, some s.robotState⟩ ∧ RunNode.ofNode m = some s.currentNode) := by
  obtain ⟨le, re, imu, lm, rm, ds, wm⟩ := b
  obtain ⟨node, st⟩ := n
  refine ⟨fun name h => ?_, fun r => ?_, fun s => ?_⟩
  · cases le <;> cases re <;> cases lm <;> cases rm <;> cases imu <;> cases ds <;> cases wm <;> simp_all [ResourceBuilder.build, okOr, bind, Except.bind]
  · obtain ⟨a1, a2, a3, a4, a5, a6, a7⟩ := r
    cases le <;> cases re <;> cases lm <;> cases rm <;> cases imu <;> cases ds <;> cases wm <;> simp [ResourceBuilder.build, okOr, bind, Except.bind, pure, Except.pure]
  · obtain ⟨m, rs⟩ := s
    cases node with
    | none => simp [StateBuilder.build]
    | some n =>
      cases hn : RunNode.ofNode n with
      | none => cases st <;> simp [StateBuilder.build, hn]
      | some k => cases st <;> simp [StateBuilder.build, hn, and_comm]

/-! ## Cases -/

/-- Peripherals that are numbered. -/
def numbered : Kit := ⟨Nat, Nat, Nat, Nat, Nat, Nat⟩

def numberedParts : Resource numbered := ⟨(1 : Nat), (2 : Nat), (3 : Nat), (4 : Nat), (5 : Nat), [(6 : Nat), (7 : Nat)], 8⟩

/-- Sensible settings, and those of a half size maze. -/
noncomputable def demoSettings : Old.Store.Settings :=
  { period := 1 / 1000, trans := ⟨1, 1, 1, 1, 1⟩, rot := ⟨1, 1, 1, 1, 1⟩, failSafe := 3, cutOff := 50, slipConst := 100, approxTh := 1 / 10, devDelta := 0, gain := 40, dgain := 4,
    lowerBound := 3 / 100, lowZeta := 1, lowB := 1 / 1000, squareWidth := 9 / 100, wallWidth := 6 / 1000, ignoreRadius := 1 / 100, ignoreLength := 8 / 1000 }

/-- A machine with numbered peripherals after a search: the operator for the return has the same ones. -/
example (e : Old.Robot.Estimator) (k : Old.Robot.Tracker) (past : Nat → Option FPose) (conv : Converter) : ∃ cmd op',
    Store.exchange smallLife exact 3 demoSettings (fun _ => knowing (walled twoWalls) allWalls) ⟨some false, some true, true⟩
      (⟨.search ⟨⟨0, 4, .north⟩, .final, []⟩, 8, ⟨⟨e, (1 : Nat), (2 : Nat), (3 : Nat)⟩, ⟨k, (4 : Nat), (5 : Nat)⟩, ⟨8, [(6 : Nat), (7 : Nat)], past, conv⟩⟩⟩ : Old.Store.Operator numbered)
      (.returnSetup 1) = .ok (some (cmd, op')) ∧ Owns op' numberedParts ∧ op'.robot.estimator.inner.state = e.state := by
  have h := C112_exchange (C := smallLife) (A := exact) (pi := 3) (c := demoSettings) (fun _ => knowing (walled twoWalls) allWalls) ⟨some false, some true, true⟩
    (op := (⟨.search ⟨⟨0, 4, .north⟩, .final, []⟩, 8, ⟨⟨e, (1 : Nat), (2 : Nat), (3 : Nat)⟩, ⟨k, (4 : Nat), (5 : Nat)⟩, ⟨8, [(6 : Nat), (7 : Nat)], past, conv⟩⟩⟩ : Old.Store.Operator numbered))
    (r := numberedParts) ⟨rfl, rfl, rfl, rfl, rfl, rfl, rfl, rfl⟩ (.returnSetup 1)
  have hk : (match Life.exchange smallLife (knowing (walled twoWalls) allWalls) ⟨some false, some true, true⟩ (.search ⟨⟨0, 4, .north⟩, .final, []⟩) (.returnSetup 1) with
      | .ok (some _) => true | _ => false) = true := by decide +kernel
  simp only at h hk
  split at h
  · rename_i p hp; rw [hp] at hk; cases hk
  · rename_i hp; rw [hp] at hk; cases hk
  · obtain ⟨op', h1, -, h2, h3⟩ := h
    exact ⟨_, op', h1, h2, h3.state⟩

/-- A sensor that fails makes the interrupt of this machine panic, as it does the robot. -/
example (e : Old.Robot.Estimator) (k : Old.Robot.Tracker) (past : Nat → Option FPose) (conv : Converter) (sort : List (Dir × F) → List (Dir × F)) (target : Control.Target) (st : Nat → Manager.Manager) :
    (⟨some ⟨.search ⟨⟨0, 4, .north⟩, .final, []⟩, 8, ⟨⟨e, (1 : Nat), (2 : Nat), (3 : Nat)⟩, ⟨k, (4 : Nat), (5 : Nat)⟩, ⟨8, [(6 : Nat), (7 : Nat)], past, conv⟩⟩⟩, .idle, false, true, st⟩ :
      Machine numbered).tick smallLife exact 3 sort ⟨⟨.fails, .never, .never, .never⟩, target, []⟩ true = .error .unwrapNone := by
  have h := C112_report (K := numbered) (C := smallLife) (A := exact) (pi := 3) (sort := sort) (t := ⟨⟨.fails, .never, .never, .never⟩, target, []⟩) (enabled := true)
    (s := ⟨some ⟨.search ⟨⟨0, 4, .north⟩, .final, []⟩, 8, ⟨⟨e, (1 : Nat), (2 : Nat), (3 : Nat)⟩, ⟨k, (4 : Nat), (5 : Nat)⟩, ⟨8, [(6 : Nat), (7 : Nat)], past, conv⟩⟩⟩, .idle, false, true, st⟩) rfl rfl
  exact h

/-- Without motors and sensors of the distance the left motor is named; the order of the names is that of `build`. -/
example : (⟨some (1 : Nat), some (2 : Nat), some (3 : Nat), none, none, none, some 8⟩ : ResourceBuilder numbered).build = .error "left_motor" := rfl

end Verif.Props
