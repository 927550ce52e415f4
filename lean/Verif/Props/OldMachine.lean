import Verif.Props.OldStore
import Verif.Props.OldLife
import Verif.Props.OldRobot
import Verif.Props.OldConvert
/-!
# C113: the life of the former machine, with its robot and its memory
-/
namespace Verif.Props
open Verif Verif.Spec Verif.Old Verif.Old.Store Verif.Old.Robot Verif.Old.Detect Verif.Old.Life Verif.Proof.OldM Verif.Proof.OldE
open Verif.Detect (Pose)
open Verif.Convert (Converter Dir)

variable {K : Kit} {C : Life.Config} {pi : ℝ} {c : Old.Store.Settings} {sort : List (Dir × F) → List (Dir × F)} {t : F} {real : Old.Wall → Bool}
  {see : Pose → Option Seen} {count : Nat} {r : Resource K} {s s' : Machine K} {cs new : List Command} {cost : Old.Pattern → Nat} {goal0 : Run.Node} {rest : List Run.Node}

/-- What is kept of the robot of an operator. -/
structure Sound (c : Old.Store.Settings) (real : Old.Wall → Bool) (W : Nat) (r : Resource K) (memory : Nat → Manager.Manager) (op : Old.Store.Operator K) : Prop where
  owns : Owns op r
  converter : op.robot.detector.converter = .new c.squareWidth c.wallWidth c.ignoreRadius c.ignoreLength
  knows : ∃ α v b s sx sy, Knows op.robot.estimator.inner α v b s sx sy
  delta : op.robot.estimator.inner.devDelta = 0
  remembers : ∃ g, Remembers W ⟨op.robot.detector.past, memory r.wallManager⟩ g ∧ Sided W real g

structure MachineInv (C : Life.Config) (c : Old.Store.Settings) (t : F) (real : Old.Wall → Bool) (count : Nat) (r : Resource K) (s : Machine K) (cs : List Command) : Prop where
  select : s.select = false
  lives : ∃ b, Lives C real count b (robotless s) cs ∧ Learns b (Manager.belief exact C.search.W (held C.search.W []) (s.store r.wallManager))
  right : Right exact C.search.W real (s.store r.wallManager)
  threshold : (s.store r.wallManager).threshold = t
  sound : ∀ op, s.operator = some op → Sound c real C.search.W r s.store op

/-- A robot that has just been made with a state of numbers. -/
theorem afresh_knows {op : Old.Store.Operator K} (E : Equipped C pi c sort t real see) {s : Control.State} {sx sy : ℝ} (ha : Afresh exact pi c (robotAt s sx sy) op.robot) :
    Knows op.robot.estimator.inner (1 / (2 * pi * (c.period * c.cutOff) + 1)) 0 0 s sx sy := by
  refine ⟨by rw [ha.estimatorPeriod]; exact E.settings.period, by rw [ha.slipConst]; exact E.settings.slipConst, by rw [ha.approx]; exact E.settings.approx, ?_, ha.speed, ha.slip, ha.state⟩
  have h1 := E.settings.period
  have h2 := E.settings.cutOff
  have h3 := E.pi
  have : (2 * pi * (c.period * c.cutOff) + 1) ≠ 0 := by positivity
  rw [ha.weight, Proof.OldV.exact_mul, Proof.OldV.exact_mul, Proof.OldV.exact_mul, Proof.OldV.exact_add, Proof.OldV.exact_div this]

theorem afresh_sound {op : Old.Store.Operator K} {memory : Nat → Manager.Manager} {g : Guess} {W : Nat} (E : Equipped C pi c sort t real see) (ho : Owns op r) {s : Control.State} {sx sy : ℝ}
    (ha : Afresh exact pi c (robotAt s sx sy) op.robot) (hg : Recalls W (memory r.wallManager) fun w => .fin (g.prob w)) (hs : Sided W real g) :
    Sound c real W r memory op :=
  ⟨ho, ha.converter, ⟨_, 0, 0, s, sx, sy, afresh_knows E ha⟩, ha.deviation, ⟨fun _ => none, g.prob, 0, 0, 0⟩,
    ⟨hg, fun i _ => by rw [show (⟨op.robot.detector.past, memory r.wallManager⟩ : Detector).past i = _ from ha.past i]; rfl⟩, hs⟩

theorem kept (W : Nat) (hW : Supported W) (b : Belief) : Kept W t real fun m => m.threshold = t ∧ Right exact W real m ∧ Learns b (Manager.belief exact W (held W []) m) := by
  rintro m m' ws w p ⟨h1, h2, h3⟩ h4 h5 h6 h7
  obtain ⟨k1, k2, k3⟩ := sense_right hW h4 h7 h2 (by rw [h1]; exact h6)
  exact ⟨k1.trans h1, k2, fun w hw => k3 w (h3 w hw)⟩

/-- An interrupt with an operator. -/
theorem tick_sound (hW : Supported C.search.W) (E : Equipped C pi c sort t real see) {op : Old.Store.Operator K} (hsel : s.select = false) (hop : s.operator = some op)
    (hS : Sound c real C.search.W r s.store op) {q : Round} (hq : q.Fair C.search.W) :
    ∃ ok es s', s.tick C exact pi sort (q.tick C.search.W) false = .ok (ok, es, s') ∧ (Honest real see C.search.W op s.store q → ∀ b, (s.store r.wallManager).threshold = t →
      Right exact C.search.W real (s.store r.wallManager) → Learns b (Manager.belief exact C.search.W (held C.search.W []) (s.store r.wallManager)) →
      (s'.store r.wallManager).threshold = t ∧ Right exact C.search.W real (s'.store r.wallManager) ∧
      Learns b (Manager.belief exact C.search.W (held C.search.W []) (s'.store r.wallManager)) ∧ ∀ op', s'.operator = some op' → Sound c real C.search.W r s'.store op') := by
  obtain ⟨o, mode, sel, on, store⟩ := s
  cases hsel
  cases hop
  obtain ⟨ho, hc, ⟨α, v, b, s, sx, sy, hk⟩, hδ, g, hg, hsd⟩ := hS
  obtain ⟨e1, v1, b1, s1, k1, deed, hp, hkt, hk1, -, -, -, e2, d2, g2, s2, sx2, sy2, hr, hk2, hδ2, -, hd2, hc2, -, -, -, hdet, hfail⟩ :=
    tick_eq hW E.sees pi hk hδ op.robot.tracker.inner hg hsd.chances hq
  obtain ⟨eff, res⟩ := deed
  have hman : store op.robot.detector.manager = store r.wallManager := by rw [ho.manager]
  simp only at hr hg
  rw [← hc, ← hman] at hr
  have key : ∀ res', res' = res → ∃ ok, Machine.tick C exact pi sort (q.tick C.search.W) false ⟨some op, mode, false, on, store⟩ = .ok (ok, eff,
      ⟨some { op with robot := ⟨{ op.robot.estimator with inner := e2 }, { op.robot.tracker with inner := k1 }, { op.robot.detector with past := d2.past }⟩ }, mode, false, on,
        fun p => if p = op.robot.detector.manager then d2.memory else store p⟩) := by
    intro res' hres
    simp only [Machine.tick, Bool.false_eq_true, if_false, bind, Except.bind, pure, Except.pure, RobotPart.trackAndUpdate, hr]
    subst hres
    cases res' with
    | error f => exact ⟨_, rfl⟩
    | ok u => exact ⟨_, rfl⟩
  obtain ⟨ok, key⟩ := key res rfl
  refine ⟨_, _, _, key, fun hh b0 ht hR hL => ?_⟩
  have hst : (if r.wallManager = op.robot.detector.manager then d2.memory else store r.wallManager) = d2.memory := if_pos ho.manager.symm
  simp only [hst]
  have hd : d2.memory.threshold = t ∧ Right exact C.search.W real d2.memory ∧ Learns b0 (Manager.belief exact C.search.W (held C.search.W []) d2.memory) ∧
      ∀ g, Remembers C.search.W d2 g → Sided C.search.W real g := by
    cases res with
    | error f =>
      have := hfail f rfl
      subst this
      exact ⟨ht, hR, hL, fun g' hg' w hw => by
        have := hsd w hw
        rw [remembers_prob hW hg hg' hw] at this
        exact this⟩
    | ok u =>
      obtain ⟨s', hdet⟩ := hdet rfl
      have htr := hh e1 (stands s1) sx sy g hp (by rw [hk1.state]; rfl) (by simp only; rw [hman]; exact hg)
      obtain ⟨⟨h1, h2, h3⟩, -, -, h4⟩ := detect_kept hW E.threshold E.sees (kept (t := t) _ hW b0) hq.1 hq.2 hg hsd htr hdet ht ⟨ht, hR, hL⟩
      exact ⟨h1, h2, h3, h4⟩
  refine ⟨hd.1, hd.2.1, hd.2.2.1, fun op' hop' => ?_⟩
  cases hop'
  exact ⟨⟨ho.1, ho.2, ho.3, ho.4, ho.5, ho.6, ho.7, ho.8⟩, hc, ⟨α, v1, b1, s2, sx2, sy2, hk2⟩, hδ2, g2, by simp only [hst]; exact hd2, hd.2.2.2 g2 hd2⟩

theorem machine_inv (S : LifeSetting C cost real goal0 rest) (E : Equipped C pi c sort t real see) (h : MachineLives C pi c sort t real see count r s cs) :
    MachineInv C c t real count r s cs := by
  have hW := S.search.width
  induction h with
  | start memory locked a s sx sy cmd op hm ha hcon =>
    obtain ⟨ht, hR⟩ := new_right hW Proof.rounding_exact E.threshold E.regular hm
    have hc := construct_eq (C := C) (A := exact) (pi := pi) (c := c) (fun p => Manager.belief exact C.search.W locked (memory p)) a ⟨C.search.start, robotAt s sx sy⟩ r (.search count)
    rw [hcon] at hc
    split at hc
    · cases hc
    · cases hc
    · rename_i cmd' com hl
      obtain ⟨op', h1, h2, h3, h4⟩ := hc
      cases h1
      obtain ⟨g, hg⟩ := new_remembers hW hm
      refine ⟨rfl, ⟨Manager.belief exact C.search.W locked (memory r.wallManager), ?_, belief_learns⟩, hR, ht, fun _ ho => ?_⟩
      · rw [← h2] at hl
        exact .start _ a _ _ (right_belief hW hR locked) (E.corner ▸ new_ahead hW Proof.rounding_exact E.threshold hm locked) ha hl
      · cases ho
        exact afresh_sound E h3 h4 (memory := memory) hg.memory (new_sided hW E.regular hm hg.memory)
  | run e s s' res cs new es _ ha ha' hr ih =>
    obtain ⟨hsel, ⟨b, hb, hL⟩, hR, ht, hsound⟩ := ih
    have hk := C112_run (C := C) (A := exact) (pi := pi) (c := c) e fun op hop => (hsound op hop).owns
    rw [hr] at hk
    split at hk
    · cases hk
    · rename_i res' new' adm had
      obtain ⟨es', s'', h1, h2, h3, h4, h5⟩ := hk
      cases h1
      cases hop : s.operator with
      | none =>
        unfold Machine.run at hr
        rw [hsel, hop] at hr
        cases hr
      | some op =>
        have hS := hsound op hop
        have hsay : mazeSays C exact e s = Manager.belief exact C.search.W e.locked (s.store r.wallManager) := by
          unfold mazeSays
          rw [hop]
          simp only [hS.owns.maze]
        have hl := Lives.call b (momentOf C exact e s) _ _ _ _ _ hb (by
          show Learns b (mazeSays C exact e s)
          rw [hsay]
          exact fun w hw => hL w hw) (by
          show TrueBelief _ _ (mazeSays C exact e s)
          rw [hsay]
          exact right_belief hW hR _) ha ha' had
        rw [← h2] at hl
        refine ⟨?_, ⟨_, hl, ?_⟩, by rw [h3]; exact hR, by rw [h3]; exact ht, fun op' hop' => ?_⟩
        · have := (C94_modes S hb (e := momentOf C exact e s) (by
            show Learns b (mazeSays C exact e s)
            rw [hsay]
            exact fun w hw => hL w hw) (by
            show TrueBelief _ _ (mazeSays C exact e s)
            rw [hsay]
            exact right_belief hW hR _) ha ha' had).2.2.1
          rw [← h2] at this
          exact this
        · show Learns (mazeSays C exact e s) _
          rw [hsay, h3]
          exact belief_learns
        · rw [h3]
          rcases h5 op hop with ⟨-, -, com, h6⟩ | ⟨-, -, h6⟩
          · rw [hop'] at h6
            cases h6
            exact ⟨h4 _ hop', hS.converter, hS.knows, hS.delta, hS.remembers⟩
          · obtain ⟨α, v, b', st, sx, sy, hk⟩ := hS.knows
            obtain ⟨g, hg, hsd⟩ := hS.remembers
            have := h6 op' hop'
            rw [hk.state] at this
            exact afresh_sound E (h4 _ hop') this hg.memory hsd
  | tick q ok s s' cs es _ hq hh hr ih =>
    obtain ⟨hsel, ⟨b, hb, hL⟩, hR, ht, hsound⟩ := ih
    cases hop : s.operator with
    | none =>
      have : s' = s := by
        obtain ⟨o, mode, sel, on, store⟩ := s
        cases hsel
        cases hop
        cases hr
        rfl
      rw [this]
      exact ⟨hsel, ⟨b, hb, hL⟩, hR, ht, hsound⟩
    | some op =>
      obtain ⟨ok', es', s'', h1, h2⟩ := tick_sound hW E hsel hop (hsound op hop) hq
      rw [hr] at h1
      cases h1
      obtain ⟨k1, k2, k3, k4⟩ := h2 (hh op hop) b ht hR hL
      obtain ⟨j1, -⟩ := C112_tick (r := r) (fun op hop => (hsound op hop).owns) hr
      have hbare : robotless s' = robotless s := by
        have := congrArg Prod.snd j1
        simp only at this
        rw [← this]
        unfold Admin.tick
        rw [show (robotless s).select = false from hsel]
        cases (robotless s).operator.isSome && !ok <;> simp [robotless, hsel]
      refine ⟨?_, ⟨b, by rw [hbare]; exact hb, k3⟩, k2, k1, k4⟩
      have := congrArg Admin.select hbare
      exact this.trans hsel

section claims
variable (S : LifeSetting C cost real goal0 rest) (E : Equipped C pi c sort t real see) (h : MachineLives C pi c sort t real see count r s cs)
include S E h

/-- **C113, memory.** The life of the machine is a life without a robot in which nothing is believed that the memory of the machine does not say now; and that is true of the maze. There is only
one memory, and the operator has all peripherals. -/
theorem C113_lives : (∃ b, Lives C real count b (robotless s) cs ∧ ∀ locked, Learns b (Manager.belief exact C.search.W locked (s.store r.wallManager))) ∧
    (∀ locked, TrueBelief C.search.W real (Manager.belief exact C.search.W locked (s.store r.wallManager))) ∧ ∀ op, s.operator = some op → Owns op r := by
  obtain ⟨-, ⟨b, hb, hL⟩, hR, -, hs⟩ := machine_inv S E h
  exact ⟨⟨b, hb, fun _ => hL⟩, right_belief S.search.width hR, fun op ho => (hs op ho).owns⟩

/-- **C113, commands.** All commands that the machine ever gives lead one after the other from the start through openings of the maze. -/
theorem C113_drive : ∃ m, LifeDrive C.search.W (posBlocked real) C.search.start cs m := by
  obtain ⟨⟨b, hb, -⟩, -⟩ := C113_lives S E h
  exact C94_drive S hb

/-- **C113, number of commands.** It is bounded. -/
theorem C113_length : ∃ (ss : List (Run.Node × SearchKind)) (l : List Command), cs = ss.map (fun e => .search e.1 e.2) ++ l ∧ (∀ n k, Command.search n k ∉ l) ∧
      l.length ≤ (4 * count + 2) * (2 * C.search.W * (2 * C.search.W) * 8) ∧
      (Balanced cost → ss.length ≤ (2 * (C.search.W * C.search.W) + 1) * (8 * (C.search.W * C.search.W) + 1) + 1) := by
  obtain ⟨⟨b, hb, -⟩, -⟩ := C113_lives S E h
  obtain ⟨ss, l, h1, h2, -, h3, h4⟩ := C94_length S hb
  exact ⟨ss, l, h1, h2, h3, h4⟩

/-- **C113, a call of `run`.** The mode stays or becomes the next one of the order, the latter only when no command is left, and then the mouse is in a cell: at the start after a return and at the
goal after a fast run. No operator fails. The call ends with `UnsupportedMode` only after the last return, and the operator with all peripherals is lost then. Whenever the operator is exchanged, the
motors are stopped, and the new robot knows nothing but the estimated state of the old one. -/
theorem C113_run {e : Old.Store.Moment} {res : Life.Result} {es : List Effect} (ha : e.agent.accepts = true) (ha' : e.newAgent.accepts = true)
    (hr : s.run C exact pi c e = .ok (res, new, es, s')) :
    (∃ i, (ModeOrder count)[i]? = some s.mode ∧ (s'.mode = s.mode ∨ (ModeOrder count)[i + 1]? = some s'.mode ∧ e.agent.full = some false ∧ e.agent.empty = some true ∧
      ∃ m, LifeDrive C.search.W (posBlocked real) C.search.start cs m ∧ EndsAt C m s.mode)) ∧
    res ≠ .operatorError ∧ (res = .unsupported ↔ s'.operator = none) ∧ (s'.operator = none → s.mode = .ret 0 ∧ s'.mode = .idle ∧ s'.interrupts = false) ∧
    s'.store = s.store ∧
    ∀ op, s.operator = some op →
      (es = [] ∧ s'.mode = s.mode ∧ ∃ com, s'.operator = some { op with commander := com }) ∨
      (es = [.left (.fin 0), .right (.fin 0)] ∧ s'.mode = s.mode.successor ∧ ∀ op', s'.operator = some op' → Afresh exact pi c op.robot.estimator.inner.state op'.robot) := by
  obtain ⟨hsel, ⟨b, hb, hL⟩, hR, ht, hsound⟩ := machine_inv S E h
  have hk := C112_run (C := C) (A := exact) (pi := pi) (c := c) e fun op hop => (hsound op hop).owns
  rw [hr] at hk
  split at hk
  · cases hk
  · rename_i res' new' adm had
    obtain ⟨es', s'', h1, h2, h3, h4, h5⟩ := hk
    cases h1
    cases hop : s.operator with
    | none =>
      unfold Machine.run at hr
      rw [hsel, hop] at hr
      cases hr
    | some op =>
      have hS := hsound op hop
      have hsay : mazeSays C exact e s = Manager.belief exact C.search.W e.locked (s.store r.wallManager) := by
        unfold mazeSays
        rw [hop]
        simp only [hS.owns.maze]
      have hl : Learns b (momentOf C exact e s).belief := by
        show Learns b (mazeSays C exact e s)
        rw [hsay]
        exact fun w hw => hL w hw
      have htr : TrueBelief C.search.W real (momentOf C exact e s).belief := by
        show TrueBelief _ _ (mazeSays C exact e s)
        rw [hsay]
        exact right_belief S.search.width hR _
      obtain ⟨-, -, -, -, m1⟩ := C94_modes S hb hl htr ha ha' had
      obtain ⟨m2, m3, m4⟩ := C94_end S hb hl htr ha ha' had
      rw [← h2] at m1 m3 m4
      have hnone : (robotless s').operator = none ↔ s'.operator = none := by simp [robotless]
      rw [hnone] at m3 m4
      refine ⟨m1, m2, m3, fun hn => ⟨(m4 hn).1, (m4 hn).2.1, (m4 hn).2.2.1⟩, h3, fun op' hop' => ?_⟩
      cases hop'
      rcases h5 op hop with h6 | ⟨h6, h7, h8⟩
      · exact .inl h6
      · refine .inr ⟨h6, ?_, h8⟩
        rcases h7 with ⟨h7, -⟩ | ⟨-, h7⟩
        · rw [hsel] at h7; cases h7
        · exact h7

/-- **C113, panics of `run`.** As long as there is an operator it panics only for want of capacity in mazes of more than 8 cells width, when the search has come back to where it can find nothing new, or
when the search has ended in the cell of the start. -/
theorem C113_no_panic {e : Old.Store.Moment} (ha : e.agent.accepts = true) (ha' : e.newAgent.accepts = true) {op : Old.Store.Operator K} (hop : s.operator = some op) {p : Panic}
    (hp : s.run C exact pi c e = .error p) :
    (p = .capacity ∧ 8 < C.search.W) ∨
    (∃ k, op.commander = .search k ∧ ∃ b0, TrueBelief C.search.W real b0 ∧ Learns b0 (Manager.belief exact C.search.W e.locked (s.store r.wallManager)) ∧
      Revisits C.search b0 (aheadCell k.current)) ∨
    (p = .unreachable ∧ ∃ k, op.commander = .search k ∧ k.phase = .final ∧ cellOf k.current = cellOf C.search.start) := by
  obtain ⟨hsel, ⟨b, hb, hL⟩, hR, ht, hsound⟩ := machine_inv S E h
  have hk := C112_run (C := C) (A := exact) (pi := pi) (c := c) e fun op hop => (hsound op hop).owns
  rw [hp] at hk
  have hS := hsound op hop
  have hsay : mazeSays C exact e s = Manager.belief exact C.search.W e.locked (s.store r.wallManager) := by
    unfold mazeSays
    rw [hop]
    simp only [hS.owns.maze]
  have hl : Learns b (momentOf C exact e s).belief := by
    show Learns b (mazeSays C exact e s)
    rw [hsay]
    exact fun w hw => hL w hw
  have htr : TrueBelief C.search.W real (momentOf C exact e s).belief := by
    show TrueBelief _ _ (mazeSays C exact e s)
    rw [hsay]
    exact right_belief S.search.width hR _
  have ho : (robotless s).operator = some op.commander := by simp [robotless, hop]
  split at hk
  · rename_i p' had
    cases hk
    rcases C94_no_panic S hb hl htr ha ha' (by rw [ho]; simp) had with h1 | ⟨k, h1, b0, h2, h3, h4⟩ | ⟨h1, k, h2, h3, h4⟩
    · exact .inl h1
    · rw [ho] at h1
      exact .inr (.inl ⟨k, Option.some.inj h1, b0, h2, fun w hw => hL w (h3 w hw), h4⟩)
    · rw [ho] at h2
      exact .inr (.inr ⟨h1, k, Option.some.inj h2, h3, h4⟩)
  · obtain ⟨es', s'', h1, -⟩ := hk
    cases h1

/-- **C113, interrupts.** An interrupt never panics when the sensors answer with numbers, whatever the distance sensors measure; it gives no command and changes nothing but the robot and its memory. -/
theorem C113_tick {q : Round} (hq : q.Fair C.search.W) : ∃ ok es s', s.tick C exact pi sort (q.tick C.search.W) false = .ok (ok, es, s') ∧ robotless s' = robotless s ∧
    (∀ p, p ≠ r.wallManager → s'.store p = s.store p) ∧ (s.operator = none → es = [] ∧ s' = s) := by
  obtain ⟨hsel, -, -, -, hsound⟩ := machine_inv S E h
  cases hop : s.operator with
  | none =>
    obtain ⟨o, mode, sel, on, store⟩ := s
    cases hsel
    cases hop
    exact ⟨_, _, _, rfl, rfl, fun _ _ => rfl, fun _ => ⟨rfl, rfl⟩⟩
  | some op =>
    obtain ⟨ok, es, s', h1, -⟩ := tick_sound S.search.width E hsel hop (hsound op hop) hq
    obtain ⟨j1, -, j2, -⟩ := C112_tick (r := r) (fun op hop => (hsound op hop).owns) h1
    refine ⟨ok, es, s', h1, ?_, j2, fun h => by cases h⟩
    have := congrArg Prod.snd j1
    simp only at this
    rw [← this]
    unfold Admin.tick
    rw [show (robotless s).select = false from hsel]
    cases (robotless s).operator.isSome && !ok <;> simp [robotless, hsel]

end claims

/-! ## Cases -/

theorem demo_equipped : ∃ see, Equipped smallLife 3 demoSettings demoSort (.fin (1 / 10)) (walled twoWalls) see ∧ ∀ i : Nat, i < 4 → ∃ b, see (centre i) = some ⟨⟨i, 0, false⟩, 42 / 1000, b⟩ := by
  obtain ⟨see, hs, hsee⟩ := demo_sees (W := 4) ⟨2, by decide, rfl⟩
  refine ⟨see, ⟨rfl, ?_, ?_, hs, by norm_num, ?_⟩, hsee⟩
  · exact ⟨⟨1 / 10, rfl, by norm_num, by norm_num, rfl⟩, by show (0 : ℝ) < 1 / 10; norm_num, by show (1 : ℝ) + -(1 / 10) < 1; norm_num, by show (1 / 10 : ℝ) ≤ 1 / 2; norm_num⟩
  · exact ⟨walled_closed _, by decide, by decide⟩
  · constructor <;> simp only [demoSettings] <;> norm_num

/-- The life of a machine that takes itself to be in the middle of the cell `(1, 0)`, looks at the wall there during an interrupt, stands still, and measures what is right for the maze. -/
example : ∃ see s cs z, Equipped smallLife 3 demoSettings demoSort (.fin (1 / 10)) (walled twoWalls) see ∧
    MachineLives smallLife 3 demoSettings demoSort (.fin (1 / 10)) (walled twoWalls) see 1 numberedParts s cs ∧
    (Round.mk ⟨0, 0, 0, 0⟩ ⟨⟨(centre 1).x, 0, 0, 0⟩, ⟨(centre 1).y, 0, 0, 0⟩, ⟨0, 0, 0, 0⟩⟩ [ahead z (1 / 100)]).Fair 4 ∧
    ∃ ok es s', s.tick smallLife exact 3 demoSort ((Round.mk ⟨0, 0, 0, 0⟩ ⟨⟨(centre 1).x, 0, 0, 0⟩, ⟨(centre 1).y, 0, 0, 0⟩, ⟨0, 0, 0, 0⟩⟩ [ahead z (1 / 100)]).tick 4) false = .ok (ok, es, s') ∧
      MachineLives smallLife 3 demoSettings demoSort (.fin (1 / 10)) (walled twoWalls) see 1 numberedParts s' cs := by
  obtain ⟨see, E, hsee⟩ := demo_equipped
  obtain ⟨m, g, h1, h2, h3, h4, h5⟩ := demo_guess (W := 4) ⟨2, by decide, rfl⟩ (.fin (1 / 10))
  obtain ⟨b, hb⟩ := hsee 1 (by decide)
  have hc := construct_eq (C := smallLife) (A := exact) (pi := 3) (c := demoSettings) (fun p => Manager.belief exact 4 (fun _ => false) m) ⟨some false, some true, true⟩
    ⟨smallLife.search.start, robotAt ⟨⟨(centre 1).x, 0, 0⟩, ⟨(centre 1).y, 0, 0⟩, ⟨0, 0, 0⟩⟩ 0 0⟩ numberedParts (.search 1)
  have hl : Life.construct smallLife (Manager.belief exact 4 (fun _ => false) m) ⟨some false, some true, true⟩ smallLife.search.start (.search 1) =
      .ok (some (.search ⟨0, 0, .north⟩ .init, .search ⟨⟨0, 1, .north⟩, .solving, []⟩)) := rfl
  rw [hl] at hc
  obtain ⟨op, c1, -, c3, c4⟩ := hc
  let q : Round := ⟨⟨0, 0, 0, 0⟩, ⟨⟨(centre 1).x, 0, 0, 0⟩, ⟨(centre 1).y, 0, 0, 0⟩, ⟨0, 0, 0, 0⟩⟩, [ahead (if walled twoWalls ⟨1, 0, false⟩ then 42 / 1000 else b) (1 / 100)]⟩
  have hq : q.Fair 4 := ⟨by simp [q], fun l hl => by rw [List.mem_singleton.mp hl]; exact ahead_fair (by norm_num)⟩
  have hlive : MachineLives smallLife 3 demoSettings demoSort (.fin (1 / 10)) (walled twoWalls) see 1 numberedParts ⟨some op, .search 1, false, true, fun _ => m⟩ [.search ⟨0, 0, .north⟩ .init] :=
    .start (fun _ => m) (fun _ => false) ⟨some false, some true, true⟩ _ 0 0 _ op h1 rfl c1
  obtain ⟨ok, es, s', t1, -⟩ := C113_tick small_life E hlive hq
  refine ⟨see, _, _, _, E, hlive, hq, ok, es, s', t1, .tick q ok _ s' _ es hlive hq (fun op' ho => ?_) t1⟩
  cases ho
  rintro e p sx sy g' hp hst hg'
  obtain ⟨e', v', b', s', k1, k2, k3, k4, -, -, k5, -, -, k6⟩ := C102_step (afresh_knows E c4) q.sensor
  cases k1.symm.trans hp
  have hv : v' = 0 := by rw [k3]; simp [q]
  obtain ⟨k7, k8, -⟩ := k5 (by simpa [q] using (afresh_knows E c4).approx)
  have hpose : p = centre 1 := by
    rw [k2.state] at hst
    simp only [RobotState.seen, robotAt, stateAt, Detect.State.mk.injEq, F.fin.injEq] at hst
    obtain ⟨j1, j2, -, -, j3⟩ := hst
    obtain ⟨x, y, θ⟩ := p
    simp only at j1 j2 j3
    rw [← j1, ← j2, ← j3, k7, k8, k6, hv]
    simp [q, centre]
  subst hpose
  have hpast : g'.past 0 = none := by
    have := hg'.past 0 (by decide)
    rw [show (⟨op.robot.detector.past, (fun _ => m) op.robot.detector.manager⟩ : Detector).past 0 = _ from c4.past 0] at this
    simpa using this.symm
  refine ⟨?_, trivial⟩
  intro e z s htar
  unfold Guess.target at htar
  have hfrom : Guess.from (g'.begin sx sy) (centre 1) 0 (ahead (if walled twoWalls ⟨1, 0, false⟩ then 42 / 1000 else b) (1 / 100)) = centre 1 := by
    show aimed ((g'.past 0).getD (centre 1)) ⟨0, 0, 0⟩ 0 0 = _
    rw [hpast]
    exact aimed_zero (centre 1)
  rw [hfrom, show see (centre 1) = _ from hb] at htar
  simp only [ahead, List.not_mem_nil, if_false, Option.some.injEq, Prod.mk.injEq] at htar
  obtain ⟨rfl, rfl, rfl⟩ := htar
  dsimp only
  split <;> simp

end Verif.Props
