import Verif.Model.SingleTest
import Verif.Props.SingleHunt
import Verif.Props.SingleSimRun
import Verif.Props.SingleFindModel
import Verif.Props.SingleTrial
/-!
# C132: without rounding the test is that of the model in real numbers
-/
namespace Verif.Props
open Verif Verif.Spec Verif.Convert Verif.Single Verif.Detect Verif.Trial
open Verif.Search (Coord WallState Searcher SearchState)

/-- The same settings with floating point numbers. -/
noncomputable def kitOf (g : Gear) : Kit := ⟨g.W, g.sort, questOf g.config, g.poses.map placeOf, g.searcher⟩

/-- Two states of the test, one in floating point numbers, that agree. -/
structure AttemptSame (g : Gear) (m : Attempt) (m' : Trial) : Prop where
  robot : m.robot = robotOf m'.estimator m'.state g.navigation m'.tracker m'.controller
  walls : m.walls = m'.walls
  detector : m.detector = m'.detector
  hunt : HuntSame m.hunt m'.loop
  simulator : m.simulator = simulatorOf m'.simulator

/-- Settings by which the code may divide. -/
structure Divisible (m : Trial) : Prop where
  period : 0 < m.estimator.period
  slip : 0 < m.estimator.slipConst
  approx : 0 < m.estimator.approxTh
  xi : 0 ≤ m.tracker.xiThreshold
  trans : m.controller.trans.modelK ≠ 0
  rot : m.controller.rot.modelK ≠ 0
  step : m.simulator.period ≠ 0
  transT : m.simulator.transT1 + m.simulator.period ≠ 0
  rotT : m.simulator.rotT1 + m.simulator.period ≠ 0

/-- The robot never estimates that it slides at a right angle. -/
def NeverAcross (g : Gear) (m : Trial) (n : Nat) : Prop :=
  ∀ k < n, ∀ m', g.go k m = .ok (true, m') → g.T.cos (m'.estimator.estimate g.T m'.state (sensed g.T m'.simulator)).1.slip ≠ 0

/-- The places of the sensors. -/
theorem place_exact (T : Control.Trig) (pi : ℝ) (s : Control.State) (p : Pose) :
    sensorPlace exact (libOf T pi) (stateOf s) (placeOf p) = placeOf (sensorPose T s p) := by
  unfold sensorPlace sensorPose placeOf
  have hc : (libOf T pi).cos (stateOf s).theta.x = .fin (T.cos s.theta.x) := rfl
  have hs : (libOf T pi).sin (stateOf s).theta.x = .fin (T.sin s.theta.x) := rfl
  have e1 : (stateOf s).x.x = .fin s.x.x := rfl
  have e2 : (stateOf s).y.x = .fin s.y.x := rfl
  have e3 : (stateOf s).theta.x = .fin s.theta.x := rfl
  dsimp only
  rw [hc, hs, e1, e2, e3]
  simp only [exact_mul, exact_add, exact_sub]

/-- The walls seen in a round. -/
theorem look_exact {g : Gear} (hT : g.T = .real) {s : Sim.Simulator} (hp : s.period ≠ 0) (ht : s.transT1 + s.period ≠ 0) (hr : s.rotT1 + s.period ≠ 0)
    (st : Control.State) : ∀ (ps : List Pose) (d : Detector) (w : Walls.Walls),
      (kitOf g).lookAround exact (libOf g.T g.pi) (simulatorOf s) ((ps.map placeOf).map (sensorPlace exact (libOf g.T g.pi) (stateOf st))) d w =
        g.lookAround s st ps (d, w)
  | [], _, _ => rfl
  | p :: ps, d, w => by
    have ih := look_exact hT hp ht hr st ps
    obtain ⟨-, -, -, -, -, hd⟩ := C131_model g.T g.pi s hp ht hr
    rw [List.map_cons, List.map_cons, place_exact, Kit.lookAround, Gear.lookAround]
    dsimp only [placeOf]
    have hd' := hd g.W g.sort (sensorPose g.T st p)
    rw [← hT] at hd'
    have e1 : (simulatorOf s).distanceFromWall exact (libOf g.T g.pi) (kitOf g).W (kitOf g).sort (.fin (sensorPose g.T st p).x) (.fin (sensorPose g.T st p).y)
        (.fin (sensorPose g.T st p).theta) = s.distanceFromWall g.convert g.W (sensorPose g.T st p) := hd'
    rw [e1]
    congr 1
    funext o
    cases o with
    | none => exact ih d w
    | some x =>
      obtain ⟨mean, stddev⟩ := x
      have hc := C129_model g.W g.sort (sensorPose g.T st p) g.pi
      rw [← hT] at hc
      have e2 : detectAndUpdate exact (fun _ => (Finder.default exact).convert exact (libOf g.T g.pi) (kitOf g).W (kitOf g).sort
          (.fin (sensorPose g.T st p).x) (.fin (sensorPose g.T st p).y) (.fin (sensorPose g.T st p).theta)) (kitOf g).W d mean stddev ⟨0, 0, 0⟩ =
          detectAndUpdate exact g.convert g.W d mean stddev (sensorPose g.T st p) := by
        have hc' : (Finder.default exact).convert exact (libOf g.T g.pi) (kitOf g).W (kitOf g).sort
          (.fin (sensorPose g.T st p).x) (.fin (sensorPose g.T st p).y) (.fin (sensorPose g.T st p).theta) = g.convert (sensorPose g.T st p) := hc
        unfold detectAndUpdate
        rw [hc']
        rfl
      dsimp only
      rw [e2]
      congr 1
      funext y
      obtain ⟨d', seen⟩ := y
      cases seen with
      | none => exact ih d' w
      | some z =>
        obtain ⟨c, ws⟩ := z
        dsimp only
        congr 1
        funext w'
        exact ih d' w'

variable {g : Gear}

/-- One round. -/
theorem turn_exact (hT : g.T = .real) (hpi : 0 < g.pi) (hq : Proper g.config) {m : Attempt} {m' : Trial} (h : AttemptSame g m m') (hd : Divisible m')
    (hs : g.T.cos (m'.estimator.estimate g.T m'.state (sensed g.T m'.simulator)).1.slip ≠ 0) :
    Results (fun x y => x.1 = y.1 ∧ AttemptSame g x.2 y.2 ∧ Divisible y.2) ((kitOf g).turn exact (libOf g.T g.pi) m) (g.turn m') := by
  obtain ⟨h1, h2, h3, h4, h5⟩ := h
  have a1 := C121_estimator g.T g.pi m'.estimator m'.state (sensed g.T m'.simulator) hd.period hd.slip hd.approx hs
  obtain ⟨b1, b2, b3, b4, b5, -⟩ := C131_model g.T g.pi m'.simulator hd.step hd.transT hd.rotT
  have hsen : senses exact (libOf g.T g.pi) m.simulator = sensorOf (sensed g.T m'.simulator) := by
    unfold senses sensed sensorOf
    rw [h5, b3, b4, b5]
  have ht := same_track g.T g.pi h4
  unfold Kit.turn Gear.turn
  cases hx : track exact (libOf g.T g.pi) m.hunt with
  | error e =>
    rw [hx] at ht
    cases hy : SearchDriver.track g.T m'.loop with
    | error e' => rw [hy] at ht; exact ht
    | ok y => rw [hy] at ht; exact ht.elim
  | ok x =>
    rw [hx] at ht
    cases hy : SearchDriver.track g.T m'.loop with
    | error e' => rw [hy] at ht; exact ht.elim
    | ok y =>
      rw [hy] at ht
      obtain ⟨t, lp⟩ := x
      obtain ⟨t', lp'⟩ := y
      obtain ⟨rfl, hlp⟩ := ht
      dsimp only at hlp
      simp only [bind, Except.bind, pure, Except.pure]
      have hround : m.robot.round exact (libOf g.T g.pi) (senses exact (libOf g.T g.pi) m.simulator) (targetOf t') =
          (let es := m'.estimator.estimate g.T m'.state (sensed g.T m'.simulator)
           let tr := m'.tracker.track g.T g.pi es.2 t' (g.navigation.navigate es.2 t')
           let cv := m'.controller.control tr.2.1 tr.2.2
           (robotOf es.1 es.2 g.navigation tr.1 cv.1, motorOf cv.2)) := by
        rw [h1, hsen]
        unfold robotOf Single.Robot.round
        dsimp only
        rw [a1]
        dsimp only
        rw [C121_navigation, C121_tracker g.T g.pi hpi m'.tracker hd.xi]
        dsimp only
        rw [C121_controller _ hd.trans hd.rot]
      rw [hround]
      dsimp only
      rw [h2, show (kitOf g).W = g.W from rfl]
      cases ha : asking g.W m'.walls with
      | error e => rfl
      | ok ws =>
        dsimp only
        have hdn := same_decide g.T g.pi hq g.W g.searcher ws hlp
        rw [show (kitOf g).quest = questOf g.config from rfl, show (kitOf g).searcher = g.searcher from rfl]
        cases hx2 : decideNext exact (libOf g.T g.pi) (questOf g.config) g.W g.searcher ws lp with
        | error e =>
          rw [hx2] at hdn
          cases hy2 : SearchDriver.decideNext g.config g.W g.searcher ws lp' with
          | error e' => rw [hy2] at hdn; exact hdn
          | ok y => rw [hy2] at hdn; exact hdn.elim
        | ok o =>
          rw [hx2] at hdn
          cases hy2 : SearchDriver.decideNext g.config g.W g.searcher ws lp' with
          | error e' => rw [hy2] at hdn; exact hdn.elim
          | ok o' =>
            rw [hy2] at hdn
            cases hdn with
            | none => 
              refine ⟨rfl, ⟨rfl, rfl, h3, hlp, ?_⟩, ⟨hd.period, hd.slip, hd.approx, hd.xi, hd.trans, hd.rot, hd.step, hd.transT, hd.rotT⟩⟩
              dsimp only
              rw [h5]
              exact b2 _ _
            | some hrel =>
              rename_i l1 l2
              dsimp only
              rw [h5, h3]
              have b2' := b2
              generalize hvol : (m'.controller.control _ _).2 = vol
              rw [show (motorOf vol).left = .fin vol.left from rfl, show (motorOf vol).right = .fin vol.right from rfl, b2']
              have hl := look_exact (s := m'.simulator.apply vol.left vol.right) hT hd.step hd.transT hd.rotT
                (m'.estimator.estimate g.T m'.state (sensed g.T m'.simulator)).2 g.poses m'.detector m'.walls
              have hl' : (kitOf g).lookAround exact (libOf g.T g.pi) (simulatorOf (m'.simulator.apply vol.left vol.right))
                  ((kitOf g).poses.map (sensorPlace exact (libOf g.T g.pi) (robotOf (m'.estimator.estimate g.T m'.state (sensed g.T m'.simulator)).1
                    (m'.estimator.estimate g.T m'.state (sensed g.T m'.simulator)).2 g.navigation
                    (m'.tracker.track g.T g.pi (m'.estimator.estimate g.T m'.state (sensed g.T m'.simulator)).2 t'
                      (g.navigation.navigate (m'.estimator.estimate g.T m'.state (sensed g.T m'.simulator)).2 t')).1
                    (m'.controller.control
                      (m'.tracker.track g.T g.pi (m'.estimator.estimate g.T m'.state (sensed g.T m'.simulator)).2 t'
                        (g.navigation.navigate (m'.estimator.estimate g.T m'.state (sensed g.T m'.simulator)).2 t')).2.1
                      (m'.tracker.track g.T g.pi (m'.estimator.estimate g.T m'.state (sensed g.T m'.simulator)).2 t'
                        (g.navigation.navigate (m'.estimator.estimate g.T m'.state (sensed g.T m'.simulator)).2 t')).2.2).1).state)) m'.detector m'.walls =
                  g.lookAround (m'.simulator.apply vol.left vol.right) (m'.estimator.estimate g.T m'.state (sensed g.T m'.simulator)).2 g.poses
                    (m'.detector, m'.walls) := hl
              rw [hl']
              cases g.lookAround (m'.simulator.apply vol.left vol.right) (m'.estimator.estimate g.T m'.state (sensed g.T m'.simulator)).2 g.poses
                (m'.detector, m'.walls) with
              | error e => rfl
              | ok dw =>
                refine ⟨rfl, ⟨rfl, rfl, rfl, hrel, ?_⟩, ⟨hd.period, hd.slip, hd.approx, hd.xi, hd.trans, hd.rot, hd.step, hd.transT, hd.rotT⟩⟩
                exact (C131_model g.T g.pi (m'.simulator.apply vol.left vol.right) hd.step hd.transT hd.rotT).1

/-- Any number of rounds. -/
theorem go_exact (hT : g.T = .real) (hpi : 0 < g.pi) (hq : Proper g.config) : ∀ (n : Nat) {m : Attempt} {m' : Trial}, AttemptSame g m m' → Divisible m' →
    NeverAcross g m' n → Results (fun x y => x.1 = y.1 ∧ AttemptSame g x.2 y.2 ∧ Divisible y.2) ((kitOf g).go exact (libOf g.T g.pi) n m) (g.go n m')
  | 0, m, m', h, hd, _ => ⟨rfl, h, hd⟩
  | n + 1, m, m', h, hd, hs => by
    have ht := turn_exact hT hpi hq h hd (hs 0 (by omega) m' rfl)
    rw [Kit.go, Gear.go]
    cases hx : (kitOf g).turn exact (libOf g.T g.pi) m with
    | error e =>
      rw [hx] at ht
      cases hy : g.turn m' with
      | error e' => rw [hy] at ht; exact ht
      | ok y => rw [hy] at ht; exact ht.elim
    | ok x =>
      rw [hx] at ht
      cases hy : g.turn m' with
      | error e' => rw [hy] at ht; exact ht.elim
      | ok y =>
        rw [hy] at ht
        obtain ⟨on, a⟩ := x
        obtain ⟨on', b⟩ := y
        obtain ⟨rfl, h', hd'⟩ := ht
        simp only [bind, Except.bind]
        cases on with
        | false => exact ⟨rfl, h', hd'⟩
        | true =>
          refine go_exact hT hpi hq n h' hd' fun k hk m2 h2 => hs (k + 1) (by omega) m2 ?_
          rw [Gear.go, hy]
          exact h2

/-- **C132, model.** Without rounding and with the real trigonometric functions, the test is the one in real numbers (C114): it goes on, passes or panics when that
does, with the same panic. -/
theorem C132_model (hT : g.T = .real) (hpi : 0 < g.pi) (hq : Proper g.config) (n : Nat) {m : Attempt} {m' : Trial} (h : AttemptSame g m m') (hd : Divisible m')
    (hs : NeverAcross g m' n) : (kitOf g).test exact (libOf g.T g.pi) n m = g.test n m' := by
  have hg := go_exact hT hpi hq n h hd hs
  unfold Kit.test Gear.test
  cases hx : (kitOf g).go exact (libOf g.T g.pi) n m with
  | error e =>
    rw [hx] at hg
    cases hy : g.go n m' with
    | error e' => rw [hy] at hg; exact congrArg Except.error hg
    | ok y => rw [hy] at hg; exact hg.elim
  | ok x =>
    rw [hx] at hg
    cases hy : g.go n m' with
    | error e' => rw [hy] at hg; exact hg.elim
    | ok y =>
      rw [hy] at hg
      obtain ⟨on, a⟩ := x
      obtain ⟨on', b⟩ := y
      obtain ⟨rfl, h', -⟩ := hg
      simp only [bind, Except.bind]
      have hc : (kitOf g).check a = g.check b := by
        have h1 : a.walls = b.walls := h'.walls
        have h2 : a.simulator.walls = b.simulator.walls := by rw [h'.simulator]; rfl
        unfold Kit.check Gear.check
        rw [h1, h2]
        rfl
      rw [hc]

/-- A case: the settings of `tests/search.rs` with the front offset of `test_search_offset1`, any maze, any planner, and the beginning of the test. -/
theorem first_attempt (W : Nat) (sort : List (Convert.Dir × F) → List (Convert.Dir × F)) (searcher : Searcher) (walls maze : Walls.Walls) (pi : ℝ) :
    AttemptSame (Trial.gear .real pi W sort searcher 0.01)
      ⟨robotOf (Trial.initial walls maze 0.01).estimator standing ⟨40, 4⟩ (Trial.initial walls maze 0.01).tracker (Trial.initial walls maze 0.01).controller,
        walls, Detect.new, (questOf (Trial.config 0.01)).start exact (libOf .real pi), simulatorOf (Trial.initial walls maze 0.01).simulator⟩
      (Trial.initial walls maze 0.01) ∧ Divisible (Trial.initial walls maze 0.01) ∧ Proper (Trial.config 0.01) := by
  have hq : Proper (Trial.config 0.01) := by
    have hpi := Real.pi_pos.ne'
    refine ⟨by norm_num [Trial.config], by norm_num [Trial.config], by norm_num [Trial.config], ?_, ?_, fun d => ?_⟩
    · unfold Trial.config Slalom.degree; dsimp only; positivity
    · unfold Trial.config Slalom.degree; dsimp only; positivity
    · unfold Slalom.parameters Trial.config
      dsimp only
      rw [if_neg (by norm_num)]
      cases d <;> norm_num [Slalom.createParams]
  refine ⟨⟨rfl, rfl, rfl, ⟨⟨rfl, same_init _ _ hq⟩, .none, rfl, rfl⟩, rfl⟩, ?_, hq⟩
  constructor <;> norm_num [Trial.initial, Estimate.Estimator.new, Control.Controller.new, Sim.Simulator.new]

example (W : Nat) (sort : List (Convert.Dir × F) → List (Convert.Dir × F)) (searcher : Searcher) (walls maze : Walls.Walls) :
    (kitOf (Trial.gear .real Real.pi W sort searcher 0.01)).test exact (libOf .real Real.pi) 1
      ⟨robotOf (Trial.initial walls maze 0.01).estimator standing ⟨40, 4⟩ (Trial.initial walls maze 0.01).tracker (Trial.initial walls maze 0.01).controller,
        walls, Detect.new, (questOf (Trial.config 0.01)).start exact (libOf .real Real.pi), simulatorOf (Trial.initial walls maze 0.01).simulator⟩ =
      (Trial.gear .real Real.pi W sort searcher 0.01).test 1 (Trial.initial walls maze 0.01) := by
  obtain ⟨h1, h2, h3⟩ := first_attempt W sort searcher walls maze Real.pi
  refine C132_model (g := Trial.gear .real Real.pi W sort searcher 0.01) rfl Real.pi_pos h3 1 h1 h2 fun k hk m' hm => ?_
  obtain rfl : k = 0 := by omega
  cases hm
  show Real.cos _ ≠ 0
  have : ((Trial.initial walls maze 0.01).estimator.estimate .real (Trial.initial walls maze 0.01).state
      (sensed .real (Trial.initial walls maze 0.01).simulator)).1.slip = 0 := by
    norm_num [Trial.initial, Estimate.Estimator.new, Sim.Simulator.new, sensed, Estimate.Estimator.nextSlip, Estimate.Estimator.estimate, Sim.Simulator.angularVelocity,
      Sim.Simulator.distance, Sim.Simulator.transAcc, standing]
  have e : (Real.cos ((Trial.initial walls maze 0.01).estimator.estimate .real (Trial.initial walls maze 0.01).state
      (sensed .real (Trial.initial walls maze 0.01).simulator)).1.slip) ≠ 0 := by rw [this, Real.cos_zero]; norm_num
  exact e

end Verif.Props
