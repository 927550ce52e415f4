import Verif.Props.Single
import Verif.Model.Trial
/-!
# C121: the round is that of the integration test
-/
namespace Verif.Props
open Verif Verif.Spec Verif.Trial

/-- The parts of a robot in real numbers as those of a robot with floating point numbers. -/
def robotOf (e : Estimate.Estimator) (s : Control.State) (n : Control.Navigation) (k : Control.Tracker) (c : Control.Controller) : Single.Robot :=
  ⟨estimatorOf e, stateOf s, navigationOf n, trackerOf k, controllerOf c⟩

theorem turn_slip {g : Gear} {m m' : Trial} {on : Bool} (h : g.turn m = .ok (on, m')) :
    m'.estimator.slip = (m.estimator.estimate g.T m.state (sensed g.T m.simulator)).1.slip := by
  unfold Gear.turn at h
  simp only [bind, Except.bind, pure, Except.pure] at h
  split at h
  · cases h
  · split at h
    · cases h
    · split at h
      · cases h
      · split at h
        · cases h; rfl
        · split at h
          · cases h
          · cases h; rfl

/-- C121: in exact arithmetic a round of the robot, with the same values of the sensors and the same target, does what a round of the loop of
`tests/search.rs` does; the voltages are those that the test applies to the simulator. -/
theorem C121_test (g : Gear) {m m' : Trial} {on : Bool} (h : g.turn m = .ok (on, m')) (hpi : 0 < g.pi)
    (hp : 0 < m.estimator.period) (hc : 0 < m.estimator.slipConst) (ht : 0 < m.estimator.approxTh) (hk : 0 ≤ m.tracker.xiThreshold)
    (h1 : m.controller.trans.modelK ≠ 0) (h2 : m.controller.rot.modelK ≠ 0) (hs : g.T.cos m'.estimator.slip ≠ 0) :
    ∃ (target : Control.Target) (loop : SearchDriver.Loop) (o : Control.MotorOutput), SearchDriver.track g.T m.loop = .ok (target, loop) ∧
      (robotOf m.estimator m.state g.navigation m.tracker m.controller).round exact (libOf g.T g.pi) (sensorOf (sensed g.T m.simulator)) (targetOf target) =
        (robotOf m'.estimator m'.state g.navigation m'.tracker m'.controller, motorOf o) ∧
      m'.simulator = if on then (m.simulator.apply o.left o.right).step g.T else m.simulator.apply o.left o.right := by
  have key : ∀ {target loop}, SearchDriver.track g.T m.loop = .ok (target, loop) →
      let es := m.estimator.estimate g.T m.state (sensed g.T m.simulator)
      let tr := m.tracker.track g.T g.pi es.2 target (g.navigation.navigate es.2 target)
      let cv := m.controller.control tr.2.1 tr.2.2
      m'.estimator = es.1 → m'.state = es.2 → m'.tracker = tr.1 → m'.controller = cv.1 →
      (robotOf m.estimator m.state g.navigation m.tracker m.controller).round exact (libOf g.T g.pi) (sensorOf (sensed g.T m.simulator)) (targetOf target) =
        (robotOf m'.estimator m'.state g.navigation m'.tracker m'.controller, motorOf cv.2) := by
    intro target loop _ es tr cv e1 e2 e3 e4
    have a1 := C121_estimator g.T g.pi m.estimator m.state (sensed g.T m.simulator) hp hc ht (by rw [e1] at hs; exact hs)
    unfold robotOf Single.Robot.round
    dsimp only
    rw [a1]
    dsimp only
    rw [C121_navigation, C121_tracker g.T g.pi hpi m.tracker hk]
    dsimp only
    rw [C121_controller _ h1 h2, e1, e2, e3, e4]
  unfold Gear.turn at h
  simp only [bind, Except.bind, pure, Except.pure] at h
  cases htr : SearchDriver.track g.T m.loop with
  | error p => rw [htr] at h; cases h
  | ok tl =>
    obtain ⟨target, loop⟩ := tl
    rw [htr] at h
    dsimp only at h
    cases ha : asking g.W m.walls with
    | error p => rw [ha] at h; cases h
    | ok ws =>
      rw [ha] at h
      dsimp only at h
      split at h
      · cases h
      · rename_i d hd
        cases d with
        | none =>
          cases h
          exact ⟨target, loop, _, rfl, key htr rfl rfl rfl rfl, rfl⟩
        | some loop' =>
          dsimp only at h
          split at h
          · cases h
          · cases h
            exact ⟨target, loop, _, rfl, key htr rfl rfl rfl rfl, rfl⟩

/-- The first round of the test. -/
example {W : Nat} {sort : List (Convert.Dir × F) → List (Convert.Dir × F)} {searcher : Search.Searcher} {w maze : Walls.Walls} {fo : ℝ} {on : Bool} {m' : Trial}
    (h : (gear .real 3 W sort searcher fo).turn (initial w maze fo) = .ok (on, m')) : ∃ target o,
      (robotOf (.new 0.001) standing ⟨40, 4⟩ (initial w maze fo).tracker (initial w maze fo).controller).round exact (libOf .real 3)
        ⟨.fin 0, .fin 0, .fin 0, .fin 0⟩ (targetOf target) = (robotOf m'.estimator m'.state ⟨40, 4⟩ m'.tracker m'.controller, motorOf o) := by
  have hz : sensed .real (initial w maze fo).simulator = ⟨0, 0, 0, 0⟩ := by
    simp [sensed, initial, Sim.Simulator.new, Sim.Simulator.distance, Sim.Simulator.transAcc, Sim.Simulator.angularVelocity, Sim.Simulator.average, standing]
  obtain ⟨target, -, o, -, e, -⟩ := C121_test _ h (by norm_num [gear]) (by norm_num [initial, Estimate.Estimator.new]) (by norm_num [initial, Estimate.Estimator.new])
    (by norm_num [initial, Estimate.Estimator.new]) (by norm_num [initial]) (by norm_num [initial, Control.Controller.new]) (by norm_num [initial, Control.Controller.new]) (by
      have : m'.estimator.slip = 0 := by
        have h' := turn_slip h
        rw [h', show (gear .real 3 W sort searcher fo).T = .real from rfl, hz]
        simp [initial, Estimate.Estimator.new, Estimate.Estimator.estimate, Estimate.Estimator.nextSlip]
      rw [this]
      show Real.cos 0 ≠ 0
      simp)
  refine ⟨target, o, ?_⟩
  rw [show (gear .real 3 W sort searcher fo).T = .real from rfl, hz] at e
  exact e

end Verif.Props
