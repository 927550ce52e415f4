import Verif.Props.SingleRunTest
import Verif.Props.SingleTrial
import Verif.Props.Guard
import Verif.Spec.RunTrial
/-!
# C133: without rounding the test of the fast run is that of the model in real numbers
-/
namespace Verif.Props
open Verif Verif.Spec Verif.Single Verif.RunTrial Verif.Trial

/-- Infinite, or no number. -/
def NonFin (f : F) : Prop := ∀ r : ℝ, f ≠ .fin r

section nonfin
variable {x : F}

theorem NonFin.add (h : NonFin x) (y : F) : NonFin (exact.add x y) := by
  cases x with
  | fin r => exact absurd rfl (h r)
  | _ => cases y <;> intro r hr <;> cases hr

theorem NonFin.add' (h : NonFin x) (y : F) : NonFin (exact.add y x) := by
  cases x with
  | fin r => exact absurd rfl (h r)
  | _ => cases y <;> intro r hr <;> cases hr

theorem NonFin.sub (h : NonFin x) (y : F) : NonFin (exact.sub x y) := by
  cases x with
  | fin r => exact absurd rfl (h r)
  | _ => cases y <;> intro r hr <;> cases hr

theorem NonFin.sub' (h : NonFin x) (y : F) : NonFin (exact.sub y x) := by
  cases x with
  | fin r => exact absurd rfl (h r)
  | _ => cases y <;> intro r hr <;> cases hr

theorem NonFin.neg (h : NonFin x) : NonFin x.neg := by
  cases x with
  | fin r => exact absurd rfl (h r)
  | _ => intro r hr; cases hr

theorem infOf_nonfin (r : ℝ) : NonFin (F.infOf r) := by
  intro s hs
  unfold F.infOf at hs
  split_ifs at hs

theorem NonFin.mul (h : NonFin x) (y : F) : NonFin (exact.mul x y) := by
  cases x with
  | fin r => exact absurd rfl (h r)
  | nan => cases y <;> intro r hr <;> cases hr
  | pinf =>
    cases y with
    | fin s => exact infOf_nonfin s
    | _ => intro r hr; cases hr
  | ninf =>
    cases y with
    | fin s => exact infOf_nonfin _
    | _ => intro r hr; cases hr

theorem NonFin.div (h : NonFin x) (y : ℝ) : NonFin (exact.div x (.fin y)) := by
  cases x with
  | fin r => exact absurd rfl (h r)
  | nan => intro r hr; cases hr
  | pinf => intro r hr; simp only [Arith.div] at hr; split_ifs at hr <;> cases hr
  | ninf => intro r hr; simp only [Arith.div] at hr; split_ifs at hr <;> cases hr

end nonfin

open Classical in
/-- The tracker, by whether it uses the jerk. -/
theorem track_split (T : Control.Trig) (pi : ℝ) (k : Control.Tracker) (s : Control.State) (t : Control.Target) (ux uy : ℝ) :
    ∃ sn cs dxi xi : ℝ, ∃ rest : Single.ControlTarget, ∃ k' : Single.Tracker, ∃ y : Single.ControlTarget, (∀ dux duy : F,
      (trackerOf k).track exact (libOf T pi) (stateOf s) (targetOf t) ⟨.fin ux, .fin uy, dux, duy⟩ =
        (k', if usesJerk T k s t ux uy then fast exact (.fin sn) (.fin cs) (.fin dxi) (.fin xi) ⟨.fin ux, .fin uy, dux, duy⟩ else rest, y)) := by
  refine ⟨T.sin s.theta.x, T.cos s.theta.x, ux * T.cos s.theta.x + uy * T.sin s.theta.x,
    k.xi + k.period * (ux * T.cos s.theta.x + uy * T.sin s.theta.x),
    slow exact (libOf T pi) (trackerOf k) (.fin (T.sin s.theta.x)) (.fin (T.cos s.theta.x)) (.fin (T.sin t.theta.x)) (.fin (T.cos t.theta.x))
      (.fin (t.x.v * T.cos t.theta.x + t.y.v * T.sin t.theta.x)) (stateOf s) (targetOf t),
    ((trackerOf k).track exact (libOf T pi) (stateOf s) (targetOf t) ⟨.fin ux, .fin uy, .fin 0, .fin 0⟩).1,
    ((trackerOf k).track exact (libOf T pi) (stateOf s) (targetOf t) ⟨.fin ux, .fin uy, .fin 0, .fin 0⟩).2.2, fun dux duy => Prod.ext rfl (Prod.ext ?_ rfl)⟩
  have hs : ∀ a : ℝ, (libOf T pi).sin (.fin a) = .fin (T.sin a) := fun _ => rfl
  have hc : ∀ a : ℝ, (libOf T pi).cos (.fin a) = .fin (T.cos a) := fun _ => rfl
  unfold Single.Tracker.track
  dsimp only
  have e1 : (stateOf s).theta.x = .fin s.theta.x := rfl
  have e2 : (targetOf t).theta.x = .fin t.theta.x := rfl
  have e3 : (targetOf t).x.v = .fin t.x.v := rfl
  have e4 : (targetOf t).y.v = .fin t.y.v := rfl
  have e5 : (trackerOf k).xi = .fin k.xi := rfl
  have e6 : (trackerOf k).period = .fin k.period := rfl
  rw [e1, e2, e3, e4, e5, e6]
  simp only [hs, hc, exact_mul, exact_add]
  have hcond : ((trackerOf k).xiThreshold.lt (F.fin (t.x.v * T.cos t.theta.x + t.y.v * T.sin t.theta.x)).abs ∧
      (trackerOf k).xiThreshold.lt (F.fin (k.xi + k.period * (ux * T.cos s.theta.x + uy * T.sin s.theta.x))).abs) ↔ usesJerk T k s t ux uy := Iff.rfl
  by_cases h : usesJerk T k s t ux uy
  · rw [if_pos h, if_pos (hcond.2 h)]
  · rw [if_neg h, if_neg fun h' => h (hcond.1 h')]

/-- What the tracker does with an input of the supervisor. -/
theorem supervised_exact (T : Control.Trig) {pi : ℝ} (hpi : 0 < pi) (k : Control.Tracker) (hk : 0 ≤ k.xiThreshold) (s : Control.State) (t : Control.Target)
    (i : Control.Supervised) (c : Control.Controller) :
    (∀ k' a b, trackSupervised T pi k s t i = some (k', a, b) →
      (trackerOf k).track exact (libOf T pi) (stateOf s) (targetOf t) (supervisedOf i) = (trackerOf k', referenceOf a, referenceOf b)) ∧
    (trackSupervised T pi k s t i = none →
      ¬ Modest ((controllerOf c).control exact ((trackerOf k).track exact (libOf T pi) (stateOf s) (targetOf t) (supervisedOf i)).2.1
        ((trackerOf k).track exact (libOf T pi) (stateOf s) (targetOf t) (supervisedOf i)).2.2).2.left) := by
  obtain ⟨ux, uy, dux, duy⟩ := i
  obtain ⟨sn, cs, dxi, xi, rest, kk, y, h⟩ := track_split T pi k s t ux uy
  have hfin : ∀ d1 d2 : ℝ, (trackerOf k).track exact (libOf T pi) (stateOf s) (targetOf t) (supervisedOf ⟨ux, uy, .fin d1, .fin d2⟩) =
      (trackerOf (k.track T pi s t ⟨ux, uy, d1, d2⟩).1, referenceOf (k.track T pi s t ⟨ux, uy, d1, d2⟩).2.1, referenceOf (k.track T pi s t ⟨ux, uy, d1, d2⟩).2.2) :=
    fun d1 d2 => C121_tracker T pi hpi k hk s t ⟨ux, uy, d1, d2⟩
  have hcase : (∃ d1 d2 : ℝ, dux = .fin d1 ∧ duy = .fin d2) ∨
      ((NonFin dux ∨ NonFin duy) ∧ trackSupervised T pi k s t ⟨ux, uy, dux, duy⟩ =
        (open Classical in if usesJerk T k s t ux uy then none else some (k.track T pi s t ⟨ux, uy, 0, 0⟩))) := by
    cases dux with
    | fin d1 =>
      cases duy with
      | fin d2 => exact .inl ⟨d1, d2, rfl, rfl⟩
      | _ => exact .inr ⟨.inr (fun r hr => by cases hr), rfl⟩
    | _ => exact .inr ⟨.inl (fun r hr => by cases hr), by cases duy <;> rfl⟩
  rcases hcase with ⟨d1, d2, rfl, rfl⟩ | ⟨hn, ht⟩
  · refine ⟨fun k' a b e => ?_, fun e => by cases e⟩
    have e' : k.track T pi s t ⟨ux, uy, d1, d2⟩ = (k', a, b) := Option.some.inj e
    rw [hfin, e']
  · rw [ht]
    by_cases hu : usesJerk T k s t ux uy
    · rw [if_pos hu]
      refine ⟨fun k' a b e => by (cases e), fun _ => ?_⟩
      show ¬ Modest ((controllerOf c).control exact ((trackerOf k).track exact (libOf T pi) (stateOf s) (targetOf t) ⟨.fin ux, .fin uy, dux, duy⟩).2.1
        ((trackerOf k).track exact (libOf T pi) (stateOf s) (targetOf t) ⟨.fin ux, .fin uy, dux, duy⟩).2.2).2.left
      rw [h, if_pos hu]
      have ha : NonFin (fast exact (.fin sn) (.fin cs) (.fin dxi) (.fin xi) ⟨.fin ux, .fin uy, dux, duy⟩).alpha := by
        unfold fast
        dsimp only
        refine NonFin.neg (NonFin.div ?_ xi)
        rcases hn with hn | hn
        · exact NonFin.sub (NonFin.add' (NonFin.mul hn _) _) _
        · exact NonFin.sub' (NonFin.mul hn _) _
      unfold Single.Controller.control controlEach
      dsimp only
      rintro ⟨r, hr, -⟩
      refine NonFin.sub' (NonFin.add (NonFin.add (NonFin.add (NonFin.div (NonFin.add (NonFin.mul ha _) _) c.rot.modelK) _) _) _) _ r hr
    · rw [if_neg hu]
      refine ⟨fun k' a b e => ?_, fun e => by cases e⟩
      have e' : k.track T pi s t ⟨ux, uy, 0, 0⟩ = (k', a, b) := Option.some.inj e
      have h0 := hfin 0 0
      rw [e'] at h0
      rw [← h0]
      show (trackerOf k).track exact (libOf T pi) (stateOf s) (targetOf t) ⟨.fin ux, .fin uy, dux, duy⟩ =
        (trackerOf k).track exact (libOf T pi) (stateOf s) (targetOf t) ⟨.fin ux, .fin uy, .fin 0, .fin 0⟩
      rw [h, h, if_neg hu, if_neg hu]

/-! ## The loop -/

/-- Two states of the test, one in floating point numbers, that agree. -/
structure SprintSame (g : RunGear) (m : Sprint) (m' : Runner) : Prop where
  robot : m.robot = robotOf m'.estimator m'.state g.navigation m'.tracker m'.controller
  simulator : m.simulator = simulatorOf m'.simulator
  stints : List.Forall₂ SetSame m.stints m'.trajectories

/-- Settings by which the code may divide. -/
structure Tractable (m : Runner) : Prop where
  period : 0 < m.estimator.period
  slip : 0 < m.estimator.slipConst
  approx : 0 < m.estimator.approxTh
  xi : 0 ≤ m.tracker.xiThreshold
  trans : m.controller.trans.modelK ≠ 0
  rot : m.controller.rot.modelK ≠ 0
  step : m.simulator.period ≠ 0
  transT : m.simulator.transT1 + m.simulator.period ≠ 0
  rotT : m.simulator.rotT1 + m.simulator.period ≠ 0

/-- In each of the first `n` rounds that are reached, the robot does not estimate that it slides at a right angle, and its position in millimetres is no larger than the
largest `usize`. -/
def StaysClose (g : RunGear) (top : Nat) (m : Runner) (n : Nat) : Prop :=
  ∀ k < n, ∀ m', g.go k m = .ok (true, m') → g.T.cos (m'.estimator.estimate g.T m'.state (sensed g.T m'.simulator)).1.slip ≠ 0 ∧
    (believed g m').x.x * 1000 ≤ top ∧ (believed g m').y.x * 1000 ≤ top

variable {g : RunGear} {top : Nat}

/-- One round. -/
theorem run_turn_exact (hpi : 0 < g.pi) (hw : g.supervisor.squareWidth * 1000 ≤ top) {m : Sprint} {m' : Runner} (h : SprintSame g m m') (hd : Tractable m')
    (hs : g.T.cos (m'.estimator.estimate g.T m'.state (sensed g.T m'.simulator)).1.slip ≠ 0) (hx : (believed g m').x.x * 1000 ≤ top)
    (hy : (believed g m').y.x * 1000 ≤ top) :
    Results (fun x y => x.1 = y.1 ∧ SprintSame g x.2 y.2 ∧ Tractable y.2) ((supervisorOf g.supervisor).turn exact (platformOf g.T g.pi top) m) (g.turn m') := by
  obtain ⟨h1, h2, h3⟩ := h
  have a1 := C121_estimator g.T g.pi m'.estimator m'.state (sensed g.T m'.simulator) hd.period hd.slip hd.approx hs
  obtain ⟨-, b2, b3, b4, b5, -⟩ := C131_model g.T g.pi m'.simulator hd.step hd.transT hd.rotT
  have hsen : senses exact (libOf g.T g.pi) m.simulator = sensorOf (sensed g.T m'.simulator) := by
    unfold senses sensed sensorOf
    rw [h2, b3, b4, b5]
  have hest : m.robot.estimator.estimate exact (platformOf g.T g.pi top).toLib m.robot.state (senses exact (platformOf g.T g.pi top).toLib m.simulator) =
      (estimatorOf (m'.estimator.estimate g.T m'.state (sensed g.T m'.simulator)).1, stateOf (m'.estimator.estimate g.T m'.state (sensed g.T m'.simulator)).2) := by
    show m.robot.estimator.estimate exact (libOf g.T g.pi) m.robot.state (senses exact (libOf g.T g.pi) m.simulator) = _
    rw [h1, hsen]
    exact a1
  have hu := same_upcoming g.T g.pi h3
  have htr : m.robot.tracker = trackerOf m'.tracker := by rw [h1]; rfl
  have hct : m.robot.controller = controllerOf m'.controller := by rw [h1]; rfl
  have hnv : m.robot.navigation = navigationOf g.navigation := by rw [h1]; rfl
  unfold Single.Supervisor.turn RunGear.turn
  unfold believed at hx hy
  rw [hest]
  have hp1 : (m'.estimator.estimate g.T m'.state (sensed g.T m'.simulator)).1.period = m'.estimator.period := rfl
  have hp2 : (m'.estimator.estimate g.T m'.state (sensed g.T m'.simulator)).1.slipConst = m'.estimator.slipConst := rfl
  have hp3 : (m'.estimator.estimate g.T m'.state (sensed g.T m'.simulator)).1.approxTh = m'.estimator.approxTh := rfl
  rcases hE : m'.estimator.estimate g.T m'.state (sensed g.T m'.simulator) with ⟨E, S⟩
  rw [hE] at hx hy hp1 hp2 hp3
  dsimp only at hx hy hp1 hp2 hp3 ⊢
  have hlib : (platformOf g.T g.pi top).toLib = libOf g.T g.pi := rfl
  rw [hlib, htr, hct, hnv, h2]
  cases hx1 : upcoming exact (libOf g.T g.pi) m.stints with
  | error e =>
    rw [hx1] at hu
    cases hy1 : Driver.nextTarget g.T m'.trajectories with
    | error e' => rw [hy1] at hu; exact hu
    | ok z => rw [hy1] at hu; exact hu.elim
  | ok z =>
    rw [hx1] at hu
    cases hy1 : Driver.nextTarget g.T m'.trajectories with
    | error e' => rw [hy1] at hu; exact hu.elim
    | ok z' =>
      rw [hy1] at hu
      obtain ⟨o, st⟩ := z
      obtain ⟨o', st'⟩ := z'
      obtain ⟨r1, r2⟩ := hu
      dsimp only at r1 r2
      subst r1
      simp only [bind, Except.bind, pure, Except.pure]
      cases o' with
      | none =>
        exact ⟨rfl, ⟨rfl, rfl, r2⟩, ⟨hp1 ▸ hd.period, hp2 ▸ hd.slip, hp3 ▸ hd.approx, hd.xi, hd.trans, hd.rot, hd.step, hd.transT, hd.rotT⟩⟩
      | some t =>
        dsimp only [Option.map_some]
        have hnav : (navigationOf g.navigation).navigate exact (stateOf S) (targetOf t) = inputOf (g.navigation.navigate S t) := C121_navigation ..
        have hsup := C122_same g.T g.pi top g.supervisor (g.navigation.navigate S t) S hw hx hy
        rw [hnav, hsup]
        cases hi : g.supervisor.supervise g.T (g.navigation.navigate S t) S with
        | error e => rfl
        | ok i =>
          obtain ⟨c1, c2⟩ := supervised_exact g.T hpi m'.tracker hd.xi S t i m'.controller
          dsimp only [Except.map]
          cases hts : trackSupervised g.T g.pi m'.tracker S t i with
          | none =>
            rw [if_neg fun hc => c2 hts ((modest_iff _).1 hc.1)]
            rfl
          | some x =>
            obtain ⟨k', a, b⟩ := x
            dsimp only
            have hc2 := c1 k' a b hts
            have hk' : 0 ≤ k'.xiThreshold := by
              have h0 : (trackerOf m'.tracker).xiThreshold = (trackerOf k').xiThreshold := congrArg (fun z => z.1.xiThreshold) hc2
              rw [← F.fin.inj h0]
              exact hd.xi
            rw [hc2]
            dsimp only
            rw [C121_controller _ hd.trans hd.rot]
            dsimp only
            rcases hcv : m'.controller.control a b with ⟨c', vol⟩
            have hq1 : c'.trans = m'.controller.trans := (congrArg (fun z => z.1.trans) hcv).symm
            have hq2 : c'.rot = m'.controller.rot := (congrArg (fun z => z.1.rot) hcv).symm
            dsimp only
            by_cases hv : |vol.left| ≤ 4 ∧ |vol.right| ≤ 4
            · rw [if_pos hv, if_pos (show (motorOf vol).left.abs.le (.fin 4) ∧ (motorOf vol).right.abs.le (.fin 4) from hv)]
              refine ⟨rfl, ⟨rfl, ?_, r2⟩, ⟨hp1 ▸ hd.period, hp2 ▸ hd.slip, hp3 ▸ hd.approx, hk', hq1 ▸ hd.trans, hq2 ▸ hd.rot, hd.step, hd.transT, hd.rotT⟩⟩
              show ((simulatorOf m'.simulator).apply (.fin vol.left) (.fin vol.right)).step exact (libOf g.T g.pi) = simulatorOf ((m'.simulator.apply vol.left vol.right).step g.T)
              rw [b2]
              exact (C131_model g.T g.pi (m'.simulator.apply vol.left vol.right) hd.step hd.transT hd.rotT).1
            · rw [if_neg hv, if_neg (show ¬ ((motorOf vol).left.abs.le (.fin 4) ∧ (motorOf vol).right.abs.le (.fin 4)) from hv)]
              rfl

/-- **C133, model.** Without rounding, and with the same sine and cosine, the loop of the test is the one in real numbers (C117): it goes on, ends or panics when that does, with the
same panic and in corresponding states. In particular a jerk of the supervisor that is infinite or no number makes the test fail exactly when the tracker uses it. -/
theorem C133_model (hpi : 0 < g.pi) (hw : g.supervisor.squareWidth * 1000 ≤ top) : ∀ (n : Nat) {m : Sprint} {m' : Runner}, SprintSame g m m' → Tractable m' →
    StaysClose g top m' n →
    Results (fun x y => x.1 = y.1 ∧ SprintSame g x.2 y.2 ∧ Tractable y.2) ((supervisorOf g.supervisor).go exact (platformOf g.T g.pi top) n m) (g.go n m')
  | 0, m, m', h, hd, _ => ⟨rfl, h, hd⟩
  | n + 1, m, m', h, hd, hs => by
    obtain ⟨s1, s2, s3⟩ := hs 0 (by omega) m' rfl
    have ht := run_turn_exact hpi hw h hd s1 s2 s3
    rw [Single.Supervisor.go, RunGear.go]
    cases hx : (supervisorOf g.supervisor).turn exact (platformOf g.T g.pi top) m with
    | error e =>
      rw [hx] at ht
      cases hy : g.turn m' with
      | error e' => rw [hy] at ht; exact ht
      | ok y => rw [hy] at ht; exact ht.elim
    | ok x =>
      rw [hx] at ht
      cases hy : g.turn m' with
      | error e' => rw [hy] at ht; exact ht.elim
      | ok y =>
        rw [hy] at ht
        obtain ⟨on, a⟩ := x
        obtain ⟨on', b⟩ := y
        obtain ⟨rfl, h', hd'⟩ := ht
        simp only [bind, Except.bind]
        cases on with
        | false => exact ⟨rfl, h', hd'⟩
        | true =>
          refine C133_model hpi hw n h' hd' fun k hk m2 h2 => hs (k + 1) (by omega) m2 ?_
          rw [RunGear.go, hy]
          exact h2

/-! ## Cases -/

/-- The first round of the test with its values, in any maze and with any trajectories: it does the same with and without floating point numbers. -/
example (maze : Walls.Walls) (stints : List (Place × Stint)) (trajectories : List (Detect.Pose × Driver.Traj)) (h : List.Forall₂ SetSame stints trajectories) :
    let i := initialRun maze trajectories
    Results (fun x y => x.1 = y.1 ∧ SprintSame (runGear .real Real.pi) x.2 y.2 ∧ Tractable y.2)
      ((supervisorOf ⟨100, 0.02, 0.09⟩).go exact (platformOf .real Real.pi (2 ^ 32 - 1)) 1
        ⟨robotOf i.estimator i.state ⟨40, 4⟩ i.tracker i.controller, simulatorOf i.simulator, stints⟩)
      ((runGear .real Real.pi).go 1 i) := by
  intro i
  refine C133_model (g := runGear .real Real.pi) (top := 2 ^ 32 - 1) Real.pi_pos (by norm_num [runGear]) 1 ⟨rfl, rfl, h⟩ ?_ fun k hk m' hm => ?_
  · constructor <;> norm_num [i, initialRun, Estimate.Estimator.new, Control.Controller.new, Sim.Simulator.new]
  · obtain rfl : k = 0 := by omega
    cases hm
    have hsen : sensed .real i.simulator = ⟨0, 0, 0, 0⟩ := by
      norm_num [i, initialRun, Sim.Simulator.new, sensed, Sim.Simulator.angularVelocity, Sim.Simulator.distance, Sim.Simulator.average, Sim.Simulator.transAcc, standing]
    have hslip : (i.estimator.estimate .real i.state (sensed .real i.simulator)).1.slip = 0 := by
      rw [hsen]
      norm_num [i, initialRun, Estimate.Estimator.new, Estimate.Estimator.nextSlip, Estimate.Estimator.estimate]
    refine ⟨?_, ?_, ?_⟩
    · have e : Real.cos (i.estimator.estimate .real i.state (sensed .real i.simulator)).1.slip ≠ 0 := by rw [hslip, Real.cos_zero]; norm_num
      exact e
    · show (i.estimator.estimate .real i.state (sensed .real i.simulator)).2.x.x * 1000 ≤ _
      rw [hsen]
      norm_num [i, initialRun, Estimate.Estimator.new, Estimate.Estimator.nextSlip, Estimate.Estimator.nextVel, Estimate.Estimator.estimate, standing]
    · show (i.estimator.estimate .real i.state (sensed .real i.simulator)).2.y.x * 1000 ≤ _
      rw [hsen]
      norm_num [i, initialRun, Estimate.Estimator.new, Estimate.Estimator.nextSlip, Estimate.Estimator.nextVel, Estimate.Estimator.estimate, standing]

end Verif.Props
