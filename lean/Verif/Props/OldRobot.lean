import Verif.Props.OldReckon
import Verif.Props.OldDetect
/-!
# C104: the former robot
-/
namespace Verif.Props
open Verif Verif.Spec Verif.Old.Robot Verif.Proof.OldV Verif.Old.Detect Verif.Old.Manager
open Verif.Detect (Pose)
open Verif.Estimate (Sensor)

/-- **C104, order.** In any arithmetic: if two robots have the same estimator and the same tracker and get the same encoders, inertial sensor and target, then what is done to the
motors, the result and the new tracker are the same, whatever the distance sensors, the memories and the converters. The new estimators differ at most in the
position and its deviations. If the call fails, they do not differ at all, and the detector is left as it was. -/
theorem C104_order (A : Arith) (pi : ℝ) {conv conv' : FPose → R (Except ConvError Info)} {W W' : Nat} {e : Old.Robot.Estimator} {k : Old.Robot.Tracker} {d d' : Detector}
    {v : Sensors} {t : Control.Target} {i i' : List Input} {r r' : Robot} {deed deed' : Deed}
    (h : Robot.trackAndUpdate A pi conv W ⟨e, k, d⟩ ⟨v, t, i⟩ = .ok (r, deed)) (h' : Robot.trackAndUpdate A pi conv' W' ⟨e, k, d'⟩ ⟨v, t, i'⟩ = .ok (r', deed')) :
    deed = deed' ∧ r.tracker = r'.tracker ∧
      (∃ seen, r'.estimator = { r.estimator with state := r.estimator.state.withSeen seen }) ∧
      (deed.2 ≠ .ok () → r.estimator = r'.estimator ∧ r.detector = d) := by
  unfold Robot.trackAndUpdate at h h'
  simp only at h h'
  cases hp : e.poll A v with
  | error p => rw [hp] at h; cases h
  | ok e1 =>
    rw [hp] at h h'
    simp only [bind, Except.bind] at h h'
    rcases hk : k.track A pi e1.state t with ⟨k1, eff, res⟩
    simp only [hk] at h h'
    cases res with
    | error q =>
      simp only [pure, Except.pure, Except.ok.injEq, Prod.mk.injEq] at h h'
      obtain ⟨rfl, rfl⟩ := h
      obtain ⟨rfl, rfl⟩ := h'
      exact ⟨rfl, rfl, ⟨e1.state.seen, rfl⟩, fun _ => ⟨rfl, rfl⟩⟩
    | ok u =>
      simp only at h h'
      cases hd : detectAndUpdate A conv W d i e1.state.seen with
      | error q => rw [hd] at h; cases h
      | ok a =>
        cases hd' : detectAndUpdate A conv' W' d' i' e1.state.seen with
        | error q => rw [hd'] at h'; cases h'
        | ok a' =>
          rw [hd] at h
          rw [hd'] at h'
          simp only [pure, Except.pure, Except.ok.injEq, Prod.mk.injEq] at h h'
          obtain ⟨rfl, rfl⟩ := h
          obtain ⟨rfl, rfl⟩ := h'
          exact ⟨rfl, rfl, ⟨a'.2, rfl⟩, fun hn => absurd rfl hn⟩

variable {W : Nat} {conv : FPose → R (Except ConvError Info)} {see : Pose → Option Seen}

/-- One call of a robot whose estimator does not add to the deviations. -/
theorem tick_eq (hW : Supported W) (hs : Sees W conv see) (pi : ℝ) {e : Old.Robot.Estimator} {α v b : ℝ} {s : Control.State} {sx sy : ℝ} (h : Knows e α v b s sx sy)
    (hδ : e.devDelta = 0) (k : Old.Robot.Tracker) {d : Detector} {g : Guess} (hd : Remembers W d g) (hc : Chances W g) {q : Round} (hq : q.Fair W) :
    ∃ e1 v1 b1 s1 k1 deed, e.poll exact (sensed q.sensor) = .ok e1 ∧ k.track exact pi e1.state q.target = (k1, deed) ∧ Knows e1 α v1 b1 s1 sx sy ∧ e1.devDelta = 0 ∧
      s1.theta.x = s.theta.x + q.sensor.omega * e.period ∧ e1.period = e.period ∧
      ∃ e2 d2 g2 s2 sx2 sy2, Robot.trackAndUpdate exact pi conv W ⟨e, k, d⟩ (q.tick W) = .ok (⟨e2, k1, d2⟩, deed) ∧
        Knows e2 α v1 b1 s2 sx2 sy2 ∧ e2.devDelta = 0 ∧ e2.period = e.period ∧ Remembers W d2 g2 ∧ Chances W g2 ∧ s2.theta = s1.theta ∧
        |sx2| + |sy2| ≤ |sx| + |sy| ∧
        (sx = 0 → sy = 0 → e2 = e1) ∧
        (deed.2 = .ok () → ∃ s', detectAndUpdate exact conv W d (q.looks.map (Look.input W)) (stateAt (stands s1) sx sy) = .ok (d2, s')) ∧
        (∀ f, deed.2 = .error f → d2 = d) := by
  have hk := after_knows h q.sensor
  have hp := poll_eq h q.sensor
  have p1 : (after e α v b s sx sy q.sensor).devDelta = 0 := hδ
  have p2 : (after e α v b s sx sy q.sensor).period = e.period := rfl
  rw [hδ, add_zero, add_zero] at hk
  generalize after e α v b s sx sy q.sensor = e1 at hk hp p1 p2
  generalize hv1 : (newer e α v b).nextVel q.sensor = v1 at hk
  generalize hb1 : (newer e α v b).nextSlip v1 q.sensor.omega = b1 at hk
  have p3 : (next e.period e.approxTh v1 b1 s q.sensor).theta.x = s.theta.x + q.sensor.omega * e.period := rfl
  generalize next e.period e.approxTh v1 b1 s q.sensor = s1 at hk p3
  rcases hkt : k.track exact pi e1.state q.target with ⟨k1, eff, res⟩
  refine ⟨e1, v1, b1, s1, k1, (eff, res), hp, hkt, hk, p1, p3, p2, ?_⟩
  have hseen : e1.state.seen = stateAt (stands s1) sx sy := by rw [hk.state]; rfl
  cases res with
  | error f =>
    refine ⟨e1, d, g, s1, sx, sy, ?_, hk, p1, p2, hd, hc, rfl, le_rfl, fun _ _ => rfl, by simp, fun _ _ => rfl⟩
    unfold Robot.trackAndUpdate Round.tick
    simp only [hp, bind, Except.bind, hkt]
    rfl
  | ok u =>
    obtain ⟨d2, g2, hg2, c1, c2, c3, -⟩ := C91_call hW hs hd hc hq.1 hq.2 (stands s1) sx sy
    obtain ⟨d3, x, y, σ, n1, n2, n3⟩ := C91_narrows hW hs hd hc hq.1 hq.2 (stands s1) sx sy
    rw [c1] at n1
    simp only [Except.ok.injEq, Prod.mk.injEq, Old.Detect.State.mk.injEq, F.fin.injEq] at n1
    obtain ⟨-, -, -, hσ, -, -⟩ := n1
    refine ⟨{ e1 with state := e1.state.withSeen ⟨.fin ((stands s1).x + g2.dx), .fin ((stands s1).y + g2.dy), .fin (Real.sqrt g2.var), .fin (Real.sqrt g2.var), (stands s1).theta⟩ },
      d2, g2, ⟨⟨s1.x.x + g2.dx, s1.x.v, s1.x.a⟩, ⟨s1.y.x + g2.dy, s1.y.v, s1.y.a⟩, s1.theta⟩, Real.sqrt g2.var, Real.sqrt g2.var, ?_, ?_, p1, p2, c2, c3, rfl, ?_, ?_,
      fun _ => ⟨_, c1⟩, by simp⟩
    · unfold Robot.trackAndUpdate Round.tick
      simp only [hp, bind, Except.bind, hkt, hseen, c1]
      rfl
    · exact ⟨hk.period, hk.slipConst, hk.approx, hk.alpha, hk.vel, hk.slip, by rw [hk.state]; rfl⟩
    · rw [hσ, abs_of_nonneg n2]
      have : |(sx + sy) / 2| ≤ (|sx| + |sy|) / 2 := by
        rw [abs_div, abs_two]
        have := abs_add_le sx sy
        linarith
      linarith
    · rintro rfl rfl
      obtain ⟨d4, f1⟩ := C91_frozen hW hs hd hc hq.1 hq.2 (stands s1)
      rw [c1] at f1
      simp only [Except.ok.injEq, Prod.mk.injEq] at f1
      rw [f1.2]
      have : e1.state.withSeen (stateAt (stands s1) 0 0) = e1.state := by rw [hk.state]; rfl
      rw [this]

/-- Several calls of a robot whose estimator does not add to the deviations. -/
theorem follow_eq (hW : Supported W) (hs : Sees W conv see) (pi : ℝ) (l : List Round) : ∀ {e : Old.Robot.Estimator} {α v b : ℝ} {s : Control.State} {sx sy : ℝ}, Knows e α v b s sx sy →
    e.devDelta = 0 → ∀ (k : Old.Robot.Tracker) {d : Detector} {g : Guess}, Remembers W d g → Chances W g → (∀ q ∈ l, q.Fair W) →
    ∃ e' k' d' deeds v' b' s' sx' sy' g', follow exact pi conv W (l.map (Round.tick W)) ⟨e, k, d⟩ = .ok (⟨e', k', d'⟩, deeds) ∧ deeds.length = l.length ∧
      Knows e' α v' b' s' sx' sy' ∧ Remembers W d' g' ∧ Chances W g' ∧ |sx'| + |sy'| ≤ |sx| + |sy| ∧
      s'.theta.x = s.theta.x + (l.map fun q => q.sensor.omega * e.period).sum ∧
      (sx = 0 → sy = 0 → ∃ out sights, blindly exact pi (l.map Round.blind) e k = .ok (e', k', out) ∧ deeds = out.map Prod.snd ∧ Sightings l out sights ∧
        detections conv W sights d = .ok d') := by
  induction l with
  | nil =>
    intro e α v b s sx sy h hδ k d g hd hc _
    exact ⟨e, k, d, [], v, b, s, sx, sy, g, rfl, rfl, h, hd, hc, le_rfl, by simp, fun _ _ => ⟨[], [], rfl, rfl, .nil, rfl⟩⟩
  | cons q l ih =>
    intro e α v b s sx sy h hδ k d g hd hc hl
    obtain ⟨e1, v1, b1, s1, k1, deed, hp, hk, hk1, hδ1, ht1, hT1, e2, d2, g2, s2, sx2, sy2, hr, hk2, hδ2, hT2, hd2, hc2, ht2, hdev, hzero, hdet, hfail⟩ :=
      tick_eq hW hs pi h hδ k hd hc (hl q List.mem_cons_self)
    obtain ⟨e', k', d', deeds, v', b', s', sx', sy', g', i1, i2, i3, i4, i5, i6, i7, i8⟩ := ih hk2 hδ2 k1 hd2 hc2 (fun q hq => hl q (List.mem_cons_of_mem _ hq))
    refine ⟨e', k', d', deed :: deeds, v', b', s', sx', sy', g', ?_, by simp [i2], i3, i4, i5, i6.trans hdev, ?_, ?_⟩
    · show (Robot.trackAndUpdate exact pi conv W ⟨e, k, d⟩ (q.tick W)).bind _ = _
      rw [hr]
      show (follow exact pi conv W (l.map (Round.tick W)) ⟨e2, k1, d2⟩).bind _ = _
      rw [i1]
      rfl
    · rw [i7, ht2, ht1, hT2, List.map_cons, List.sum_cons]; ring
    · rintro rfl rfl
      have he := hzero rfl rfl
      subst he
      obtain ⟨-, -, rfl, rfl, rfl⟩ := knows_unique hk1 hk2
      obtain ⟨out, sights, j1, j2, j3, j4⟩ := i8 rfl rfl
      obtain ⟨eff, res⟩ := deed
      have hb : blindly exact pi ((q :: l).map Round.blind) e k = .ok (e', k', (e2.state, eff, res) :: out) := by
        show (e.poll exact (sensed q.sensor)).bind _ = _
        rw [hp]
        simp only [Except.bind, hk]
        show (blindly exact pi (l.map Round.blind) e2 k1).bind _ = _
        rw [j1]
        rfl
      cases res with
      | ok u =>
        obtain ⟨s', hdet⟩ := hdet rfl
        refine ⟨_, (stands s2, 0, 0, q.looks) :: sights, hb, by rw [j2]; rfl, ?_, ?_⟩
        · rw [hk2.state]; exact .ok j3
        · show (detectAndUpdate exact conv W d (q.looks.map (Look.input W)) (stateAt (stands s2) 0 0)).bind _ = _
          rw [hdet]
          exact j4
      | error f =>
        have := hfail f rfl
        subst this
        exact ⟨_, sights, hb, by rw [j2]; rfl, .failed j3, j4⟩

theorem new_knows {m : Manager} {prob : Old.Wall → ℝ} (hm : Recalls W m fun w => .fin (prob w)) : Remembers W (Detector.new m) ⟨fun _ => none, prob, 0, 0, 0⟩ :=
  ⟨hm, fun _ _ => rfl⟩

/-- **C104, a run.** A robot made with fair settings, from any state with any deviations, and a memory with any probabilities, never panics however often it is called, if all sensors answer with numbers.
Every call does something to the motors. The sum of the deviations never grows, whatever the setting says that should be added to them at each
call: this setting is ignored. The heading changes by the sum of the measured turns, whatever the distance sensors say. All probabilities stay between 0 and 1. -/
theorem C104_run (hW : Supported W) (hs : Sees W conv see) {pi : ℝ} (hpi : 0 < pi) {c : Settings} (hc : Settings.Fair c) (s : Control.State) {sx sy : ℝ} (hx : 0 ≤ sx) (hy : 0 ≤ sy)
    {m : Manager} {prob : Old.Wall → ℝ} (hm : Recalls W m fun w => .fin (prob w)) (hp : ∀ w, InMaze W w → 0 ≤ prob w ∧ prob w ≤ 1) {l : List Round} (hl : ∀ q ∈ l, q.Fair W) :
    ∃ (r r' : Robot) (deeds : List Deed) (s' : Control.State) (sx' sy' : ℝ) (prob' : Old.Wall → ℝ), Robot.construct exact pi c (robotAt s sx sy) m = .ok r ∧ follow exact pi conv W (l.map (Round.tick W)) r = .ok (r', deeds) ∧
      deeds.length = l.length ∧ r'.estimator.state = robotAt s' sx' sy' ∧ |sx'| + |sy'| ≤ sx + sy ∧
      s'.theta.x = s.theta.x + (l.map fun q => q.sensor.omega * c.period).sum ∧
      Recalls W r'.detector.memory (fun w => .fin (prob' w)) ∧ ∀ w, InMaze W w → 0 ≤ prob' w ∧ prob' w ≤ 1 := by
  obtain ⟨e, α, h1, h2, -, -, -, h3, -, -, h4⟩ := C102_construct hpi hc s sx sy
  obtain ⟨e', k', d', deeds, v', b', s', sx', sy', g', i1, i2, i3, i4, i5, i6, i7, -⟩ := follow_eq hW hs pi l h2 h4 (.construct c) (new_knows hm) hp hl
  refine ⟨⟨e, .construct c, .new m⟩, ⟨e', k', d'⟩, deeds, s', sx', sy', g'.prob, ?_, i1, i2, i3.state, ?_, ?_, i4.memory, i5⟩
  · unfold Robot.construct
    rw [h1]
    rfl
  · rwa [abs_of_nonneg hx, abs_of_nonneg hy] at i6
  · rw [i7, h3]

/-- **C104, blind.** If the robot starts with a position that is taken to be exact, then the distance sensors never have an influence on where it believes to be, nor on what it does: the estimates
and the deeds are those of a robot without distance sensors. The detector sees the maze from the poses so found. -/
theorem C104_blind (hW : Supported W) (hs : Sees W conv see) {pi : ℝ} (hpi : 0 < pi) {c : Settings} (hc : Settings.Fair c) (s : Control.State)
    {m : Manager} {prob : Old.Wall → ℝ} (hm : Recalls W m fun w => .fin (prob w)) (hp : ∀ w, InMaze W w → 0 ≤ prob w ∧ prob w ≤ 1) {l : List Round} (hl : ∀ q ∈ l, q.Fair W) :
    ∃ e r r' out sights, Old.Robot.Estimator.construct exact pi c (robotAt s 0 0) = .ok e ∧ Robot.construct exact pi c (robotAt s 0 0) m = .ok r ∧
      blindly exact pi (l.map Round.blind) e (.construct c) = .ok (r'.estimator, r'.tracker, out) ∧
      follow exact pi conv W (l.map (Round.tick W)) r = .ok (r', out.map Prod.snd) ∧
      Sightings l out sights ∧ detections conv W sights (.new m) = .ok r'.detector := by
  obtain ⟨e, α, h1, h2, -, -, -, h3, -, -, h4⟩ := C102_construct hpi hc s 0 0
  obtain ⟨e', k', d', deeds, v', b', s', sx', sy', g', i1, i2, i3, i4, i5, i6, i7, i8⟩ := follow_eq hW hs pi l h2 h4 (.construct c) (new_knows hm) hp hl
  obtain ⟨out, sights, j1, rfl, j3, j4⟩ := i8 rfl rfl
  refine ⟨e, ⟨e, .construct c, .new m⟩, ⟨e', k', d'⟩, out, sights, h1, ?_, j1, i1, j3, j4⟩
  unfold Robot.construct
  rw [h1]
  rfl

/-- **C104, life.** The same for one operator after the other, each with settings of its own: never a panic; the sum of the deviations never grows; and if the position is taken to be exact at
first, it is so for ever, and all deeds and the state are those of a life without distance sensors. -/
theorem C104_life (hW : Supported W) (hs : Sees W conv see) {pi : ℝ} (hpi : 0 < pi) (life : List (Settings × List Round)) :
    ∀ (s : Control.State) {sx sy : ℝ} (_ : 0 ≤ sx) (_ : 0 ≤ sy)
    {m : Manager} {prob : Old.Wall → ℝ} (_ : Recalls W m fun w => .fin (prob w)) (_ : ∀ w, InMaze W w → 0 ≤ prob w ∧ prob w ≤ 1)
    (_ : ∀ o ∈ life, Settings.Fair o.1 ∧ ∀ q ∈ o.2, q.Fair W),
    ∃ (s' : Control.State) (sx' sy' : ℝ) (m' : Manager) (prob' : Old.Wall → ℝ) (deeds : List Deed), operators exact pi conv W (life.map fun o => (o.1, o.2.map (Round.tick W))) (robotAt s sx sy, m) = .ok ((robotAt s' sx' sy', m'), deeds) ∧
      deeds.length = (life.map fun o => o.2.length).sum ∧ |sx'| + |sy'| ≤ sx + sy ∧
      s'.theta.x = s.theta.x + (life.map fun o => (o.2.map fun q => q.sensor.omega * o.1.period).sum).sum ∧
      Recalls W m' (fun w => .fin (prob' w)) ∧ (∀ w, InMaze W w → 0 ≤ prob' w ∧ prob' w ≤ 1) ∧
      (sx = 0 → sy = 0 → sx' = 0 ∧ sy' = 0 ∧
        blindLife exact pi (life.map fun o => (o.1, o.2.map Round.blind)) (robotAt s 0 0) = .ok (robotAt s' 0 0, deeds)) := by
  have main : ∀ (life : List (Settings × List Round)) (s : Control.State) (sx sy : ℝ)
      (m : Manager) (prob : Old.Wall → ℝ) (_ : Recalls W m fun w => .fin (prob w)) (_ : ∀ w, InMaze W w → 0 ≤ prob w ∧ prob w ≤ 1)
      (_ : ∀ o ∈ life, Settings.Fair o.1 ∧ ∀ q ∈ o.2, q.Fair W),
      ∃ (s' : Control.State) (sx' sy' : ℝ) (m' : Manager) (prob' : Old.Wall → ℝ) (deeds : List Deed), operators exact pi conv W (life.map fun o => (o.1, o.2.map (Round.tick W))) (robotAt s sx sy, m) = .ok ((robotAt s' sx' sy', m'), deeds) ∧
        deeds.length = (life.map fun o => o.2.length).sum ∧ |sx'| + |sy'| ≤ |sx| + |sy| ∧
        s'.theta.x = s.theta.x + (life.map fun o => (o.2.map fun q => q.sensor.omega * o.1.period).sum).sum ∧
        Recalls W m' (fun w => .fin (prob' w)) ∧ (∀ w, InMaze W w → 0 ≤ prob' w ∧ prob' w ≤ 1) ∧
        (sx = 0 → sy = 0 → sx' = 0 ∧ sy' = 0 ∧
          blindLife exact pi (life.map fun o => (o.1, o.2.map Round.blind)) (robotAt s 0 0) = .ok (robotAt s' 0 0, deeds)) := by
    intro life
    induction life with
    | nil =>
      intro s sx sy m prob hm hp _
      exact ⟨s, sx, sy, m, prob, [], rfl, rfl, le_rfl, by simp, hm, hp, fun h h' => ⟨h, h', rfl⟩⟩
    | cons o life ih =>
      intro s sx sy m prob hm hp hl
      obtain ⟨c, l⟩ := o
      obtain ⟨hc, hq⟩ := hl (c, l) List.mem_cons_self
      obtain ⟨e, α, h1, h2, -, -, -, h3, -, -, h4⟩ := C102_construct hpi hc s sx sy
      obtain ⟨e', k', d', deeds, v', b', s1, sx1, sy1, g', i1, i2, i3, i4, i5, i6, i7, i8⟩ := follow_eq hW hs pi l h2 h4 (.construct c) (new_knows hm) hp hq
      obtain ⟨s', sx', sy', m', prob', more, j1, j2, j3, j4, j5, j6, j7⟩ := ih s1 sx1 sy1 d'.memory g'.prob i4.memory i5 (fun o ho => hl o (List.mem_cons_of_mem _ ho))
      refine ⟨s', sx', sy', m', prob', deeds ++ more, ?_, ?_, j3.trans i6, ?_, j5, j6, ?_⟩
      · rw [List.map_cons]
        unfold operators
        show (Robot.construct exact pi c (robotAt s sx sy) m).bind _ = _
        unfold Robot.construct
        rw [h1]
        show (follow exact pi conv W (l.map (Round.tick W)) ⟨e, .construct c, .new m⟩).bind _ = _
        rw [i1]
        show (operators exact pi conv W (life.map fun o => (o.1, o.2.map (Round.tick W))) (e'.state, d'.memory)).bind _ = _
        rw [i3.state, j1]
        rfl
      · simp [i2, j2]
      · rw [j4, i7, h3]; simp [add_assoc]
      · rintro rfl rfl
        obtain ⟨out, sights, b1, b2, -, -⟩ := i8 rfl rfl
        have z1 : sx1 = 0 ∧ sy1 = 0 := by
          simp only [abs_zero, add_zero] at i6
          constructor
          · exact abs_eq_zero.1 (by have := abs_nonneg sx1; have := abs_nonneg sy1; linarith)
          · exact abs_eq_zero.1 (by have := abs_nonneg sx1; have := abs_nonneg sy1; linarith)
        obtain ⟨rfl, rfl⟩ := z1
        obtain ⟨w1, w2, w3⟩ := j7 rfl rfl
        refine ⟨w1, w2, ?_⟩
        rw [List.map_cons]
        unfold blindLife
        show (Old.Robot.Estimator.construct exact pi c (robotAt s 0 0)).bind _ = _
        rw [h1]
        show (blindly exact pi (l.map Round.blind) e (.construct c)).bind _ = _
        rw [b1]
        show (blindLife exact pi (life.map fun o => (o.1, o.2.map Round.blind)) e'.state).bind _ = _
        rw [i3.state, w3, b2]
        rfl
  intro s sx sy hx hy m prob hm hp hl
  have := main life s sx sy m prob hm hp hl
  rwa [abs_of_nonneg hx, abs_of_nonneg hy] at this

/-- **C104, no influence.** With a position taken to be exact at first, two lives with the same settings, encoders, inertial sensors and targets, in mazes as different as one likes, with distance sensors
that say different things, with different memories and different deviations to be added, have the same deeds and end in the same state. -/
theorem C104_no_influence {W W' : Nat} (hW : Supported W) (hW' : Supported W') {conv conv' : FPose → R (Except ConvError Info)} {see see' : Pose → Option Seen} (hs : Sees W conv see)
    (hs' : Sees W' conv' see') {pi : ℝ} (hpi : 0 < pi) {life life' : List (Settings × List Round)} (s : Control.State) {m m' : Manager} {prob prob' : Old.Wall → ℝ}
    (hm : Recalls W m fun w => .fin (prob w)) (hm' : Recalls W' m' fun w => .fin (prob' w))
    (hp : ∀ w, InMaze W w → 0 ≤ prob w ∧ prob w ≤ 1) (hp' : ∀ w, InMaze W' w → 0 ≤ prob' w ∧ prob' w ≤ 1)
    (hl : ∀ o ∈ life, Settings.Fair o.1 ∧ ∀ q ∈ o.2, q.Fair W) (hl' : ∀ o ∈ life', Settings.Fair o.1 ∧ ∀ q ∈ o.2, q.Fair W')
    (hsame : List.Forall₂ (fun o o' => { o'.1 with devDelta := o.1.devDelta } = o.1 ∧
      List.Forall₂ (fun q q' => q.sensor = q'.sensor ∧ q.target = q'.target) o.2 o'.2) life life') :
    ∃ state deeds n n', operators exact pi conv W (life.map fun o => (o.1, o.2.map (Round.tick W))) (robotAt s 0 0, m) = .ok ((state, n), deeds) ∧
      operators exact pi conv' W' (life'.map fun o => (o.1, o.2.map (Round.tick W'))) (robotAt s 0 0, m') = .ok ((state, n'), deeds) := by
  obtain ⟨s1, sx1, sy1, n, -, deeds, a1, -, -, -, -, -, a2⟩ := C104_life hW hs hpi life s le_rfl le_rfl hm hp hl
  obtain ⟨s2, sx2, sy2, n', -, deeds', b1, -, -, -, -, -, b2⟩ := C104_life hW' hs' hpi life' s le_rfl le_rfl hm' hp' hl'
  obtain ⟨rfl, rfl, a3⟩ := a2 rfl rfl
  obtain ⟨rfl, rfl, b3⟩ := b2 rfl rfl
  have hbl : ∀ l l' : List Round, List.Forall₂ (fun q q' => q.sensor = q'.sensor ∧ q.target = q'.target) l l' → l.map Round.blind = l'.map Round.blind := by
    intro l l' h
    induction h with
    | nil => rfl
    | cons h _ ih => simp only [List.map_cons, ih, Round.blind, h.1, h.2]
  have heq : ∀ st, blindLife exact pi (life.map fun o => (o.1, o.2.map Round.blind)) st = blindLife exact pi (life'.map fun o => (o.1, o.2.map Round.blind)) st := by
    clear a1 a2 a3 b1 b2 b3 hl hl'
    induction hsame with
    | nil => intro st; rfl
    | @cons o o' life life' h _ ih =>
      intro st
      obtain ⟨c, l⟩ := o
      obtain ⟨c', l'⟩ := o'
      obtain ⟨h1, h2⟩ := h
      simp only at h1 h2
      rw [List.map_cons, List.map_cons]
      unfold blindLife
      have hcons : Old.Robot.Estimator.construct exact pi c st = Old.Robot.Estimator.construct exact pi c' st := by
        rw [← h1]; rfl
      have htr : Old.Robot.Tracker.construct c = .construct c' := by rw [← h1]; rfl
      show (Old.Robot.Estimator.construct exact pi c st).bind _ = (Old.Robot.Estimator.construct exact pi c' st).bind _
      rw [hcons]
      cases Old.Robot.Estimator.construct exact pi c' st with
      | error p => rfl
      | ok e =>
        show (blindly exact pi (l.map Round.blind) e (.construct c)).bind _ = (blindly exact pi (l'.map Round.blind) e (.construct c')).bind _
        rw [hbl l l' h2, htr]
        cases blindly exact pi (l'.map Round.blind) e (.construct c') with
        | error p => rfl
        | ok x =>
          obtain ⟨e1, k1, out⟩ := x
          show (blindLife exact pi (life.map fun o => (o.1, o.2.map Round.blind)) e1.state).bind _ = (blindLife exact pi (life'.map fun o => (o.1, o.2.map Round.blind)) e1.state).bind _
          rw [ih]
  rw [heq, b3] at a3
  simp only [Except.ok.injEq, Prod.mk.injEq] at a3
  obtain ⟨e1, rfl⟩ := a3
  rw [← e1] at a1
  exact ⟨_, _, n, n', a1, b1⟩

/-- Two operators after each other. A robot in the default maze that is told that it moves by 1 mm per period, first with a sensor that measures `z` to the wall right of the start, then with one that measures `z'`. -/
noncomputable def demoLife (z z' : ℝ) : List (Settings × List Round) :=
  let p : Control.Params := ⟨1, 0, 0, 1, 0⟩
  let c : Settings := ⟨1 / 1000, p, p, 3, 50, 100, 1 / 10, 1 / 100, 7, 7, 1 / 10, 1, 1⟩
  let t : Control.Target := ⟨⟨1, 1, 0, 0⟩, .zero, .zero⟩
  [(c, [⟨⟨1 / 1000, 1 / 1000, 0, 0⟩, t, [ahead z (1 / 100)]⟩, ⟨⟨1 / 1000, 1 / 1000, 0, 0⟩, t, [ahead z (1 / 100), ahead z' (1 / 50)]⟩]),
    (c, [⟨⟨1 / 1000, 1 / 1000, 0, 1⟩, t, [ahead z' (1 / 100)]⟩])]

theorem demoLife_fair (z z' : ℝ) : ∀ o ∈ demoLife z z', Settings.Fair o.1 ∧ ∀ q ∈ o.2, q.Fair 16 := by
  intro o ho
  simp only [demoLife, List.mem_cons, List.not_mem_nil, or_false] at ho
  have hf : ∀ x : ℝ, (ahead x 100⁻¹).Fair 16 := fun x => ahead_fair (by norm_num)
  have hf' : ∀ x : ℝ, (ahead x 50⁻¹).Fair 16 := fun x => ahead_fair (by norm_num)
  rcases ho with rfl | rfl
  · refine ⟨by constructor <;> norm_num, ?_⟩
    simp only [List.mem_cons, List.not_mem_nil, or_false]
    rintro q (rfl | rfl) <;> constructor <;> simp [hf, hf']
  · refine ⟨by constructor <;> norm_num, ?_⟩
    simp only [List.mem_cons, List.not_mem_nil, or_false]
    rintro q rfl
    constructor <;> simp [hf]

/-- Whatever the sensor measures, the robot does the same; it has turned by 1 mrad. -/
example {pi : ℝ} (hpi : 0 < pi) (z z' u u' : ℝ) : ∃ m state deeds n n', new 16 (.fin (1 / 10)) = .ok m ∧
    operators exact pi (convertF Convert.Converter.default 16 demoSort) 16 ((demoLife z z').map fun o => (o.1, o.2.map (Round.tick 16))) (robotAt ⟨⟨0, 0, 0⟩, ⟨0, 0, 0⟩, ⟨0, 0, 0⟩⟩ 0 0, m) =
      .ok ((state, n), deeds) ∧
    operators exact pi (convertF Convert.Converter.default 16 demoSort) 16 ((demoLife u u').map fun o => (o.1, o.2.map (Round.tick 16))) (robotAt ⟨⟨0, 0, 0⟩, ⟨0, 0, 0⟩, ⟨0, 0, 0⟩⟩ 0 0, m) =
      .ok ((state, n'), deeds) ∧
    deeds.length = 3 ∧ state.theta.x = 1 / 1000 := by
  have hW : Supported 16 := ⟨4, by decide, rfl⟩
  obtain ⟨see, hs, -⟩ := demo_sees hW
  obtain ⟨m, g, h1, h2, h3, -, -⟩ := demo_guess hW (.fin (1 / 10))
  have hsame : List.Forall₂ (fun o o' => { o'.1 with devDelta := o.1.devDelta } = o.1 ∧
      List.Forall₂ (fun q q' => q.sensor = q'.sensor ∧ q.target = q'.target) o.2 o'.2) (demoLife z z') (demoLife u u') := by
    simp [demoLife]
  obtain ⟨state, deeds, n, n', a, b⟩ := C104_no_influence hW hW hs hs hpi ⟨⟨0, 0, 0⟩, ⟨0, 0, 0⟩, ⟨0, 0, 0⟩⟩ h2.memory h2.memory h3 h3 (demoLife_fair z z') (demoLife_fair u u') hsame
  obtain ⟨s', sx, sy, m', -, deeds', c1, c2, -, c3, -⟩ := C104_life hW hs hpi (demoLife z z') ⟨⟨0, 0, 0⟩, ⟨0, 0, 0⟩, ⟨0, 0, 0⟩⟩ le_rfl le_rfl h2.memory h3 (demoLife_fair z z')
  refine ⟨m, state, deeds, n, n', h1, a, b, ?_⟩
  have := a.symm.trans c1
  simp only [Except.ok.injEq, Prod.mk.injEq] at this
  obtain ⟨⟨rfl, -⟩, rfl⟩ := this
  refine ⟨by rw [c2]; simp [demoLife], ?_⟩
  show s'.theta.x = _
  rw [c3]
  simp [demoLife]

end Verif.Props
