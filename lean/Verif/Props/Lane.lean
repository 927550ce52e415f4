import Verif.Props.InTime
/-!
# C116: driving straight ahead, in one dimension

A robot that drives north along a line, and whose targets are on that line, is described by six numbers.
-/
namespace Verif.Props
open Verif Verif.Control Verif.Estimate Verif.Sim Verif.Trial Verif.SearchDriver Verif.Straight Verif.Spec

/-- The numbers: estimated place and speed, the state of the tracker, the sum of the controller, the speed now and one round before. -/
structure Along where
  y : ℝ
  ev : ℝ
  xi : ℝ
  sum : ℝ
  v : ℝ
  vp : ℝ

/-- The estimated speed of the round. -/
noncomputable def Along.speed (s : Along) : ℝ := 0.76094276 * (s.ev + (s.v - s.vp)) + (1 - 0.76094276) * ((s.v + s.vp) / 2)

/-- The estimated place of the round. -/
noncomputable def Along.place (s : Along) : ℝ := s.y + s.speed * 0.001

/-- The robot faces north and drives along the line at `x`. -/
structure Lane (x : ℝ) (m : Trial) (s : Along) : Prop where
  px : m.simulator.current.x.x = x
  x : m.state.x.x = x
  y : m.state.y.x = s.y
  theta : m.state.theta.x = Real.pi / 2
  omega : m.state.theta.v = 0
  est : m.estimator = ⟨0.001, 0.76094276, 100, 0.1, 0, s.ev⟩
  tracker : m.tracker = ⟨s.xi, 0.001, 0.2, 1, 1⟩
  controller : m.controller = ⟨⟨4.8497, 29.5783, 0, 1.865, 0.4443⟩, ⟨0.21134, 2.9317, 0, 82.39, 0.2855⟩, s.sum, 0, 0.001⟩
  xv : m.simulator.current.x.v = 0
  xa : m.simulator.current.x.a = 0
  yv : m.simulator.current.y.v = s.v
  ya : m.simulator.current.y.a = (s.v - s.vp) / 0.001
  th : m.simulator.current.theta.x = Real.pi / 2
  om : m.simulator.current.theta.v = 0
  lxv : m.simulator.last.x.v = 0
  lyv : m.simulator.last.y.v = s.vp
  lth : m.simulator.last.theta.x = Real.pi / 2
  lom : m.simulator.last.theta.v = 0
  max : m.simulator.maxVoltage = 3.7
  period : m.simulator.period = 0.001
  tk : m.simulator.transK = 1.865
  tt : m.simulator.transT1 = 0.4443
  -- where the robot is: the error of the estimated place is a multiple of that of the estimated speed
  py : m.simulator.current.y.x = s.place + 0.001 * 0.76094276 / (1 - 0.76094276) * (s.speed - s.v)
  vmax : |s.v| ≤ 6.9005
  slow : |s.speed - s.v| ≤ 0.0155

/-- A target on the line. -/
noncomputable def onLane (x y v a j : ℝ) : Target := ⟨⟨x, 0, 0, 0⟩, ⟨y, v, a, j⟩, ⟨Real.pi / 2, 0, 0, 0⟩⟩

/-- The acceleration asked for. -/
noncomputable def Along.want (s : Along) (y v a : ℝ) : ℝ := a + 4 * (v - s.speed) + 40 * (y - s.place)

noncomputable def Along.nextXi (s : Along) (y v a : ℝ) : ℝ := s.xi + 0.001 * s.want y v a

open Classical in
/-- The reference of the controller: speed and acceleration. -/
noncomputable def Along.reference (s : Along) (y v a : ℝ) : ℝ × ℝ :=
  if 0.2 < |v| ∧ 0.2 < |s.nextXi y v a| then (s.nextXi y v a, s.want y v a) else (v + 2 * |v| * (y - s.place), a)

/-- The voltage. -/
noncomputable def Along.volt (s : Along) (y v a : ℝ) : ℝ :=
  ((s.reference y v a).2 * 0.4443 + (s.reference y v a).1) / 1.865 + 4.8497 * ((s.reference y v a).1 - s.speed) + 29.5783 * s.sum

/-- One round. -/
noncomputable def Along.step (s : Along) (y v a : ℝ) : Along where
  y := s.place
  ev := s.speed
  xi := s.nextXi y v a
  sum := s.sum + ((s.reference y v a).1 - s.speed) * 0.001
  v := s.v * (0.4443 / (0.4443 + 0.001)) + (1 - 0.4443 / (0.4443 + 0.001)) * (1.865 * s.volt y v a)
  vp := s.v

variable {g : Gear} {x : ℝ} {m : Trial} {s : Along}

theorem Lane.sensed (h : Lane x m s) : sensed .real m.simulator = ⟨(s.v + s.vp) / 2 * 0.001, (s.v + s.vp) / 2 * 0.001, (s.v - s.vp) / 0.001, 0⟩ := by
  unfold Trial.sensed Simulator.distance Simulator.transAcc Simulator.angularVelocity Simulator.average
  simp [h.xv, h.xa, h.yv, h.ya, h.th, h.om, h.lxv, h.lyv, h.lth, h.lom, h.period, Trig.real]

/-- What is estimated. -/
theorem Lane.estimate (h : Lane x m s) : m.estimator.estimate .real m.state (Trial.sensed .real m.simulator) =
    (⟨0.001, 0.76094276, 100, 0.1, 0, s.speed⟩, ⟨⟨x, 0, 0⟩, ⟨s.place, s.speed, (s.v - s.vp) / 0.001⟩, ⟨Real.pi / 2, 0, 0⟩⟩) := by
  have hv : (⟨0.001, 0.76094276, 100, 0.1, 0, s.ev⟩ : Estimator).nextVel ⟨(s.v + s.vp) / 2 * 0.001, (s.v + s.vp) / 2 * 0.001, (s.v - s.vp) / 0.001, 0⟩ = s.speed := by
    unfold Estimator.nextVel Along.speed
    dsimp only
    ring
  rw [h.sensed, h.est]
  unfold Estimator.estimate
  rw [hv]
  have hs : (⟨0.001, 0.76094276, 100, 0.1, 0, s.ev⟩ : Estimator).nextSlip s.speed 0 = 0 := by
    unfold Estimator.nextSlip
    split <;> simp
  dsimp only
  rw [hs]
  rw [if_pos (by norm_num : |(0 : ℝ)| < 0.1)]
  simp [Trig.real, h.x, h.y, h.theta, h.omega, Along.place]

/-- What the tracker makes of it. -/
theorem lane_track {pi : ℝ} (hpi : 0 ≤ pi) (st : State) (y v a j : ℝ) (hst : st = ⟨⟨x, 0, 0⟩, ⟨s.place, s.speed, (s.v - s.vp) / 0.001⟩, ⟨Real.pi / 2, 0, 0⟩⟩) :
    (⟨s.xi, 0.001, 0.2, 1, 1⟩ : Tracker).track .real pi st (onLane x y v a j) ((⟨40, 4⟩ : Navigation).navigate st (onLane x y v a j)) =
      (⟨s.nextXi y v a, 0.001, 0.2, 1, 1⟩, ⟨(s.reference y v a).1, (s.reference y v a).2, 0, 0⟩, ⟨s.speed, (s.v - s.vp) / 0.001, 0, 0⟩) := by
  subst hst
  unfold Tracker.track Navigation.navigate onLane
  have h0 : normalizeAngle pi 0 = 0 := by
    unfold normalizeAngle
    simp [not_lt.2 hpi]
  have hw : a + 4 * (v - s.speed) + 40 * (y - s.place) = s.want y v a := rfl
  have hx : s.xi + 0.001 * s.want y v a = s.nextXi y v a := rfl
  have hsq : Real.sqrt (v * v) = |v| := Real.sqrt_mul_self_eq_abs v
  simp only [Trig.real, Real.cos_pi_div_two, Real.sin_pi_div_two, mul_zero, mul_one, zero_add, add_zero, sub_self, zero_div, hw, hx, h0, one_mul,
    zero_mul, hsq, Real.cos_zero, neg_zero]
  refine Prod.ext rfl (Prod.ext ?_ rfl)
  unfold Along.reference
  dsimp only
  split <;> rfl

/-- What the controller makes of it. -/
theorem lane_control (y v a : ℝ) (ya : ℝ) :
    (⟨⟨4.8497, 29.5783, 0, 1.865, 0.4443⟩, ⟨0.21134, 2.9317, 0, 82.39, 0.2855⟩, s.sum, 0, 0.001⟩ : Controller).control
        ⟨(s.reference y v a).1, (s.reference y v a).2, 0, 0⟩ ⟨s.speed, ya, 0, 0⟩ =
      (⟨⟨4.8497, 29.5783, 0, 1.865, 0.4443⟩, ⟨0.21134, 2.9317, 0, 82.39, 0.2855⟩, s.sum + ((s.reference y v a).1 - s.speed) * 0.001, 0, 0.001⟩,
        ⟨s.volt y v a, s.volt y v a⟩) := by
  unfold Controller.control controlEach Along.volt
  simp

/-- The voltages asked for in a round. -/
theorem Lane.voltage (hpi : 0 ≤ g.pi) (hnav : g.navigation = ⟨40, 4⟩) (h : Lane x m s) (y v a j : ℝ) :
    let e := m.estimator.estimate .real m.state (Trial.sensed .real m.simulator)
    let tr := m.tracker.track .real g.pi e.2 (onLane x y v a j) (g.navigation.navigate e.2 (onLane x y v a j))
    (m.controller.control tr.2.1 tr.2.2).2 = ⟨s.volt y v a, s.volt y v a⟩ := by
  dsimp only
  rw [h.estimate, hnav, h.tracker, h.controller]
  dsimp only
  rw [lane_track hpi _ y v a j rfl]
  dsimp only
  rw [lane_control]

/-- The parts after a round that goes on. -/
theorem turn_fields {m' : Trial} (h : g.turn m = .ok (true, m')) : ∃ t lp, track g.T m.loop = .ok (t, lp) ∧
    let e := m.estimator.estimate g.T m.state (Trial.sensed g.T m.simulator)
    let tr := m.tracker.track g.T g.pi e.2 t (g.navigation.navigate e.2 t)
    let co := m.controller.control tr.2.1 tr.2.2
    m'.estimator = e.1 ∧ m'.state = e.2 ∧ m'.tracker = tr.1 ∧ m'.controller = co.1 ∧
      m'.simulator = (m.simulator.apply co.2.left co.2.right).step g.T := by
  unfold Gear.turn at h
  dsimp only at h
  cases ht : track g.T m.loop with
  | error => rw [ht] at h; cases h
  | ok y =>
    obtain ⟨t, lp⟩ := y
    refine ⟨t, lp, rfl, ?_⟩
    rw [ht] at h
    simp only [bind, Except.bind] at h
    cases ha : asking g.W m.walls with
    | error => rw [ha] at h; cases h
    | ok ws =>
      rw [ha] at h
      dsimp only at h
      cases hd : decideNext g.config g.W g.searcher ws lp with
      | error => rw [hd] at h; cases h
      | ok o =>
        rw [hd] at h
        cases o with
        | none => cases h
        | some lp' =>
          dsimp only at h
          split at h
          · cases h
          · cases h
            exact ⟨rfl, rfl, rfl, rfl, rfl⟩

/-- A round on the line, from the parts after it. -/
theorem Lane.advance (h : Lane x m s) {m' : Trial} {y v a : ℝ} (hu : |s.volt y v a| ≤ 3.7) (k2 : m'.estimator = ⟨0.001, 0.76094276, 100, 0.1, 0, s.speed⟩)
    (k3 : m'.state = ⟨⟨x, 0, 0⟩, ⟨s.place, s.speed, (s.v - s.vp) / 0.001⟩, ⟨Real.pi / 2, 0, 0⟩⟩) (k4 : m'.tracker = ⟨s.nextXi y v a, 0.001, 0.2, 1, 1⟩)
    (k5 : m'.controller = ⟨⟨4.8497, 29.5783, 0, 1.865, 0.4443⟩, ⟨0.21134, 2.9317, 0, 82.39, 0.2855⟩, s.sum + ((s.reference y v a).1 - s.speed) * 0.001, 0, 0.001⟩)
    (k6 : m'.simulator = (m.simulator.apply (s.volt y v a) (s.volt y v a)).step .real) : Lane x m' (s.step y v a) := by
  have hl : limit 3.7 (s.volt y v a) = s.volt y v a := by
    rw [abs_le] at hu
    unfold limit
    rw [if_neg (by linarith), if_neg (by linarith)]
  have hv : transVel .real m.simulator.current = s.v := by
    unfold transVel
    simp [h.xv, h.yv, h.th, Trig.real]
  have hv' : (m.simulator.apply (s.volt y v a) (s.volt y v a)).nextTransVel .real = (s.step y v a).v := by
    unfold Simulator.nextTransVel Simulator.apply Along.step
    dsimp only
    rw [hv, h.tt, h.period, h.tk, h.max, hl]
    ring
  have hr : (m.simulator.apply (s.volt y v a) (s.volt y v a)).nextRotVel = 0 := by
    unfold Simulator.nextRotVel Simulator.apply
    dsimp only
    rw [h.om]
    simp
  have e : (m.simulator.apply (s.volt y v a) (s.volt y v a)).current = m.simulator.current := rfl
  have e2 : (m.simulator.apply (s.volt y v a) (s.volt y v a)).period = 0.001 := h.period
  have k : ((m.simulator.apply (s.volt y v a) (s.volt y v a)).step .real).current.x.v = 0 ∧
      ((m.simulator.apply (s.volt y v a) (s.volt y v a)).step .real).current.x.a = 0 ∧
      ((m.simulator.apply (s.volt y v a) (s.volt y v a)).step .real).current.y.v = (s.step y v a).v ∧
      ((m.simulator.apply (s.volt y v a) (s.volt y v a)).step .real).current.y.a = ((s.step y v a).v - s.v) / 0.001 ∧
      ((m.simulator.apply (s.volt y v a) (s.volt y v a)).step .real).current.theta.x = Real.pi / 2 ∧
      ((m.simulator.apply (s.volt y v a) (s.volt y v a)).step .real).current.theta.v = 0 ∧
      ((m.simulator.apply (s.volt y v a) (s.volt y v a)).step .real).current.x.x = x ∧
      ((m.simulator.apply (s.volt y v a) (s.volt y v a)).step .real).current.y.x = m.simulator.current.y.x + (s.v + (s.step y v a).v) * 0.001 / 2 := by
    unfold Simulator.step
    dsimp only
    rw [hv', hr, e, e2, h.th, hv]
    simp [Trig.real, h.xv, h.yv, h.px]
  obtain ⟨a1, a2, a3, a4, a5, a6, a7, a8⟩ := k
  have hrel : (s.step y v a).speed - (s.step y v a).v = 0.76094276 * (s.speed - s.v) - (1 - 0.76094276) * ((s.step y v a).v - s.v) / 2 := by
    simp only [Along.speed, Along.step]; ring
  have hgain : (s.step y v a).v - s.v = 0.001 / 0.4453 * (1.865 * s.volt y v a - s.v) := by simp only [Along.step]; norm_num; ring
  have hvm := abs_le.1 h.vmax
  have hsl := abs_le.1 h.slow
  have hu' := abs_le.1 hu
  generalize hw : (s.step y v a).v = w at *
  constructor
  case x => rw [k3]
  case y => rw [k3]; rfl
  case theta => rw [k3]
  case omega => rw [k3]
  case est => rw [k2]; rfl
  case tracker => rw [k4]; rfl
  case controller => rw [k5]; rfl
  case xv => rw [k6]; exact a1
  case xa => rw [k6]; exact a2
  case yv => rw [k6, hw]; exact a3
  case ya => rw [k6, hw]; exact a4
  case th => rw [k6]; exact a5
  case om => rw [k6]; exact a6
  case lxv => rw [k6]; exact h.xv
  case lyv => rw [k6]; exact h.yv
  case lth => rw [k6]; exact h.th
  case lom => rw [k6]; exact h.om
  case max => rw [k6]; exact h.max
  case period => rw [k6]; exact h.period
  case tk => rw [k6]; exact h.tk
  case tt => rw [k6]; exact h.tt
  case px => rw [k6]; exact a7
  case py =>
    rw [k6, a8, h.py, hw, hrel]
    have : (s.step y v a).place = s.place + (s.step y v a).speed * 0.001 := rfl
    rw [this, eq_add_of_sub_eq hrel]
    norm_num
    ring
  case vmax =>
    rw [hw, abs_le]
    norm_num at hgain hvm hu' ⊢
    constructor <;> linarith
  case slow =>
    rw [hw, hrel, abs_le]
    norm_num at hgain hvm hu' hsl ⊢
    constructor <;> linarith

/-- A round on the line. -/
theorem Lane.turn (hT : g.T = .real) (hpi : 0 ≤ g.pi) (hnav : g.navigation = ⟨40, 4⟩) (h : Lane x m s) {m' : Trial} (ht : g.turn m = .ok (true, m'))
    {y v a j : ℝ} {lp : Loop} (htr : track .real m.loop = .ok (onLane x y v a j, lp)) (hu : |s.volt y v a| ≤ 3.7) : Lane x m' (s.step y v a) := by
  obtain ⟨t, lp', k1, k2⟩ := turn_fields ht
  rw [hT, htr] at k1
  cases k1
  rw [hT, h.estimate, hnav, h.tracker, h.controller] at k2
  dsimp only at k2
  rw [lane_track hpi _ y v a j rfl] at k2
  dsimp only at k2
  rw [lane_control] at k2
  obtain ⟨k2, k3, k4, k5, k6⟩ := k2
  exact h.advance hu k2 k3 k4 k5 k6

/-- At the start. -/
theorem initial_lane (walls maze : Walls.Walls) (fo : ℝ) : Lane 0.045 (initial walls maze fo) ⟨0.045, 0, 0, 0, 0, 0⟩ := by
  have e : Slalom.degree 90 = Real.pi / 2 := by unfold Slalom.degree; ring
  constructor <;> simp [initial, standing, Estimator.new, Controller.new, Simulator.new, e, Along.place, Along.speed] <;> norm_num

/-- Where the robot is. -/
theorem Lane.truth (h : Lane x m s) : m.simulator.current.x.x = x ∧ |m.simulator.current.y.x - s.place| ≤ 0.00005 ∧
    m.simulator.current.theta.x = Real.pi / 2 := by
  refine ⟨h.px, ?_, h.th⟩
  rw [h.py]
  have := abs_le.1 h.slow
  rw [abs_le]
  norm_num at this ⊢
  constructor <;> linarith

end Verif.Props
