import Verif.Proof.OldRobot
/-!
# C102: the former estimator
-/
namespace Verif.Props
open Verif Verif.Spec Verif.Old.Robot Verif.Proof.OldV
open Verif.Estimate (Sensor)

variable {e : Old.Robot.Estimator} {α v b : ℝ} {s : Control.State} {sx sy : ℝ}

/-- **C102, run.** Whatever numbers the sensors deliver, any number of estimates succeed and leave only numbers. The heading is the initial one plus the
sum of the turn rates times the period; each of the standard deviations has grown by the configured amount per estimate. -/
theorem C102_run (h : Knows e α v b s sx sy) (l : List Sensor) :
    ∃ e' v' b' s', reckon exact (l.map sensed) e = .ok e' ∧
      Knows e' α v' b' s' (sx + l.length * e.devDelta) (sy + l.length * e.devDelta) ∧
      s'.theta.x = s.theta.x + (l.map fun w => w.omega * e.period).sum ∧
      e'.period = e.period ∧ e'.slipConst = e.slipConst ∧ e'.approxTh = e.approxTh ∧ e'.devDelta = e.devDelta := by
  obtain ⟨e', s', h1, p1, p2, p3, p4, hk, ht⟩ := reckon_eq l e v b s s sx sy h rfl
  refine ⟨e', _, _, s', h1, hk, ?_, p1, p2, p3, p4⟩
  rw [← ht]
  exact C53_heading .real l _ _

theorem knows_unique {v' b' : ℝ} {s' : Control.State} {sx' sy' α' : ℝ} (h : Knows e α v b s sx sy) (h' : Knows e α' v' b' s' sx' sy') :
    v' = v ∧ b' = b ∧ s' = s ∧ sx' = sx ∧ sy' = sy := by
  have h1 := h.vel.symm.trans h'.vel
  have h2 := h.slip.symm.trans h'.slip
  have h3 := h.state.symm.trans h'.state
  obtain ⟨⟨x1, x2, x3⟩, ⟨y1, y2, y3⟩, ⟨t1, t2, t3⟩⟩ := s
  obtain ⟨⟨x1', x2', x3'⟩, ⟨y1', y2', y3'⟩, ⟨t1', t2', t3'⟩⟩ := s'
  simp only [robotAt, RobotState.mk.injEq, Old.Robot.Axis.mk.injEq, Heading.mk.injEq, F.fin.injEq] at h1 h2 h3
  obtain ⟨⟨a1, a2, a3, a4⟩, ⟨c1, c2, c3, c4⟩, d1, d2, d3⟩ := h3
  subst h1 h2 a1 a2 a3 a4 c1 c2 c3 c4 d1 d2 d3
  exact ⟨rfl, rfl, rfl, rfl, rfl⟩

/-- **C102, one estimate.** The new speed is the weighted mean of the old one plus the acceleration and of the mean of the wheels. The new slip angle solves
`(b' - b) / period = ω - (slipConst / speed) b'` and is zero for a robot that stands still. At turn rates from the threshold on, the robot moves along the
arc of a circle of radius speed over turn rate that begins in the direction of the heading less the slip angle; at lower ones along a straight line in the direction in the
middle of that arc, and its end is at most `|v'| T (ω T)² / 24` from the end of the arc. Speed and acceleration are reported in that middle direction, the turn rate as
measured, the angular acceleration as its difference quotient. -/
theorem C102_step (h : Knows e α v b s sx sy) (w : Sensor) :
    ∃ e' v' b' s', e.poll exact (sensed w) = .ok e' ∧ Knows e' α v' b' s' (sx + e.devDelta) (sy + e.devDelta) ∧
      v' = α * (v + w.acc * e.period) + (1 - α) * ((w.left + w.right) / (2 * e.period)) ∧
      (v' = 0 → b' = 0) ∧ (v' ≠ 0 → (b' - b) / e.period = w.omega - e.slipConst / |v'| * b') ∧
      (e.approxTh ≤ |w.omega| →
        s'.x.x = s.x.x + v' / w.omega * (Real.sin (s.theta.x - b' + w.omega * e.period) - Real.sin (s.theta.x - b')) ∧
        s'.y.x = s.y.x - v' / w.omega * (Real.cos (s.theta.x - b' + w.omega * e.period) - Real.cos (s.theta.x - b'))) ∧
      (|w.omega| < e.approxTh →
        s'.x.x = s.x.x + v' * e.period * Real.cos (s.theta.x - b' + w.omega * e.period / 2) ∧
        s'.y.x = s.y.x + v' * e.period * Real.sin (s.theta.x - b' + w.omega * e.period / 2) ∧
        (w.omega ≠ 0 →
          (s'.x.x - (s.x.x + v' / w.omega * (Real.sin (s.theta.x - b' + w.omega * e.period) - Real.sin (s.theta.x - b')))) ^ 2 +
          (s'.y.x - (s.y.x - v' / w.omega * (Real.cos (s.theta.x - b' + w.omega * e.period) - Real.cos (s.theta.x - b')))) ^ 2 ≤
            (|v'| * e.period * (w.omega * e.period) ^ 2 / 24) ^ 2)) ∧
      (s'.x.v = v' * Real.cos (s.theta.x - b' + w.omega * e.period / 2) ∧ s'.y.v = v' * Real.sin (s.theta.x - b' + w.omega * e.period / 2)) ∧
      (s'.x.a = w.acc * Real.cos (s.theta.x - b' + w.omega * e.period / 2) ∧ s'.y.a = w.acc * Real.sin (s.theta.x - b' + w.omega * e.period / 2)) ∧
      s'.theta = ⟨s.theta.x + w.omega * e.period, w.omega, (w.omega - s.theta.v) / e.period⟩ := by
  have hT := h.period
  refine ⟨_, _, _, _, poll_eq h w, after_knows h w, nextVel_eq _ w, ?_, ?_, ?_, ?_, ⟨rfl, rfl⟩, ⟨rfl, rfl⟩, rfl⟩
  · intro h0
    rw [h0]
    exact (C79_euler (newer e α v b) hT h.slipConst 0 w.omega).2
  · intro h0
    exact ((C79_euler (newer e α v b) hT h.slipConst _ w.omega).1 h0 _).2 rfl
  all_goals
    generalize (newer e α v b).nextVel w = vel
    generalize (newer e α v b).nextSlip vel w.omega = slip
  · intro hω
    have ho : w.omega ≠ 0 := abs_pos.1 (h.approx.trans_le hω)
    simp only [next, stride, if_neg (not_lt.2 hω), Real.sin_sub_sin, Real.cos_sub_cos]
    rw [show (s.theta.x - slip + w.omega * e.period - (s.theta.x - slip)) / 2 = w.omega * e.period / 2 by ring,
      show (s.theta.x - slip + w.omega * e.period + (s.theta.x - slip)) / 2 = s.theta.x - slip + w.omega * e.period / 2 by ring]
    constructor <;> ring
  · intro hω
    refine ⟨by simp only [next, stride, if_pos hω], by simp only [next, stride, if_pos hω], ?_⟩
    intro ho
    simp only [next, stride, if_pos hω, Real.sin_sub_sin, Real.cos_sub_cos]
    rw [show (s.theta.x - slip + w.omega * e.period - (s.theta.x - slip)) / 2 = w.omega * e.period / 2 by ring,
      show (s.theta.x - slip + w.omega * e.period + (s.theta.x - slip)) / 2 = s.theta.x - slip + w.omega * e.period / 2 by ring]
    obtain ⟨m, hm⟩ : ∃ m, m = s.theta.x - slip + w.omega * e.period / 2 := ⟨_, rfl⟩
    rw [← hm]
    obtain ⟨u, hu⟩ : ∃ u, u = w.omega * e.period / 2 := ⟨_, rfl⟩
    rw [← hu]
    have hcs := Real.sin_sq_add_cos_sq m
    have key : |e.period - 2 * Real.sin u / w.omega| ≤ e.period * (w.omega * e.period) ^ 2 / 24 := by
      have hsin : |u - Real.sin u| ≤ |u| ^ 3 / 6 := by
        rcases le_total 0 u with hu0 | hu0
        · have h1 := Real.sin_ge_sub_cube hu0
          have h2 := Real.sin_le hu0
          rw [abs_of_nonneg (by linarith), abs_of_nonneg hu0]; linarith
        · have h1 := Real.sin_ge_sub_cube (neg_nonneg.2 hu0)
          have h2 := Real.sin_le (neg_nonneg.2 hu0)
          rw [Real.sin_neg] at h1 h2
          rw [abs_of_nonpos (by linarith), abs_of_nonpos hu0]; linarith
      have e1 : e.period - 2 * Real.sin u / w.omega = 2 / w.omega * (u - Real.sin u) := by
        rw [hu]; field_simp
      rw [e1, abs_mul]
      have e2 : e.period * (w.omega * e.period) ^ 2 / 24 = |2 / w.omega| * (|u| ^ 3 / 6) := by
        rw [hu, abs_div, abs_div, abs_mul, abs_of_pos hT, abs_of_pos (by norm_num : (0:ℝ) < 2)]
        have := abs_pos.2 ho
        rw [mul_pow, ← sq_abs w.omega]
        field_simp
        norm_num
      rw [e2]
      exact mul_le_mul_of_nonneg_left hsin (abs_nonneg _)
    have e3 : (s.x.x + vel * e.period * Real.cos m - (s.x.x + vel / w.omega * (2 * Real.sin u * Real.cos m))) ^ 2 +
        (s.y.x + vel * e.period * Real.sin m - (s.y.x - vel / w.omega * (-2 * Real.sin m * Real.sin u))) ^ 2 =
        (|vel| * |e.period - 2 * Real.sin u / w.omega|) ^ 2 := by
      rw [← abs_mul, sq_abs]
      linear_combination (vel * (e.period - 2 * Real.sin u / w.omega)) ^ 2 * hcs
    rw [e3]
    have : |vel| * e.period * (w.omega * e.period) ^ 2 / 24 = |vel| * (e.period * (w.omega * e.period) ^ 2 / 24) := by ring
    rw [this]
    exact pow_le_pow_left₀ (by positivity) (mul_le_mul_of_nonneg_left key (abs_nonneg _)) 2

/-- **C102, speed.** Let `V k` be the true speed before the `k`-th estimate. If the accelerometer is off by at most `dA` from the difference quotient of the true speed
and the wheels by at most `dW` from the speed after the step, then after `n` estimates the error is at most `α ^ n` times the initial one plus the bound of the
geometric series. -/
theorem C102_speed (h : Knows e α v b s sx sy) (ha0 : 0 ≤ α) (ha1 : α < 1) (V : Nat → ℝ) (dA dW : ℝ) (l : List Sensor)
    (hl : ∀ i w, l[i]? = some w → |w.acc - (V (i + 1) - V i) / e.period| ≤ dA ∧ |(w.left + w.right) / (2 * e.period) - V (i + 1)| ≤ dW) :
    ∃ e' v', reckon exact (l.map sensed) e = .ok e' ∧ e'.vel = .fin v' ∧
      |v' - V l.length| ≤ α ^ l.length * |v - V 0| + (1 - α ^ l.length) * (α * e.period * dA / (1 - α) + dW) := by
  obtain ⟨e', s', h1, -, -, -, -, hk, -⟩ := reckon_eq l e v b s s sx sy h rfl
  refine ⟨e', _, h1, hk.vel, ?_⟩
  have := C54_error .real V dA dW l (newer e α v b) s 0 h.period ha0 ha1 (by simpa [newer, wheelSpeed] using hl)
  simpa [newer] using this

/-- **C102, slip angle.** It never exceeds `M` if it does not at the start and the turn rate times the speed never exceeds `M` times the constant. -/
theorem C102_slip (h : Knows e α v b s sx sy) {M : ℝ} (hb : |b| ≤ M) (l : List Sensor)
    (hl : ∀ k w, l[k]? = some w → ∃ ek vk, reckon exact ((l.take (k + 1)).map sensed) e = .ok ek ∧ ek.vel = .fin vk ∧ |w.omega| * |vk| ≤ M * e.slipConst) :
    ∃ e' b', reckon exact (l.map sensed) e = .ok e' ∧ e'.slip = .fin b' ∧ |b'| ≤ M := by
  obtain ⟨e', s', h1, -, -, -, -, hk, -⟩ := reckon_eq l e v b s s sx sy h rfl
  refine ⟨e', _, h1, hk.slip, ?_⟩
  refine C79_bounded .real M l (newer e α v b) s h.period h.slipConst hb ?_
  intro k w hw
  obtain ⟨ek, vk, hk1, hk2, hk3⟩ := hl k w hw
  obtain ⟨ek', s'', g1, -, -, -, -, gk, -⟩ := reckon_eq (l.take (k + 1)) e v b s s sx sy h rfl
  rw [g1] at hk1
  cases hk1
  have : F.fin _ = F.fin vk := gk.vel.symm.trans hk2
  cases this
  exact hk3

theorem steady (h : Knows e α v b s sx sy) {w : Sensor} (h1 : w.acc = 0) (h2 : (w.left + w.right) / (2 * e.period) = v) : (newer e α v b).nextVel w = v :=
  steady_vel (e := newer e α v b) h1 h2

/-- **C102, straight.** If no turn is ever measured and the slip angle is zero, the heading never changes, the slip angle stays zero, and at constant speed the robot moves
along its heading by the speed times the time. -/
theorem C102_straight (h : Knows e α v 0 s sx sy) (l : List Sensor)
    (hl : ∀ w ∈ l, w.omega = 0 ∧ w.acc = 0 ∧ (w.left + w.right) / (2 * e.period) = v) :
    ∃ e' s' sx' sy', reckon exact (l.map sensed) e = .ok e' ∧ Knows e' α v 0 s' sx' sy' ∧ s'.theta.x = s.theta.x ∧
      s'.x.x = s.x.x + v * (l.length * e.period) * Real.cos s.theta.x ∧ s'.y.x = s.y.x + v * (l.length * e.period) * Real.sin s.theta.x := by
  induction l generalizing e s sx sy with
  | nil => exact ⟨e, s, sx, sy, rfl, h, rfl, by simp, by simp⟩
  | cons w l ih =>
    obtain ⟨h1, h2, h3⟩ := hl w List.mem_cons_self
    have hk := after_knows h w
    rw [steady h h2 h3, h1, slip_zero (newer e α v 0) v rfl] at hk
    obtain ⟨e', s', sx', sy', i1, i2, i3, i4, i5⟩ := ih hk (fun w hw => hl w (List.mem_cons_of_mem _ hw))
    have hd : stride e.period e.approxTh v 0 = v * e.period := if_pos (by simpa using h.approx)
    simp only [next, h1, hd] at i3 i4 i5
    simp only [zero_mul, zero_div, add_zero, sub_zero] at i3 i4 i5
    refine ⟨e', s', sx', sy', ?_, i2, i3, ?_, ?_⟩
    · show (e.poll exact (sensed w)).bind (reckon exact (l.map sensed)) = _
      rw [poll_eq h]
      exact i1
    · rw [i4, List.length_cons]
      show _ + v * (l.length * e.period) * _ = _
      push_cast; ring
    · rw [i5, List.length_cons]
      show _ + v * (l.length * e.period) * _ = _
      push_cast; ring

/-- **C102, circle.** At constant speed and turn rate, and with the slip angle at its limit, the estimated positions lie on a circle of radius speed over turn
rate, however many estimates are made. (The newer estimator makes the radius larger, by the cosine of the slip angle.) -/
theorem C102_circle {ω : ℝ} (h : Knows e α v b s sx sy) (hv : v ≠ 0) (hω : e.approxTh ≤ |ω|) (hb : b = ω * |v| / e.slipConst) (l : List Sensor)
    (hl : ∀ w ∈ l, w.omega = ω ∧ w.acc = 0 ∧ (w.left + w.right) / (2 * e.period) = v) :
    ∃ e' s' sx' sy', reckon exact (l.map sensed) e = .ok e' ∧ Knows e' α v b s' sx' sy' ∧
      s'.x.x = s.x.x + v / ω * (Real.sin (s.theta.x - b + l.length * (ω * e.period)) - Real.sin (s.theta.x - b)) ∧
      s'.y.x = s.y.x - v / ω * (Real.cos (s.theta.x - b + l.length * (ω * e.period)) - Real.cos (s.theta.x - b)) := by
  induction l generalizing e s sx sy with
  | nil => exact ⟨e, s, sx, sy, rfl, h, by simp, by simp⟩
  | cons w l ih =>
    obtain ⟨h1, h2, h3⟩ := hl w List.mem_cons_self
    have ho : ω ≠ 0 := abs_pos.1 (h.approx.trans_le hω)
    have hns : (newer e α v b).nextSlip v ω = b := by
      have hT := h.period
      have hC := h.slipConst
      have hv' := abs_pos.2 hv
      unfold Estimate.Estimator.nextSlip
      simp only [newer]
      rw [if_neg hv, hb, div_eq_iff (by positivity)]
      field_simp
    have hk := after_knows h w
    rw [steady h h2 h3, h1, hns] at hk
    obtain ⟨e', s', sx', sy', i1, i2, i3, i4⟩ := ih (e := after e α v b s sx sy w) hk hω hb (fun w hw => hl w (List.mem_cons_of_mem _ hw))
    have hd : stride e.period e.approxTh v ω = 2 * v * Real.sin (ω * e.period / 2) / ω := if_neg (not_lt.2 hω)
    have hper : (after e α v b s sx sy w).period = e.period := rfl
    simp only [next, h1, hd, hper] at i3 i4
    have ea : s.theta.x + ω * e.period - b = s.theta.x - b + ω * e.period := by ring
    have eb : s.theta.x - b + ω * e.period + (l.length : ℝ) * (ω * e.period) = s.theta.x - b + (w :: l).length * (ω * e.period) := by
      simp only [List.length_cons]; push_cast; ring
    rw [ea, eb] at i3 i4
    have x1 : 2 * v * Real.sin (ω * e.period / 2) / ω * Real.cos (s.theta.x - b + ω * e.period / 2) =
        v / ω * (Real.sin (s.theta.x - b + ω * e.period) - Real.sin (s.theta.x - b)) := by
      rw [Real.sin_sub_sin, show (s.theta.x - b + ω * e.period - (s.theta.x - b)) / 2 = ω * e.period / 2 by ring,
        show (s.theta.x - b + ω * e.period + (s.theta.x - b)) / 2 = s.theta.x - b + ω * e.period / 2 by ring]
      ring
    have y1 : 2 * v * Real.sin (ω * e.period / 2) / ω * Real.sin (s.theta.x - b + ω * e.period / 2) =
        -(v / ω * (Real.cos (s.theta.x - b + ω * e.period) - Real.cos (s.theta.x - b))) := by
      rw [Real.cos_sub_cos, show (s.theta.x - b + ω * e.period - (s.theta.x - b)) / 2 = ω * e.period / 2 by ring,
        show (s.theta.x - b + ω * e.period + (s.theta.x - b)) / 2 = s.theta.x - b + ω * e.period / 2 by ring]
      ring
    rw [x1] at i3
    rw [y1] at i4
    refine ⟨e', s', sx', sy', ?_, i2, ?_, ?_⟩
    · show (e.poll exact (sensed w)).bind (reckon exact (l.map sensed)) = _
      rw [poll_eq h]
      exact i1
    · rw [i3]; ring
    · rw [i4]; ring

/-- How waiting for an answer ends badly. -/
def trouble {β : Type} : Answer β → Option Panic
  | .value _ => none
  | .fails => some .unwrapNone
  | .never => some .diverge

/-- **C102, sensors.** The sensors are asked in the order left encoder, right encoder, accelerometer, gyro. The first that fails makes the program panic, the first that never
sensed stops it for ever; a value that is not a number fails an assertion. In any arithmetic. -/
theorem C102_sensors (A : Arith) (e : Old.Robot.Estimator) (q : Sensors) :
    (∀ p, [trouble q.left, trouble q.right, trouble q.acc, trouble q.omega].findSome? id = some p → e.poll A q = .error p) ∧
    ([trouble q.left, trouble q.right, trouble q.acc, trouble q.omega].findSome? id = none →
      ∃ l r a w, q = ⟨.value l, .value r, .value a, .value w⟩ ∧
        ((l.isNan ∨ r.isNan ∨ a.isNan) → e.poll A q = .error .assert) ∧ (¬ (l.isNan ∨ r.isNan ∨ a.isNan) → ∃ e', e.poll A q = .ok e')) := by
  obtain ⟨l, r, a, w⟩ := q
  cases l with
  | fails => simp [trouble, Old.Robot.Estimator.poll, Answer.get, bind, Except.bind]
  | never => simp [trouble, Old.Robot.Estimator.poll, Answer.get, bind, Except.bind]
  | value l =>
    cases r with
    | fails => simp [trouble, Old.Robot.Estimator.poll, Answer.get, bind, Except.bind]
    | never => simp [trouble, Old.Robot.Estimator.poll, Answer.get, bind, Except.bind]
    | value r =>
      cases a with
      | fails => simp [trouble, Old.Robot.Estimator.poll, Answer.get, bind, Except.bind]
      | never => simp [trouble, Old.Robot.Estimator.poll, Answer.get, bind, Except.bind]
      | value a =>
        cases w with
        | fails => simp [trouble, Old.Robot.Estimator.poll, Answer.get, bind, Except.bind]
        | never => simp [trouble, Old.Robot.Estimator.poll, Answer.get, bind, Except.bind]
        | value w =>
          refine ⟨by simp [trouble], fun _ => ⟨l, r, a, w, rfl, ?_, ?_⟩⟩
          · intro h
            show e.estimate A l r a w = _
            unfold Old.Robot.Estimator.estimate
            rw [if_pos h]
          · intro h
            show ∃ e', e.estimate A l r a w = .ok e'
            unfold Old.Robot.Estimator.estimate
            rw [if_neg h]
            exact ⟨_, rfl⟩

/-- **C102, builder.** It needs the period, the cut-off frequency, the constant of the slip angle and the three sensors, and names the first one that is missing in this order.
The weight of the acceleration is `1 / (2 π f T + 1)`; the state, the threshold and the growth of the deviation have defaults. -/
theorem C102_build {pi : ℝ} (hpi : 0 < pi) (B : EstimatorBuilder) :
    (∀ name, [if B.period.isSome then none else some "period", if B.cutOff.isSome then none else some "cut_off_frequency",
        if B.slipConst.isSome then none else some "slip_angle_const", if B.leftEncoder then none else some "left_encoder",
        if B.rightEncoder then none else some "right_encoder", if B.imu then none else some "imu"].findSome? id = some name → B.build exact pi = .error name) ∧
    (∀ T f C, B.period = some T → B.cutOff = some f → B.slipConst = some C → B.leftEncoder → B.rightEncoder → B.imu → 0 < T → 0 ≤ f →
      ∃ α, 0 < α ∧ α ≤ 1 ∧ α * (2 * pi * f * T + 1) = 1 ∧
        B.build exact pi = .ok ⟨T, .fin α, .fin 0, B.initialState.getD (robotAt ⟨⟨0, 0, 0⟩, ⟨0, 0, 0⟩, ⟨0, 0, 0⟩⟩ 0 0), C, .fin 0, B.approxTh.getD 0.1, B.devDelta.getD 0⟩) := by
  obtain ⟨l, r, i, T, f, s0, C, th, d⟩ := B
  constructor
  · intro name hn
    cases T <;> cases f <;> cases C <;> cases l <;> cases r <;> cases i <;>
      simp_all [EstimatorBuilder.build, okOr, present, bind, Except.bind, pure, Except.pure]
  · intro T' f' C' h1 h2 h3 h4 h5 h6 hT hf
    simp only at h1 h2 h3 h4 h5 h6
    subst h1 h2 h3 h4 h5 h6
    have hp : 0 < 2 * pi * (T' * f') + 1 := by positivity
    refine ⟨1 / (2 * pi * (T' * f') + 1), by positivity, ?_, ?_, ?_⟩
    · rw [div_le_one hp]
      have : 0 ≤ 2 * pi * (T' * f') := by positivity
      linarith
    · rw [show 2 * pi * f' * T' = 2 * pi * (T' * f') by ring]
      field_simp
    · simp only [EstimatorBuilder.build, okOr, present, bind, Except.bind, pure, Except.pure, if_true, exact_mul, exact_add, exact_div hp.ne']
      rfl

/-- **C102, configuration.** The estimator made from the settings starts with the given state, at rest. The growth of the deviation in the settings is ignored: it is zero. -/
theorem C102_construct {pi : ℝ} (hpi : 0 < pi) {c : Settings} (hc : Settings.Fair c) (s : Control.State) (sx sy : ℝ) :
    ∃ e α, Old.Robot.Estimator.construct exact pi c (robotAt s sx sy) = .ok e ∧ Knows e α 0 0 s sx sy ∧ 0 < α ∧ α ≤ 1 ∧
      α * (2 * pi * c.cutOff * c.period + 1) = 1 ∧
      e.period = c.period ∧ e.slipConst = c.slipConst ∧ e.approxTh = c.approxTh ∧ e.devDelta = 0 := by
  obtain ⟨α, a1, a2, a3, a4⟩ := (C102_build hpi
    ⟨true, true, true, some c.period, some c.cutOff, some (robotAt s sx sy), some c.slipConst, some c.approxTh, none⟩).2 c.period c.cutOff c.slipConst rfl rfl rfl rfl rfl rfl hc.period hc.cutOff
  refine ⟨⟨c.period, .fin α, .fin 0, robotAt s sx sy, c.slipConst, .fin 0, c.approxTh, 0⟩, α, ?_, ⟨hc.period, hc.slipConst, hc.approx, rfl, rfl, rfl, rfl⟩, a1, a2, a3, rfl, rfl, rfl, rfl⟩
  unfold Old.Robot.Estimator.construct
  rw [a4]
  rfl

/-- A robot that turns left with 0.3 m/s and 10 rad/s and a slip angle of 0.03 rad, for any number of estimates. -/
example (e : Old.Robot.Estimator) (he : e.period = 0.001 ∧ e.slipConst = 100 ∧ e.approxTh = 0.1) (h : Knows e (1 / 2) 0.3 0.03 ⟨⟨0, 0, 0⟩, ⟨0, 0, 0⟩, ⟨0.03, 0, 0⟩⟩ 0 0) (n : Nat) :
    ∃ e' s' sx' sy', reckon exact ((List.replicate n ⟨0.0003, 0.0003, 0, 10⟩).map sensed) e = .ok e' ∧ Knows e' (1 / 2) 0.3 0.03 s' sx' sy' ∧
      s'.x.x = 0.03 * Real.sin (n * 0.01) := by
  obtain ⟨h1, h2, h3⟩ := he
  obtain ⟨e', s', sx', sy', i1, i2, i3, -⟩ := C102_circle (ω := 10) h (by norm_num) (by rw [h3]; norm_num) (by rw [h2]; norm_num [abs_of_pos])
    (List.replicate n ⟨0.0003, 0.0003, 0, 10⟩) (fun w hw => by rw [List.eq_of_mem_replicate hw, h1]; norm_num)
  refine ⟨e', s', sx', sy', i1, i2, ?_⟩
  rw [i3, h1]
  norm_num

/-- Settings that are fair, and the estimator they give. -/
example (pi : ℝ) (hpi : 0 < pi) (p : Control.Params) :
    ∃ e α, Old.Robot.Estimator.construct exact pi ⟨0.001, p, p, 3, 50, 100, 0.1, 0.01, 1, 1, 0.1, 1, 1⟩ (robotAt ⟨⟨0, 0, 0⟩, ⟨0, 0, 0⟩, ⟨0, 0, 0⟩⟩ 0 0) = .ok e ∧
      Knows e α 0 0 ⟨⟨0, 0, 0⟩, ⟨0, 0, 0⟩, ⟨0, 0, 0⟩⟩ 0 0 ∧ e.devDelta = 0 := by
  obtain ⟨e, α, h1, h2, -, -, -, -, -, -, h3⟩ := C102_construct hpi (c := ⟨0.001, p, p, 3, 50, 100, 0.1, 0.01, 1, 1, 0.1, 1, 1⟩)
    ⟨by norm_num, by norm_num, by norm_num, by norm_num⟩ ⟨⟨0, 0, 0⟩, ⟨0, 0, 0⟩, ⟨0, 0, 0⟩⟩ 0 0
  exact ⟨e, α, h1, h2, h3⟩

end Verif.Props
