import Verif.Spec.Sim
import Verif.Props.Estimate
import Verif.Props.DetectWalls
import Verif.Props.Convert
/-!
# C56, C57: the simulator; C65, C66: the simulated robot in the loop
-/
namespace Verif.Props
open Verif Verif.Control Verif.Search Verif.Detect Verif.Sim Verif.Estimate Verif.Spec Verif.Convert

/-! ## C56 -/

theorem limit_abs {m v : ℝ} (hm : 0 ≤ m) : |limit m v| ≤ m := by
  unfold limit
  split
  · rw [abs_of_nonneg hm]
  · split
    · rw [abs_neg, abs_of_nonneg hm]
    · rw [abs_le]; constructor <;> linarith

/-- **C56, one call.** The stored voltages are within the limit, and are those asked for if these are. -/
theorem C56_apply (s : Simulator) (hm : 0 ≤ s.maxVoltage) (l r : ℝ) :
    |(s.apply l r).leftVoltage| ≤ s.maxVoltage ∧ |(s.apply l r).rightVoltage| ≤ s.maxVoltage ∧
    (|l| ≤ s.maxVoltage → (s.apply l r).leftVoltage = l) ∧ (|r| ≤ s.maxVoltage → (s.apply l r).rightVoltage = r) := by
  have h : ∀ v, |v| ≤ s.maxVoltage → limit s.maxVoltage v = v := by
    intro v hv
    rw [abs_le] at hv
    unfold limit
    rw [if_neg (by linarith), if_neg (by linarith)]
  exact ⟨limit_abs hm, limit_abs hm, h l, h r⟩

theorem forward_step (s : Simulator) : forward (s.step Trig.real).current = s.nextTransVel Trig.real := by
  have := Real.sin_sq_add_cos_sq (s.current.theta.x + s.nextRotVel * s.period)
  show s.nextTransVel Trig.real * Real.cos (s.current.theta.x + s.nextRotVel * s.period) *
      Real.cos (s.current.theta.x + s.nextRotVel * s.period) +
    s.nextTransVel Trig.real * Real.sin (s.current.theta.x + s.nextRotVel * s.period) *
      Real.sin (s.current.theta.x + s.nextRotVel * s.period) = _
  linear_combination (s.nextTransVel Trig.real) * this

/-- The weighted mean of the present speed and the steady speed. -/
theorem mean_abs {v w a B : ℝ} (ha : 0 ≤ a) (ha1 : a ≤ 1) (hv : |v| ≤ B) (hw : |w| ≤ B) : |v * a + (1 - a) * w| ≤ B := by
  refine (abs_add_le _ _).trans ?_
  rw [abs_mul, abs_mul, abs_of_nonneg ha, abs_of_nonneg (by linarith : 0 ≤ 1 - a)]
  nlinarith [mul_le_mul_of_nonneg_right hv ha, mul_le_mul_of_nonneg_left hw (by linarith : 0 ≤ 1 - a)]

theorem ratio_mem {t p : ℝ} (ht : 0 ≤ t) (hp : 0 < p) : 0 ≤ t / (t + p) ∧ t / (t + p) ≤ 1 := by
  constructor
  · positivity
  · rw [div_le_one (by linarith)]; linarith

/-- **C56.** Over any history of calls the voltages stay within the limit, the forward speed within the larger of its initial
value and gain times limit, and likewise the turn rate. -/
theorem C56_bounded (cs : List SimCall) : ∀ (s : Simulator), 0 ≤ s.maxVoltage → 0 < s.period → 0 ≤ s.transT1 → 0 ≤ s.rotT1 →
    |s.leftVoltage| ≤ s.maxVoltage → |s.rightVoltage| ≤ s.maxVoltage →
    let s' := simRun Trig.real s cs
    |s'.leftVoltage| ≤ s.maxVoltage ∧ |s'.rightVoltage| ≤ s.maxVoltage ∧
    |forward s'.current| ≤ max |forward s.current| (|s.transK| * s.maxVoltage) ∧
    |s'.current.theta.v| ≤ max |s.current.theta.v| (|s.rotK| * s.maxVoltage) := by
  induction cs with
  | nil => intro s _ _ _ _ hl hr; exact ⟨hl, hr, le_max_left _ _, le_max_left _ _⟩
  | cons c cs ih =>
    intro s hm hp ht hrt hl hr
    cases c with
    | apply l r =>
      obtain ⟨h1, h2, -, -⟩ := C56_apply s hm l r
      exact ih (s.apply l r) hm hp ht hrt h1 h2
    | step =>
      obtain ⟨h1, h2, h3, h4⟩ := ih (s.step Trig.real) hm hp ht hrt hl hr
      rw [abs_le] at hl hr
      refine ⟨h1, h2, h3.trans (max_le ?_ (le_max_right _ _)), h4.trans (max_le ?_ (le_max_right _ _))⟩
      · rw [forward_step]
        obtain ⟨a0, a1⟩ := ratio_mem ht hp
        refine mean_abs a0 a1 (le_max_left _ _) (le_trans ?_ (le_max_right _ _))
        rw [abs_mul]
        refine mul_le_mul_of_nonneg_left ?_ (abs_nonneg _)
        rw [abs_le]; constructor <;> linarith [hl.1, hl.2, hr.1, hr.2]
      · show |s.nextRotVel| ≤ _
        obtain ⟨a0, a1⟩ := ratio_mem hrt hp
        refine mean_abs a0 a1 (le_max_left _ _) (le_trans ?_ (le_max_right _ _))
        rw [abs_mul]
        refine mul_le_mul_of_nonneg_left ?_ (abs_nonneg _)
        rw [abs_le]; constructor <;> linarith [hl.1, hl.2, hr.1, hr.2]

/-- **C56, steady state.** Under constant voltages speed and turn rate approach gain times mean voltage and gain times half
the voltage difference, geometrically. -/
theorem C56_steady (n : Nat) : ∀ (s : Simulator),
    let s' := simRun Trig.real s (List.replicate n .step)
    let V := s.transK * ((s.rightVoltage + s.leftVoltage) / 2)
    let O := s.rotK * ((s.rightVoltage - s.leftVoltage) / 2)
    forward s'.current - V = (s.transT1 / (s.transT1 + s.period)) ^ n * (forward s.current - V) ∧
    s'.current.theta.v - O = (s.rotT1 / (s.rotT1 + s.period)) ^ n * (s.current.theta.v - O) := by
  induction n with
  | zero => intro s; simp [simRun]
  | succ n ih =>
    intro s s' V O
    obtain ⟨h1, h2⟩ := ih (s.step Trig.real)
    constructor
    · refine h1.trans ?_
      rw [forward_step]
      show _ * (forward s.current * (s.transT1 / (s.transT1 + s.period)) + (1 - s.transT1 / (s.transT1 + s.period)) * V - V) = _
      show (s.transT1 / (s.transT1 + s.period)) ^ n * _ = _
      ring
    · refine h2.trans ?_
      show (s.rotT1 / (s.rotT1 + s.period)) ^ n *
        (s.current.theta.v * (s.rotT1 / (s.rotT1 + s.period)) + (1 - s.rotT1 / (s.rotT1 + s.period)) * O - O) = _
      ring

/-- A simulator at rest with 5 V and a millisecond satisfies the hypotheses. -/
example (w : Walls.Walls) : let z : AxisState := ⟨0, 0, 0⟩
    let s := Simulator.new w ⟨z, z, z⟩ ⟨z, z, z⟩ 5 0.001 1.9 0.36 100 0.28 0.033
    0 ≤ s.maxVoltage ∧ 0 < s.period ∧ 0 ≤ s.transT1 ∧ 0 ≤ s.rotT1 ∧ |s.leftVoltage| ≤ s.maxVoltage ∧
    |s.rightVoltage| ≤ s.maxVoltage := by
  norm_num [Simulator.new]

/-! ## C57 -/

/-- **C57, encoders.** For any simulator: the outputs add up to twice the mean forward speed times the period and differ by
the mean turn rate times wheel interval times period. -/
theorem C57_encoders (s : Simulator) :
    (s.distance Trig.real).1 + (s.distance Trig.real).2 = (forward s.last + forward s.current) * s.period ∧
    (s.distance Trig.real).2 - (s.distance Trig.real).1 =
      (s.last.theta.v + s.current.theta.v) / 2 * s.wheelInterval * s.period := by
  simp only [Simulator.distance, Simulator.average, forward, Trig.real]
  constructor <;> ring

theorem forward_noSlide {s : State} (h : NoSlide s) :
    s.x.v = forward s * Real.cos s.theta.x ∧ s.y.v = forward s * Real.sin s.theta.x := by
  have := Real.sin_sq_add_cos_sq s.theta.x
  unfold NoSlide at h
  unfold forward
  constructor
  · linear_combination -s.x.v * this + Real.sin s.theta.x * h
  · linear_combination -s.y.v * this - Real.cos s.theta.x * h

/-- **C57, motion.** A step of a robot that does not slide leaves it not sliding, moves it by the trapezoid of old and new
velocity, turns it by the new turn rate, and sets the accelerations to the difference quotients. -/
theorem C57_step (s : Simulator) (h : NoSlide s.current) (hp : 0 < s.period) :
    let s' := s.step Trig.real
    s'.last = s.current ∧ NoSlide s'.current ∧
    s'.current.x.x - s.current.x.x = (s.current.x.v + s'.current.x.v) / 2 * s.period ∧
    s'.current.y.x - s.current.y.x = (s.current.y.v + s'.current.y.v) / 2 * s.period ∧
    s'.current.theta.x - s.current.theta.x = s'.current.theta.v * s.period ∧
    s'.current.x.a * s.period = s'.current.x.v - s.current.x.v ∧
    s'.current.y.a * s.period = s'.current.y.v - s.current.y.v ∧
    s'.current.theta.a * s.period = s'.current.theta.v - s.current.theta.v := by
  obtain ⟨h1, h2⟩ := forward_noSlide h
  have e : transVel Trig.real s.current = forward s.current := rfl
  intro s'
  refine ⟨rfl, ?_, ?_, ?_, ?_, ?_, ?_, ?_⟩
  · simp only [NoSlide, s', Simulator.step, Trig.real]; ring
  · rw [h1]
    simp only [s', Simulator.step, e]
    simp only [Trig.real]
    ring
  · rw [h2]
    simp only [s', Simulator.step, e]
    simp only [Trig.real]
    ring
  · simp only [s', Simulator.step]; ring
  · simp only [s', Simulator.step]; field_simp
  · simp only [s', Simulator.step]; field_simp
  · simp only [s', Simulator.step]; field_simp

/-- **C57, accelerometer.** After a step it measures the change of the velocity along the new heading. -/
theorem C57_acc (s : Simulator) (h : NoSlide s.current) (hp : 0 < s.period) :
    let s' := s.step Trig.real
    s'.transAcc Trig.real * s.period =
      forward s'.current - forward s.current * Real.cos (s'.current.theta.x - s.current.theta.x) := by
  intro s'
  obtain ⟨h1, h2⟩ := forward_noSlide h
  obtain ⟨-, -, -, -, -, h3, h4, -⟩ := C57_step s h hp
  have : s'.transAcc Trig.real * s.period = s'.current.x.a * s.period * Real.cos s'.current.theta.x +
      s'.current.y.a * s.period * Real.sin s'.current.theta.x := by
    simp only [Simulator.transAcc, Trig.real]; ring
  rw [this, Real.cos_sub]
  rw [show s'.current.x.a * s.period = _ from h3, show s'.current.y.a * s.period = _ from h4, h1, h2]
  simp only [forward]
  ring

example : NoSlide ⟨⟨0, 3, 0⟩, ⟨0, 0, 0⟩, ⟨0, 1, 0⟩⟩ := by simp [NoSlide]

/-! ## C65 -/

/-- **C65, heading.** An estimator that starts with the heading of the simulated robot has exactly its heading and turn rate
after any history of voltages, whatever its other state. -/
theorem C65_heading (T : Trig) (l : List (ℝ × ℝ)) : ∀ (s : Simulator) (e : Estimator) (st : State), e.period = s.period →
    st.theta.x = s.current.theta.x → st.theta.v = s.current.theta.v →
    (simEst T s e st l).2.2.theta.x = (simEst T s e st l).1.current.theta.x ∧
    (simEst T s e st l).2.2.theta.v = (simEst T s e st l).1.current.theta.v := by
  induction l with
  | nil => intro s e st _ h1 h2; exact ⟨h1, h2⟩
  | cons v l ih =>
    intro s e st hp h1 h2
    refine ih _ _ _ hp ?_ rfl
    show st.theta.x + _ * e.period = s.current.theta.x + _ * s.period
    rw [h1, hp]
    rfl

/-- Driving straight: both wheels get the same voltage. -/
theorem straight_step (s : Simulator) (v : ℝ) (h0 : s.current.theta.v = 0) :
    let s' := (s.apply v v).step Trig.real
    s'.current.theta.v = 0 ∧ s'.current.theta.x = s.current.theta.x := by
  have : (s.apply v v).nextRotVel = 0 := by
    simp [Simulator.nextRotVel, Simulator.apply, h0]
  refine ⟨this, ?_⟩
  show s.current.theta.x + (s.apply v v).nextRotVel * s.period = _
  rw [this]; ring

/-- **C65, speed.** Driving straight from a state that does not slide, with the speed changing by at most `D` in a step, the
estimated speed is off by at most `alpha ^ n` times the initial error plus `D / 2`. -/
theorem C65_speed (D : ℝ) (l : List ℝ) : ∀ (s : Simulator) (e : Estimator) (st : State), e.period = s.period → 0 < s.period →
    0 ≤ e.alpha → e.alpha < 1 → NoSlide s.current → s.current.theta.v = 0 →
    (∀ k v, l[k]? = some v → let before := (simEst Trig.real s e st ((l.take k).map fun v => (v, v))).1
      |forward ((before.apply v v).step Trig.real).current - forward before.current| ≤ D) →
    let r := simEst Trig.real s e st (l.map fun v => (v, v))
    |r.2.1.vel - forward r.1.current| ≤ e.alpha ^ l.length * |e.vel - forward s.current| + (1 - e.alpha ^ l.length) * (D / 2) := by
  induction l with
  | nil => intro s e st _ _ _ _ _ _ _; simp [simEst]
  | cons v l ih =>
    intro s e st hp hp0 ha0 ha1 hns h0 hD r
    obtain ⟨s', hs'⟩ : ∃ s', s' = (s.apply v v).step Trig.real := ⟨_, rfl⟩
    obtain ⟨hw, hx⟩ := straight_step s v h0
    rw [← hs'] at hw hx
    have hns' : NoSlide s'.current := hs' ▸ (C57_step (s.apply v v) hns hp0).2.1
    have hlast : s'.last = s.current := by rw [hs']; rfl
    have hper : s'.period = s.period := by rw [hs']; rfl
    obtain ⟨p, hpe⟩ : ∃ p, p = e.estimate Trig.real st (sensors Trig.real s') := ⟨_, rfl⟩
    have hr : r = simEst Trig.real s' p.1 p.2 (l.map fun v => (v, v)) := by rw [hpe, hs']; rfl
    have hpp : p.1.period = e.period := by rw [hpe]; rfl
    have hpa : p.1.alpha = e.alpha := by rw [hpe]; rfl
    have := ih s' p.1 p.2 (by rw [hpp, hper, hp]) (by rw [hper]; exact hp0) (by rw [hpa]; exact ha0) (by rw [hpa]; exact ha1)
      hns' hw (by
        intro k w hk
        have := hD (k + 1) w (by simpa using hk)
        rw [hpe, hs']
        exact this)
    rw [← hr, hpa] at this
    refine this.trans ?_
    -- one step
    have hv : p.1.vel = e.nextVel (sensors Trig.real s') := by rw [hpe]; rfl
    have hacc : s'.transAcc Trig.real * s.period = forward s'.current - forward s.current := by
      have := C57_acc (s.apply v v) hns hp0
      rw [← hs'] at this
      dsimp only at this
      rw [hx] at this
      simpa [Simulator.apply] using this
    have henc := (C57_encoders s').1
    rw [hlast, hper] at henc
    have hwheel : wheelSpeed e.period (sensors Trig.real s') = (forward s.current + forward s'.current) / 2 := by
      unfold wheelSpeed sensors
      rw [henc, hp]
      field_simp
    have hstep : |p.1.vel - forward s'.current| ≤ e.alpha * |e.vel - forward s.current| + (1 - e.alpha) * (D / 2) := by
      have hd := hD 0 v rfl
      simp only [List.take_zero, List.map_nil, simEst] at hd
      rw [← hs'] at hd
      have : p.1.vel - forward s'.current = e.alpha * (e.vel - forward s.current) +
          (1 - e.alpha) * (-(forward s'.current - forward s.current) / 2) := by
        rw [hv, nextVel_eq, hwheel]
        have : (sensors Trig.real s').acc * e.period = forward s'.current - forward s.current := by rw [hp]; exact hacc
        rw [this]; ring
      rw [this]
      refine (abs_add_le _ _).trans ?_
      rw [abs_mul, abs_mul (1 - e.alpha), abs_of_nonneg ha0, abs_of_nonneg (by linarith : 0 ≤ 1 - e.alpha), abs_div, abs_neg,
        abs_two]
      have := mul_le_mul_of_nonneg_left hd (by linarith : 0 ≤ 1 - e.alpha)
      linarith
    have := mul_le_mul_of_nonneg_left hstep (pow_nonneg ha0 l.length)
    rw [List.length_cons, pow_succ]
    nlinarith

/-! ## C66 -/

theorem report_half {p : ℝ} : (1 / 2 ≤ p → report exact (.fin p) ≠ .checked false) ∧
    (p ≤ 1 / 2 → report exact (.fin p) ≠ .checked true) := by
  have e : reverse exact (TH exact) = .fin (9 / 10) := by
    simp only [reverse, TH, Arith.sub, Arith.add, F.neg, exact]; norm_num
  have h1 : (F.fin p).lt (TH exact) ↔ p < 1 / 10 := Iff.rfl
  have h2 : (reverse exact (TH exact)).lt (.fin p) ↔ 9 / 10 < p := by rw [e]; exact Iff.rfl
  unfold report
  constructor <;> intro h
  · rw [if_neg (by rw [h1]; linarith)]
    split <;> simp
  · split
    · simp
    · rw [if_neg (by rw [h2]; linarith)]; simp

/-- One look at a wall. -/
theorem look {W : Nat} {convert : Pose → Option WallInfo} (hc : GoodConverter convert W) {s : Simulator} {pose : Pose}
    {i : WallInfo} (hi : convert pose = some i) {st : WallState} (hst : Walls.wallState W s.walls i.coord = .ok st) :
    ∃ a b : ℝ, i = ⟨i.coord, .fin a, .fin b⟩ ∧
      s.distanceFromWall convert W pose = .ok (some (.fin (if st = .checked true then a else b), .fin (2 / 1000))) := by
  obtain ⟨-, a, b, ha, hb⟩ := hc _ _ hi
  refine ⟨a, b, by rw [← ha, ← hb], ?_⟩
  unfold Simulator.distanceFromWall
  rw [hi]
  simp only [hst, bind, Except.bind]
  have : (if st = .checked true then i.existing else i.notExisting) = .fin (if st = .checked true then a else b) := by
    rw [ha, hb]; split <;> rfl
  rw [this, if_neg (by simp [F.isNan])]
  rfl

/-- **C66, truth.** A detector fed with the simulated readings, at any sequence of poses, never panics, never leans to the
wrong side, and every wall or opening it reports is one. -/
theorem C66_truth {W : Nat} (hW : Supported W) {sort : List (Dir × F) → List (Dir × F)} (hs : Sorts sort) (s : Simulator)
    (hw : Reachable W s.walls) (poses : List Pose) :
    ∀ d, Leaning W s.walls d → ∃ d' rs, simDetect (Converter.default.convert W sort) W s poses d = .ok (d', rs) ∧
      Leaning W s.walls d' ∧ ∀ c b, some (c, .checked b) ∈ rs →
        Valid W c ∧ (b = true ↔ Walls.wallState W s.walls c = .ok (.checked true)) := by
  have hc : GoodConverter (Converter.default.convert W sort) W := C34_good (by norm_num) (by norm_num) hW hs
  generalize Converter.default.convert W sort = convert at hc
  induction poses with
  | nil => intro d hd; exact ⟨d, [], rfl, hd, by simp⟩
  | cons pose poses ih =>
    intro d hd
    unfold simDetect
    cases hi : convert pose with
    | none =>
      have : s.distanceFromWall convert W pose = .ok none := by unfold Simulator.distanceFromWall; rw [hi]; rfl
      rw [this]
      exact ih d hd
    | some i =>
      obtain ⟨hv, -⟩ := hc _ _ hi
      obtain ⟨st, hst⟩ := C05_readable hW hw _ hv
      obtain ⟨a, b, hab, hl⟩ := look hc hi hst
      rw [hl]
      simp only [bind, Except.bind]
      obtain ⟨p, hp, hp0, hp1, hpt, hpf⟩ := hd _ hv
      rw [hab] at hi
      generalize i.coord = c at *
      clear hab hl
      by_cases hz : isZero (d (c.asIndex W)) ∨ isOne exact (d (c.asIndex W))
      · rw [detect_settled exact hW _ _ _ hi hv hz]
        obtain ⟨d', rs, h1, h2, h3⟩ := ih d hd
        refine ⟨d', none :: rs, by simp only [h1]; rfl, h2, ?_⟩
        intro c b hb
        rcases List.mem_cons.1 hb with hb | hb
        · cases hb
        · exact h3 c b hb
      · have hop := (open_iff p hp0 hp1).mp (by rwa [hp] at hz)
        obtain ⟨m, hm⟩ : ∃ m, m = if st = .checked true then a else b := ⟨_, rfl⟩
        rw [← hm]
        have hdo := detect_open (o := ⟨m, 2 / 1000, pose⟩) hW hi hv (by norm_num) hp hop
        obtain ⟨q, hq⟩ : ∃ q, q = bayes p (likelihood a m (2 / 1000)) (likelihood b m (2 / 1000)) := ⟨_, rfl⟩
        simp only [← hq] at hdo
        have hmem := bayes_mem hop.pos hop.lt_one (likelihood_pos a m (2 / 1000)) (likelihood_pos b m (2 / 1000))
        rw [← hq] at hmem
        have hmon := C39_monotone W hW convert d (fun j => if j = c.asIndex W then .fin q else d j) c hv pose a b (2 / 1000) p hi (by norm_num) hp hp0 hp1
          (some (c, report exact (.fin q)))
        have side : (Walls.wallState W s.walls c = .ok (.checked true) → 1 / 2 ≤ q) ∧
            (Walls.wallState W s.walls c ≠ .ok (.checked true) → q ≤ 1 / 2) := by
          constructor <;> intro ht
          · rw [hst] at ht
            cases ht
            rw [if_pos rfl] at hm
            obtain ⟨p', h1, h2⟩ := hmon.1 (hm ▸ hdo)
            have h1' : (F.fin q) = .fin p' := by simpa using h1
            cases h1'
            exact (hpt hst).trans h2
          · have : st ≠ .checked true := fun h => ht (by rw [hst, h])
            rw [if_neg this] at hm
            obtain ⟨p', h1, h2⟩ := hmon.2 (hm ▸ hdo)
            have h1' : (F.fin q) = .fin p' := by simpa using h1
            cases h1'
            exact h2.trans (hpf ht)
        rw [hdo]
        have hd1 : Leaning W s.walls (fun j => if j = c.asIndex W then .fin q else d j) := by
          intro c' hv'
          by_cases e : c' = c
          · subst e
            exact ⟨q, by simp, hmem.1.le, hmem.2.1.le, side⟩
          · have : c'.asIndex W ≠ c.asIndex W := fun h => e (Verif.Grid.asIndex_inj hW hv' hv h)
            simp only [if_neg this]
            exact hd c' hv'
        obtain ⟨d', rs, h1, h2, h3⟩ := ih _ hd1
        refine ⟨d', some (c, report exact (.fin q)) :: rs, by simp only [h1]; rfl, h2, ?_⟩
        intro c' b' hb
        rcases List.mem_cons.1 hb with hb | hb
        · simp only [Option.some.injEq, Prod.mk.injEq] at hb
          obtain ⟨rfl, hbq⟩ := hb
          refine ⟨hv, ?_⟩
          by_cases ht : Walls.wallState W s.walls c' = .ok (.checked true)
          · have := report_half.1 (side.1 ht)
            rw [← hbq] at this
            cases b'
            · exact absurd rfl this
            · exact ⟨fun _ => ht, fun _ => rfl⟩
          · have := report_half.2 (side.2 ht)
            rw [← hbq] at this
            cases b'
            · exact ⟨fun h => (by cases h), fun h => absurd h ht⟩
            · exact absurd rfl this
        · exact h3 c' b' hb

/-- A fresh detector leans nowhere. -/
theorem C66_new (W : Nat) (w : Walls.Walls) : Leaning W w Detect.new := by
  intro c _
  exact ⟨1 / 2, rfl, by norm_num, by norm_num, fun _ => le_rfl, fun _ => le_rfl⟩

/-- **C66, progress.** Looking at a wall of the maze from the same pose again and again, a fresh detector reports the truth
after finitely many looks. -/
theorem C66_settles {W : Nat} (hW : Supported W) {sort : List (Dir × F) → List (Dir × F)} (hs : Sorts sort) (s : Simulator)
    (hw : Reachable W s.walls) (pose : Pose) {i j : Int} (hi : 0 ≤ i ∧ i < 128)
    (hj : 0 ≤ j ∧ j < 128) (hx : InCell (9 / 100) pose.x i) (hy : InCell (9 / 100) pose.y j) (info : WallInfo)
    (h : Converter.default.convert W sort pose = some info) :
    ∃ n d rs b, simDetect (Converter.default.convert W sort) W s (List.replicate (n + 1) pose) Detect.new = .ok (d, rs) ∧
      rs.getLast? = some (some (info.coord, .checked b)) ∧
      (b = true ↔ Walls.wallState W s.walls info.coord = .ok (.checked true)) := by
  have hc : GoodConverter (Converter.default.convert W sort) W := C34_good (by norm_num) (by norm_num) hW hs
  obtain ⟨-, side, a, b, hv, -, ha, hb, -, -, -, -, -, hlt⟩ :=
    C34_wall default_width (by norm_num) (by norm_num) hW hs pose hi hj hx hy info h
  obtain ⟨st, hst⟩ := C05_readable hW hw _ hv
  obtain ⟨a', b', hab, hl⟩ := look hc h hst
  generalize Converter.default.convert W sort = convert at *
  rw [hab] at ha hb h
  cases ha
  cases hb
  have hne : a ≠ b := ne_of_lt (hlt (by norm_num))
  obtain ⟨n, d, rs, h1, h2, -⟩ := C39_settles W hW convert Detect.new info.coord hv pose a b (2 / 1000) (1 / 2) h hne
    (by norm_num) rfl (by constructor <;> linarith [eps_small]) (decide (st = .checked true))
  refine ⟨n, d, rs, decide (st = .checked true), ?_, h2, by simp [hst]⟩
  rw [← h1]
  generalize n + 1 = k
  generalize Detect.new = d0
  clear h1
  induction k generalizing d0 with
  | zero => rfl
  | succ k ih =>
    rw [List.replicate_succ, List.replicate_succ]
    unfold simDetect observe
    rw [hl]
    simp only [bind, Except.bind, decide_eq_true_eq]
    generalize detectAndUpdate exact convert W d0 _ _ pose = r
    match r with
    | .error e => rfl
    | .ok (d1, r1) =>
      dsimp only
      rw [ih]
      simp only [decide_eq_true_eq]

/-- The map of a simulator is built by the parser, so the hypothesis holds. -/
example (s : Simulator) (text : List Char) (h : Walls.fromStr 16 text = .ok (.ok s.walls)) : Reachable 16 s.walls :=
  .parsed h

end Verif.Props
