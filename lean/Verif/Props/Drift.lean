import Verif.Proof.Drift
/-!
# C123: how far single precision is from the estimate in real numbers

`mousecore2/src/estimate.rs` in binary32 (`Verif.Model.Single`) against the same code in real numbers (`Verif.Model.Estimate`), on the
same readings of the sensors, however many.
-/
namespace Verif.Props
open Verif Verif.Spec Verif.Binary32 Verif.Proof Verif.Single

variable {p W w Ω V : ℝ} {exp : F → F}

/-- An estimator in binary32 and one in real numbers that are close to each other. -/
structure Twin (p W w Ω V : ℝ) (f : Estimator) (e : Estimate.Estimator) : Prop where
  suits : Suits p W w Ω V (estimatorOf e)
  suits' : Suits p W w Ω V f
  period : f.period = .fin p
  alpha : f.alpha = .fin e.alpha
  slipConst : f.slipConst = .fin e.slipConst
  approxTh : f.approxTh = .fin e.approxTh
  vel : ∃ v, f.vel = .fin v ∧ |v| ≤ V ∧ |v - e.vel| ≤ speedErr e.alpha V W w
  slip : ∃ b, f.slip = .fin b ∧ |b| ≤ 5 / 4 ∧ |b - e.slip| ≤ slipErr p e.slipConst e.alpha V W w Ω
  vel' : |e.vel| ≤ V
  slip' : |e.slip| ≤ 1

theorem alpha_lt {e : Estimate.Estimator} (S : Suits p W w Ω V (estimatorOf e)) : e.alpha < 1 := by
  obtain ⟨α, hα, α0, α1, h⟩ := S.alpha
  have hal : e.alpha = α := by simpa [estimatorOf] using hα
  have hV := S.speed
  have hw := S.change
  rw [hal]
  refine lt_of_le_of_ne α1 fun h1 => ?_
  rw [h1] at h
  linarith

theorem speedErr_nonneg {e : Estimate.Estimator} (S : Suits p W w Ω V (estimatorOf e)) : 0 ≤ speedErr e.alpha V W w := by
  have := alpha_lt S
  have := S.speed
  have := S.wheels
  have := S.change
  exact div_nonneg (by linarith) (mul_nonneg (by positivity) (by linarith))

/-- One estimate. -/
theorem twin_step {f : Estimator} {e : Estimate.Estimator} (H : Twin p W w Ω V f e) (L : Lib) (T : Control.Trig) (fs : State) (es : Control.State)
    {s : Estimate.Sensor} (P : Plausible p W w Ω (sensorOf s)) :
    Twin p W w Ω V (f.estimate (arith exp) L fs (sensorOf s)).1 (e.estimate T es s).1 := by
  obtain ⟨S, S', c1, c2, c3, c4, ⟨v, hv, hV, hE⟩, ⟨b, hb, hB, hEb⟩, hv', hs'⟩ := H
  have hα := alpha_lt S
  have hE0 := speedErr_nonneg S
  have hp0 : 0 < p := lt_of_lt_of_le (by positivity) S.low
  obtain ⟨C, hC, hC1, hC2⟩ := S.slipConst
  have hCe : e.slipConst = C := by simpa [estimatorOf] using hC
  have hVp := S.speed
  have hC0 : 0 < e.slipConst := by rw [hCe]; linarith
  obtain ⟨⟨v1, e1, b1⟩, r1⟩ := vel_step (exp := exp) S P c1 c2 hv hV hE hv'
  obtain ⟨v2, e2, V2⟩ := next_vel (exp := exp) S' P hv hV
  obtain rfl : v1 = v2 := by rw [e1] at e2; injection e2
  obtain ⟨ω, hω, hω'⟩ := P.omega
  have eω : s.omega = ω := by simpa [sensorOf] using hω
  have D1 : |v1 - e.nextVel s| ≤ speedErr e.alpha V W w := by
    refine b1.trans (le_of_eq ?_)
    unfold speedErr
    have : (1 - e.alpha) ≠ 0 := by linarith
    field_simp
    ring
  obtain ⟨⟨b2, e3, b3⟩, r2⟩ := slip_step (exp := exp) S c1 c3 hb hB hEb hs' r1 V2 D1 hω'
  obtain ⟨b4, e4, b5⟩ := next_slip (exp := exp) S' V2 hω' hb hB
  obtain rfl : b2 = b4 := by rw [e3] at e4; injection e4
  have f1 : (f.estimate (arith exp) L fs (sensorOf s)).1 = { f with vel := .fin v1, slip := .fin b2 } := by
    unfold Estimator.estimate
    dsimp only
    rw [e1, hω, e3]
  have f2 : (e.estimate T es s).1 = { e with vel := e.nextVel s, slip := e.nextSlip (e.nextVel s) ω } := by
    unfold Estimate.Estimator.estimate
    rw [eω]
  rw [f1, f2]
  refine ⟨⟨S.low, S.high, S.wheels, S.change, S.speed, S.turn, S.period, S.alpha, S.slipConst, S.approxTh⟩,
    ⟨S'.low, S'.high, S'.wheels, S'.change, S'.speed, S'.turn, S'.period, S'.alpha, S'.slipConst, S'.approxTh⟩, c1, c2, c3, c4,
    ⟨v1, rfl, V2, D1⟩, ⟨b2, rfl, b5, b3.trans (le_of_eq ?_)⟩, r1, r2⟩
  show _ = slipErr p e.slipConst e.alpha V W w Ω
  unfold slipErr
  obtain ⟨K, hK⟩ : ∃ K, K = (1 / p + Ω) / e.slipConst * speedErr e.alpha V W w + 1 / 2 ^ 17 := ⟨_, rfl⟩
  have hCp := mul_pos hC0 hp0
  have : V + e.slipConst * p ≠ 0 := by linarith
  rw [add_assoc, ← hK]
  field_simp
  ring

theorem twin_start {e : Estimate.Estimator} (S : Suits p W w Ω V (estimatorOf e)) (hv : |e.vel| ≤ V) (hs : |e.slip| ≤ 1) :
    Twin p W w Ω V (estimatorOf e) e := by
  have h0 := speedErr_nonneg S
  have hp0 : 0 < p := lt_of_lt_of_le (by positivity) S.low
  obtain ⟨C, hC, hC1, hC2⟩ := S.slipConst
  have hCe : e.slipConst = C := by simpa [estimatorOf] using hC
  have hV := S.speed
  have hΩ := S.turn
  have hC0 : 0 < e.slipConst := by rw [hCe]; linarith
  refine ⟨S, S, S.period, rfl, rfl, rfl, ⟨_, rfl, hv, by simpa using h0⟩, ⟨_, rfl, by linarith, ?_⟩, hv, hs⟩
  rw [sub_self, abs_zero]
  unfold slipErr
  have : 0 ≤ (1 / p + Ω) / e.slipConst := div_nonneg (add_nonneg (by positivity) hΩ.1) hC0.le
  have hV0 : 0 ≤ V := by linarith
  positivity

theorem twin_run {f : Estimator} {e : Estimate.Estimator} (H : Twin p W w Ω V f e) (L : Lib) (T : Control.Trig) (fs : State) (es : Control.State)
    (l : List Estimate.Sensor) (hl : ∀ s ∈ l, Plausible p W w Ω (sensorOf s)) :
    Twin p W w Ω V (estRunF (arith exp) L f fs (l.map sensorOf)).1 (estRun T e es l).1 := by
  induction l generalizing f e fs es with
  | nil => exact H
  | cons s l ih =>
    exact ih (twin_step H L T fs es (hl s List.mem_cons_self)) _ _ fun q hq => hl q (List.mem_cons_of_mem _ hq)

theorem run_consts (T : Control.Trig) (e : Estimate.Estimator) (es : Control.State) (l : List Estimate.Sensor) :
    (estRun T e es l).1.alpha = e.alpha ∧ (estRun T e es l).1.slipConst = e.slipConst ∧ (estRun T e es l).1.period = e.period := by
  induction l generalizing e es with
  | nil => exact ⟨rfl, rfl, rfl⟩
  | cons s l ih => exact ih _ _

/-- However long it runs, the estimator in single precision has a speed and a slip angle that are as close as that to those of the same
estimator in real numbers. The errors do not add up. Nothing is asked of sines and cosines. -/
theorem C123_speed {e : Estimate.Estimator} (S : Suits p W w Ω V (estimatorOf e)) (hv : |e.vel| ≤ V) (hs : |e.slip| ≤ 1) (L : Lib)
    (T : Control.Trig) (st : Control.State) (l : List Estimate.Sensor) (hl : ∀ s ∈ l, Plausible p W w Ω (sensorOf s)) :
    ∃ v b, (estRunF (arith exp) L (estimatorOf e) (stateOf st) (l.map sensorOf)).1.vel = .fin v ∧
      (estRunF (arith exp) L (estimatorOf e) (stateOf st) (l.map sensorOf)).1.slip = .fin b ∧
      |v - (estRun T e st l).1.vel| ≤ speedErr e.alpha V W w ∧
      |b - (estRun T e st l).1.slip| ≤ slipErr p e.slipConst e.alpha V W w Ω := by
  have H := twin_run (exp := exp) (twin_start S hv hs) L T (stateOf st) st l hl
  obtain ⟨v, h1, -, h2⟩ := H.vel
  obtain ⟨b, h3, -, h4⟩ := H.slip
  obtain ⟨k1, k2, -⟩ := run_consts T e st l
  rw [k1] at h2
  rw [k1, k2] at h4
  exact ⟨v, b, h1, h3, h2, h4⟩

theorem estRunF_append (A : Arith) (L : Lib) (e : Estimator) (s : State) (l : List Sensor) (v : Sensor) :
    estRunF A L e s (l ++ [v]) = (estRunF A L e s l).1.estimate A L (estRunF A L e s l).2 v := by
  induction l generalizing e s with
  | nil => rfl
  | cons a l ih => exact ih _ _

theorem estRun_snoc (T : Control.Trig) (e : Estimate.Estimator) (s : Control.State) (l : List Estimate.Sensor) (v : Estimate.Sensor) :
    estRun T e s (l ++ [v]) = (estRun T e s l).1.estimate T (estRun T e s l).2 v := by
  induction l generalizing e s with
  | nil => rfl
  | cons a l ih => exact ih _ _

/-- The heading in single precision is off by at most as much per estimate, for the first four million estimates, as long as the
heading itself stays within `H`. -/
theorem C123_heading {e : Estimate.Estimator} (S : Suits p W w Ω V (estimatorOf e)) (hv : |e.vel| ≤ V) (hs : |e.slip| ≤ 1) (L : Lib)
    (T : Control.Trig) (st : Control.State) {H : ℝ} (hH : H ≤ 2 ^ 60) (l : List Estimate.Sensor) (hn : l.length ≤ 2 ^ 22)
    (hl : ∀ s ∈ l, Plausible p W w Ω (sensorOf s)) (hh : ∀ k, |(estRun T e st (l.take k)).2.theta.x| ≤ H) :
    ∃ θ, (estRunF (arith exp) L (estimatorOf e) (stateOf st) (l.map sensorOf)).2.theta.x = .fin θ ∧
      |θ - (estRun T e st l).2.theta.x| ≤ l.length * headingErr p Ω H := by
  induction l using List.reverseRecOn with
  | nil => exact ⟨st.theta.x, rfl, by simp [estRun]⟩
  | append_singleton l s ih =>
    have hl' : ∀ s ∈ l, Plausible p W w Ω (sensorOf s) := fun q hq => hl q (List.mem_append_left _ hq)
    rw [List.length_append, List.length_singleton] at hn
    obtain ⟨θ, h1, h2⟩ := ih (by omega) hl' (fun k => by
      have := hh (min k l.length)
      rwa [List.take_append_of_le_length (by omega), ← List.take_eq_take_min] at this)
    have hw := hh (l.length + 1)
    rw [List.take_of_length_le (by simp)] at hw
    have TW := twin_run (exp := exp) (twin_start S hv hs) L T (stateOf st) st l hl'
    obtain ⟨ω, hω, hω'⟩ := (hl s (by simp)).omega
    have eω : s.omega = ω := by simpa [sensorOf] using hω
    have hp0 : 0 < p := lt_of_lt_of_le (by positivity) S.low
    have hp1 := S.high
    have hΩ := S.turn
    have hper : e.period = p := by have := S.period; simpa [estimatorOf] using this
    have hωp : |ω * p| ≤ Ω * p := by
      rw [abs_mul, abs_of_pos hp0]
      exact mul_le_mul_of_nonneg_right hω' hp0.le
    have hΩp : Ω * p ≤ 2 ^ 5 := by
      have := mul_le_mul hΩ.2 hp1 hp0.le (by positivity)
      norm_num at this ⊢
      linarith
    obtain ⟨d, ed, bd⟩ := rnd_err (z := ω * p) (by
      have : (2:ℝ) ^ 5 ≤ 2 ^ 100 := by norm_num
      linarith)
    have H0 : 0 ≤ H := (abs_nonneg _).trans hw
    rw [estRun_snoc] at hw ⊢
    have hr : ((estRun T e st l).1.estimate T (estRun T e st l).2 s).2.theta.x = (estRun T e st l).2.theta.x + ω * p := by
      show _ + s.omega * (estRun T e st l).1.period = _
      rw [eω, (run_consts T e st l).2.2, hper]
    rw [hr] at hw ⊢
    have hd' : |d - ω * p| ≤ (Ω * p + 1 / 2 ^ 100) / 2 ^ 24 := by
      have a : |ω * p| / 2 ^ 24 ≤ Ω * p / 2 ^ 24 := div_le_div_of_nonneg_right hωp (by positivity)
      have b : (1:ℝ) / 2 ^ 150 ≤ 1 / 2 ^ 100 / 2 ^ 24 := by norm_num
      rw [add_div]
      linarith
    have hΩp0 : 0 ≤ Ω * p := mul_nonneg hΩ.1 hp0.le
    obtain ⟨x, ex, bx⟩ := sum_step (c := headingErr p Ω H) (n := l.length) (by omega) h2 hd' hw
      (hH.trans (by norm_num)) (by
        unfold headingErr
        rw [div_le_iff₀ (by positivity)]
        have : (2:ℝ) ^ 60 + 2 ^ 5 + 1 / 2 ^ 100 ≤ 2 ^ 64 * 2 ^ 23 := by norm_num
        linarith) (by
        unfold headingErr
        have b : (1:ℝ) / 2 ^ 150 ≤ 1 / 2 ^ 100 / 2 ^ 26 := by norm_num
        have e1 : (0:ℝ) < 1 / 2 ^ 100 := by positivity
        obtain ⟨q, hq⟩ : ∃ q : ℝ, q = 1 / 2 ^ 100 := ⟨_, rfl⟩
        rw [← hq] at b e1 ⊢
        generalize Ω * p = R at *
        norm_num at b ⊢
        linarith)
    refine ⟨x, ?_, ?_⟩
    · rw [List.map_append, List.map_singleton, estRunF_append]
      show (arith exp).add _ ((arith exp).mul (sensorOf s).omega _) = _
      rw [h1, TW.period, hω]
      show (arith exp).add _ (rnd (ω * p)) = _
      rw [ed]
      exact ex
    · rw [List.length_append, List.length_singleton]
      push_cast
      exact bx

/-- Rotations slower than that are never noticed, however long they last: a heading of `2^k` or more stays what it is, although the
robot turns and the heading in real numbers grows without bound. -/
theorem C123_deaf {e : Estimate.Estimator} (S : Suits p W w Ω V (estimatorOf e)) (hv : |e.vel| ≤ V) (hs : |e.slip| ≤ 1) (L : Lib)
    (T : Control.Trig) (st : Control.State) {m k : ℤ} (h1 : 2 ^ 23 ≤ |m|) (h2 : |m| < 2 ^ 24) (hk : -100 ≤ k) (hk' : k ≤ 100)
    (hθ : st.theta.x = m * 2 ^ (k - 23)) {ω : ℝ} (hω : |ω| * p < 2 ^ (k - 26)) (l : List Estimate.Sensor)
    (hl : ∀ s ∈ l, Plausible p W w Ω (sensorOf s)) (hlω : ∀ s ∈ l, s.omega = ω) :
    (estRunF (arith exp) L (estimatorOf e) (stateOf st) (l.map sensorOf)).2.theta.x = .fin st.theta.x ∧
    (estRun T e st l).2.theta.x = st.theta.x + l.length * (ω * p) := by
  have hp0 : 0 < p := lt_of_lt_of_le (by positivity) S.low
  have hper : e.period = p := by have := S.period; simpa [estimatorOf] using this
  induction l using List.reverseRecOn with
  | nil => exact ⟨rfl, by simp [estRun]⟩
  | append_singleton l s ih =>
    have hl' : ∀ s ∈ l, Plausible p W w Ω (sensorOf s) := fun q hq => hl q (List.mem_append_left _ hq)
    obtain ⟨i1, i2⟩ := ih hl' fun q hq => hlω q (List.mem_append_left _ hq)
    have TW := twin_run (exp := exp) (twin_start S hv hs) L T (stateOf st) st l hl'
    have eω : s.omega = ω := hlω s (by simp)
    constructor
    · rw [List.map_append, List.map_singleton, estRunF_append]
      show (arith exp).add _ ((arith exp).mul (.fin s.omega) _) = _
      rw [i1, TW.period, eω]
      show (arith exp).add _ (rnd (ω * p)) = _
      have hωp : |ω * p| < 2 ^ (k - 26) := by rw [abs_mul, abs_of_pos hp0]; exact hω
      have hk2 : (2:ℝ) ^ (k - 26) ≤ 2 ^ (74:ℤ) := zpow_le_zpow_right₀ (by norm_num) (by omega)
      obtain ⟨d, ed, bd⟩ := rnd_err (z := ω * p) (by
        have : (2:ℝ) ^ (74:ℤ) ≤ 2 ^ 100 := by norm_num
        linarith)
      have hd : |d| < 2 ^ (k - 23 - 2) := by
        have a := abs_sub_abs_le_abs_sub d (ω * p)
        have b : |ω * p| / 2 ^ 24 ≤ |ω * p| / 2 := div_le_div_of_nonneg_left (abs_nonneg _) (by norm_num) (by norm_num)
        have c : (2:ℝ) ^ (k - 23 - 2) = 2 ^ (k - 26) * 2 := by rw [← zpow_add_one₀ (by norm_num)]; ring_nf
        have c2 : (1:ℝ) / 2 ^ 150 ≤ 2 ^ (k - 26) / 2 := by
          have : (2:ℝ) ^ (-126:ℤ) ≤ 2 ^ (k - 26) := zpow_le_zpow_right₀ (by norm_num) (by omega)
          have h3 : (1:ℝ) / 2 ^ 150 ≤ 2 ^ (-126:ℤ) / 2 := by norm_num
          exact h3.trans (div_le_div_of_nonneg_right this (by norm_num))
        rw [c]
        generalize (2:ℝ) ^ (k - 26) = q at *
        linarith
      rw [ed, hθ]
      show rnd _ = _
      have hr := deaf h1 h2 (show -149 ≤ k - 23 by omega) hd
      rw [rnd_of_lt, hr]
      rw [hr, abs_mul, abs_of_pos (pow_pos' _)]
      have u1 : |(m:ℝ)| < 2 ^ 24 := by exact_mod_cast h2
      have u2 : (2:ℝ) ^ (k - 23) ≤ 2 ^ (77:ℤ) := zpow_le_zpow_right₀ (by norm_num) (by omega)
      calc |(m:ℝ)| * 2 ^ (k - 23) ≤ 2 ^ 24 * 2 ^ (77:ℤ) := mul_le_mul u1.le u2 (pow_pos' _).le (by positivity)
        _ < 2 ^ 128 := by norm_num
    · rw [estRun_snoc]
      show _ + s.omega * (estRun T e st l).1.period = _
      rw [eω, (run_consts T e st l).2.2, hper, i2, List.length_append, List.length_singleton]
      push_cast
      ring

/-! ## Instances -/

/-- An estimator with a period of 1/1024 s, for wheels of up to 1 m/s, speed changes of up to 1/8 m/s within a period and rotations of up to
32 rad/s. -/
noncomputable def driftBench : Estimate.Estimator := { period := 1 / 1024, alpha := 3 / 4, slipConst := 128, approxTh := 1 / 8, slip := 0, vel := 0 }

theorem driftBench_suits : Suits (1 / 1024) 1 (1 / 8) 32 2 (estimatorOf driftBench) where
  low := by norm_num
  high := by norm_num
  wheels := by norm_num
  change := by norm_num
  speed := by norm_num
  turn := by norm_num
  period := rfl
  alpha := ⟨3 / 4, rfl, by norm_num, by norm_num, by norm_num⟩
  slipConst := ⟨128, rfl, by norm_num, by norm_num⟩
  approxTh := ⟨1 / 8, rfl, by norm_num⟩

/-- Wheels at 1/2 m/s on a curve. -/
noncomputable def driftCurve (ω : ℝ) : Estimate.Sensor := { left := 1 / 2048, right := 1 / 2048, acc := 0, omega := ω }

theorem driftCurve_plausible {ω : ℝ} (h : |ω| ≤ 32) : Plausible (1 / 1024) 1 (1 / 8) 32 (sensorOf (driftCurve ω)) where
  left := ⟨_, rfl, by norm_num [driftCurve]⟩
  right := ⟨_, rfl, by norm_num [driftCurve]⟩
  acc := ⟨_, rfl, by norm_num [driftCurve]⟩
  omega := ⟨_, rfl, h⟩

/-- On any number of such readings the speed is off by at most 12.5 µm/s. -/
example (exp : F → F) (L : Lib) (st : Control.State) (l : List ℝ) (hl : ∀ ω ∈ l, |ω| ≤ 32) :
    ∃ v, (estRunF (arith exp) L (estimatorOf driftBench) (stateOf st) ((l.map driftCurve).map sensorOf)).1.vel = .fin v ∧
      |v - (estRun Control.Trig.real driftBench st (l.map driftCurve)).1.vel| ≤ 25 / 2000000 := by
  obtain ⟨v, -, h, -, h', -⟩ := C123_speed (exp := exp) driftBench_suits (by norm_num [driftBench]) (by norm_num [driftBench]) L Control.Trig.real st
    (l.map driftCurve) (by
      intro s hs
      obtain ⟨ω, hω, rfl⟩ := List.mem_map.1 hs
      exact driftCurve_plausible (hl ω hω))
  refine ⟨v, h, h'.trans ?_⟩
  norm_num [speedErr, driftBench]

/-- A heading of 8 rad (from 8 to 16): a rotation of 0.0001 rad/s is not noticed in a million estimates (16 minutes), after which the robot
has turned by 0.1 rad. -/
example (exp : F → F) (L : Lib) :
    (estRunF (arith exp) L (estimatorOf driftBench) (stateOf ⟨⟨0, 0, 0⟩, ⟨0, 0, 0⟩, ⟨8, 0, 0⟩⟩) ((List.replicate (2 ^ 20) (driftCurve (1 / 10000))).map sensorOf)).2.theta.x = .fin 8 ∧
    (estRun Control.Trig.real driftBench ⟨⟨0, 0, 0⟩, ⟨0, 0, 0⟩, ⟨8, 0, 0⟩⟩ (List.replicate (2 ^ 20) (driftCurve (1 / 10000)))).2.theta.x = 8 + 1024 / 10000 := by
  have h := C123_deaf (exp := exp) driftBench_suits (by norm_num [driftBench]) (by norm_num [driftBench]) L Control.Trig.real ⟨⟨0, 0, 0⟩, ⟨0, 0, 0⟩, ⟨8, 0, 0⟩⟩
    (m := 2 ^ 23) (k := 3) (by norm_num) (by norm_num) (by norm_num) (by norm_num) (by norm_num) (ω := 1 / 10000) (by norm_num)
    (List.replicate (2 ^ 20) (driftCurve (1 / 10000)))
    (by intro s hs; rw [List.eq_of_mem_replicate hs]; exact driftCurve_plausible (by norm_num))
    (by intro s hs; rw [List.eq_of_mem_replicate hs]; rfl)
  rw [List.length_replicate] at h
  refine ⟨h.1, h.2.trans ?_⟩
  norm_num

/-- A second on a curve of 2 rad/s: the heading is off by at most 0.0003 rad. -/
example (exp : F → F) (L : Lib) (st : Control.State) (hst : st.theta.x = 0) :
    ∃ θ, (estRunF (arith exp) L (estimatorOf driftBench) (stateOf st) ((List.replicate 1024 (driftCurve 2)).map sensorOf)).2.theta.x = .fin θ ∧
      |θ - 2| ≤ 3 / 10000 := by
  have hr : ∀ n, (estRun Control.Trig.real driftBench st (List.replicate n (driftCurve 2))).2.theta.x = n / 512 := by
    intro n
    rw [C53_heading, hst, List.map_replicate, List.sum_replicate, zero_add]
    show n • ((2:ℝ) * (1 / 1024)) = _
    rw [nsmul_eq_mul]; ring
  obtain ⟨θ, h, h'⟩ := C123_heading (exp := exp) driftBench_suits (by norm_num [driftBench]) (by norm_num [driftBench]) L Control.Trig.real st (H := 2)
    (by norm_num) (List.replicate 1024 (driftCurve 2)) (by norm_num)
    (by intro s hs; rw [List.eq_of_mem_replicate hs]; exact driftCurve_plausible (by norm_num))
    (by
      intro k
      rw [List.take_replicate, hr, abs_of_nonneg (by positivity), div_le_iff₀ (by norm_num)]
      have : min k 1024 ≤ 1024 := min_le_right _ _
      have : ((min k 1024 : ℕ) : ℝ) ≤ 1024 := by exact_mod_cast this
      linarith)
  refine ⟨θ, h, ?_⟩
  rw [hr, List.length_replicate] at h'
  norm_num [headingErr] at h'
  exact h'.trans (by norm_num)

end Verif.Props
