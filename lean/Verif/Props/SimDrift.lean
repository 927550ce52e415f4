import Verif.Proof.SimDrift
import Verif.Props.Slip
/-!
# C105: how far the estimate of a simulated robot can drift from it
-/
namespace Verif.Props
open Verif Verif.Control Verif.Sim Verif.Estimate Verif.Spec Verif.Proof.Drift

/-- One estimate: error of the speed. -/
theorem speed_step {s : Simulator} {e : Estimator} {st : State} (hp : e.period = s.period) (hT : 0 < s.period) (h : NoSlide s.current) (l r : ℝ) :
    let s' := (s.apply l r).step Trig.real
    (e.estimate Trig.real st (sensors Trig.real s')).1.vel - forward s'.current =
      e.alpha * (e.vel - forward s.current) + e.alpha * (forward s.current * (1 - Real.cos (s'.current.theta.v * s.period))) -
      (1 - e.alpha) * ((forward s'.current - forward s.current) / 2) := by
  intro s'
  obtain ⟨h1, h2⟩ := speeds h hT l r
  show e.nextVel (sensors Trig.real s') - forward s'.current = _
  rw [nextVel_eq, hp, h1, h2]
  ring

/-- **C105, straight.** A simulated robot drives straight, with any voltages, the same for both wheels. After any number of steps the error of its estimated
position is the initial one plus, along the heading, `period * α / (1 - α)` times the difference of the initial and the present error of the estimated
speed: the errors of the single steps cancel. The estimated slip angle stays zero. -/
theorem C105_straight (l : List ℝ) : ∀ (s : Simulator) (e : Estimator) (st : State), e.period = s.period → 0 < s.period → e.alpha ≠ 1 → 0 < e.approxTh →
    e.slip = 0 → NoSlide s.current → s.current.theta.v = 0 → st.theta.x = s.current.theta.x →
    let r := simEst Trig.real s e st (l.map fun v => (v, v))
    let off := e.period * e.alpha / (1 - e.alpha) * ((e.vel - forward s.current) - (r.2.1.vel - forward r.1.current))
    r.2.2.x.x - r.1.current.x.x = st.x.x - s.current.x.x + off * Real.cos s.current.theta.x ∧
    r.2.2.y.x - r.1.current.y.x = st.y.x - s.current.y.x + off * Real.sin s.current.theta.x ∧
    r.2.2.theta.x = s.current.theta.x ∧ r.1.current.theta.x = s.current.theta.x ∧ r.2.1.slip = 0 := by
  induction l with
  | nil =>
    intro s e st _ _ _ _ hs _ _ hth
    simp only [List.map_nil, simEst]
    refine ⟨by ring, by ring, hth, trivial, hs⟩
  | cons v l ih =>
    intro s e st hp hT ha ht hs hns h0 hth
    obtain ⟨s', hs'⟩ : ∃ s', s' = (s.apply v v).step Trig.real := ⟨_, rfl⟩
    obtain ⟨hw, hx⟩ := straight_step s v h0
    rw [← hs'] at hw hx
    have hstep := C57_step (s.apply v v) hns hT
    rw [← hs'] at hstep
    obtain ⟨-, hns', hdx, hdy, -⟩ := hstep
    have hper : s'.period = s.period := by rw [hs']; rfl
    have hvel := speed_step (e := e) (st := st) hp hT hns v v
    rw [← hs'] at hvel
    dsimp only at hvel
    rw [hw, zero_mul, Real.cos_zero, sub_self, mul_zero, mul_zero, add_zero] at hvel
    obtain ⟨p, hpe⟩ : ∃ p, p = e.estimate Trig.real st (sensors Trig.real s') := ⟨_, rfl⟩
    rw [← hpe] at hvel
    have hpp : p.1.period = e.period := by rw [hpe]; rfl
    have hpa : p.1.alpha = e.alpha := by rw [hpe]; rfl
    have hpt : p.1.approxTh = e.approxTh := by rw [hpe]; rfl
    have hom : (sensors Trig.real s').omega = 0 := hw
    have hsl : p.1.slip = 0 := by
      rw [hpe]
      show e.nextSlip (e.nextVel (sensors Trig.real s')) (sensors Trig.real s').omega = 0
      rw [hom]
      unfold Estimator.nextSlip
      split
      · rfl
      · rw [hs]; simp
    have hpth : p.2.theta.x = s'.current.theta.x := by
      rw [hpe]
      show st.theta.x + (sensors Trig.real s').omega * e.period = _
      rw [hom, hth, hx]; ring
    have hpx : p.2.x.x = st.x.x + p.1.vel * e.period * Real.cos s.current.theta.x ∧ p.2.y.x = st.y.x + p.1.vel * e.period * Real.sin s.current.theta.x := by
      have hsl' : e.nextSlip (e.nextVel (sensors Trig.real s')) (sensors Trig.real s').omega = 0 := by rw [← hsl, hpe]; rfl
      have hc : |(sensors Trig.real s').omega| < e.approxTh := by rw [hom, abs_zero]; exact ht
      rw [hpe]
      constructor
      · show st.x.x + (if |(sensors Trig.real s').omega| < e.approxTh then e.nextVel (sensors Trig.real s') * e.period else _) /
          Real.cos (e.nextSlip (e.nextVel (sensors Trig.real s')) (sensors Trig.real s').omega) *
          Real.cos (st.theta.x - e.nextSlip (e.nextVel (sensors Trig.real s')) (sensors Trig.real s').omega + (sensors Trig.real s').omega * e.period / 2) = _
        rw [if_pos hc, hsl', hom, Real.cos_zero, hth]
        simp only [sub_zero, zero_mul, zero_div, add_zero, div_one]; rfl
      · show st.y.x + (if |(sensors Trig.real s').omega| < e.approxTh then e.nextVel (sensors Trig.real s') * e.period else _) /
          Real.cos (e.nextSlip (e.nextVel (sensors Trig.real s')) (sensors Trig.real s').omega) *
          Real.sin (st.theta.x - e.nextSlip (e.nextVel (sensors Trig.real s')) (sensors Trig.real s').omega + (sensors Trig.real s').omega * e.period / 2) = _
        rw [if_pos hc, hsl', hom, Real.cos_zero, hth]
        simp only [sub_zero, zero_mul, zero_div, add_zero, div_one]; rfl
    have hi := ih s' p.1 p.2 (by rw [hpp, hper, hp]) (by rw [hper]; exact hT) (by rw [hpa]; exact ha) (by rw [hpt]; exact ht) hsl hns' hw hpth
    intro r off
    have hr : r = simEst Trig.real s' p.1 p.2 (l.map fun v => (v, v)) := by rw [hpe, hs']; rfl
    rw [← hr, hpp, hpa, hx] at hi
    obtain ⟨h1, h2, h3, h4, h5⟩ := hi
    have ha' : 1 - e.alpha ≠ 0 := fun h => ha (by linarith)
    obtain ⟨f1, f2⟩ := forward_noSlide hns
    obtain ⟨g1, g2⟩ := forward_noSlide hns'
    rw [hx] at g1 g2
    have hdx' : s'.current.x.x - s.current.x.x = (s.current.x.v + s'.current.x.v) / 2 * s.period := hdx
    have hdy' : s'.current.y.x - s.current.y.x = (s.current.y.v + s'.current.y.v) / 2 * s.period := hdy
    rw [f1, g1] at hdx'
    rw [f2, g2] at hdy'
    have hpv : p.1.vel = forward s'.current + (e.alpha * (e.vel - forward s.current) - (1 - e.alpha) * ((forward s'.current - forward s.current) / 2)) := by
      rw [← hvel]; ring
    refine ⟨?_, ?_, h3, h4, h5⟩
    · have : s'.current.x.x = s.current.x.x + (forward s.current * Real.cos s.current.theta.x + forward s'.current * Real.cos s.current.theta.x) / 2 * e.period := by
        rw [hp]; linarith
      show _ = _ + e.period * e.alpha / (1 - e.alpha) * ((e.vel - forward s.current) - (r.2.1.vel - forward r.1.current)) * _
      rw [h1, hpx.1, this, hpv]
      field_simp
      ring
    · have : s'.current.y.x = s.current.y.x + (forward s.current * Real.sin s.current.theta.x + forward s'.current * Real.sin s.current.theta.x) / 2 * e.period := by
        rw [hp]; linarith
      show _ = _ + e.period * e.alpha / (1 - e.alpha) * ((e.vel - forward s.current) - (r.2.1.vel - forward r.1.current)) * _
      rw [h2, hpx.2, this, hpv]
      field_simp
      ring

/-- **C105, speed.** Whatever the voltages, also in turns: the estimated speed of a simulated robot which starts within `E ≥ speedOff` of the true one
stays within `E`, and more exactly within `α ^ n` times the initial error plus `speedOff`. -/
theorem C105_speed {V O : ℝ} (l : List (ℝ × ℝ)) : ∀ (s : Simulator) (e : Estimator) (st : State), e.period = s.period → 0 ≤ e.alpha → e.alpha < 1 → Roams s V O →
    let r := simEst Trig.real s e st l
    Roams r.1 V O ∧
    |r.2.1.vel - forward r.1.current| ≤ e.alpha ^ l.length * |e.vel - forward s.current| + (1 - e.alpha ^ l.length) * speedOff e.alpha s V O := by
  induction l with
  | nil => intro s e st _ _ _ h; refine ⟨h, ?_⟩; simp [simEst]
  | cons v l ih =>
    intro s e st hp ha0 ha1 h
    obtain ⟨hro, hj⟩ := roams_step h v.1 v.2
    have hvel := speed_step (e := e) (st := st) hp h.period h.noSlide v.1 v.2
    obtain ⟨s', hs'⟩ : ∃ s', s' = (s.apply v.1 v.2).step Trig.real := ⟨_, rfl⟩
    obtain ⟨p, hpe⟩ : ∃ p, p = e.estimate Trig.real st (sensors Trig.real s') := ⟨_, rfl⟩
    rw [← hs'] at hro hj hvel
    dsimp only at hvel
    rw [← hpe] at hvel
    have hpp : p.1.period = e.period := by rw [hpe]; rfl
    have hpa : p.1.alpha = e.alpha := by rw [hpe]; rfl
    have hper : s'.period = s.period := by rw [hs']; rfl
    have hso : speedOff e.alpha s' V O = speedOff e.alpha s V O := by rw [hs']; rfl
    have hi := ih s' p.1 p.2 (by rw [hpp, hper, hp]) (by rw [hpa]; exact ha0) (by rw [hpa]; exact ha1) hro
    rw [hpa, hso] at hi
    intro r
    have hr : r = simEst Trig.real s' p.1 p.2 l := by rw [hpe, hs']; rfl
    rw [← hr] at hi
    refine ⟨hi.1, hi.2.trans ?_⟩
    have hturn : |s'.current.theta.v * s.period| ≤ O * s.period := by
      rw [abs_mul, abs_of_pos h.period]; exact mul_le_mul_of_nonneg_right hro.turn h.period.le
    have hstep : |p.1.vel - forward s'.current| ≤ e.alpha * |e.vel - forward s.current| + (1 - e.alpha) * speedOff e.alpha s V O := by
      rw [hvel]
      have hV : 0 ≤ V := (abs_nonneg _).trans h.speed
      have hb : (1 - e.alpha) * speedOff e.alpha s V O = e.alpha * (V * ((O * s.period) ^ 2 / 2)) + (1 - e.alpha) * (speedJump s V / 2) := by
        unfold speedOff
        have : 1 - e.alpha ≠ 0 := by linarith
        field_simp
      rw [hb]
      refine (abs_sub _ _).trans ?_
      have h1 : |e.alpha * (forward s.current * (1 - Real.cos (s'.current.theta.v * s.period)))| ≤ e.alpha * (V * ((O * s.period) ^ 2 / 2)) := by
        rw [abs_mul, abs_mul, abs_of_nonneg ha0]
        exact mul_le_mul_of_nonneg_left (mul_le_mul h.speed (one_sub_cos hturn) (abs_nonneg _) hV) ha0
      have h2 : |(1 - e.alpha) * ((forward s'.current - forward s.current) / 2)| ≤ (1 - e.alpha) * (speedJump s V / 2) := by
        rw [abs_mul, abs_of_nonneg (by linarith : 0 ≤ 1 - e.alpha), abs_div, abs_two]
        exact mul_le_mul_of_nonneg_left (by linarith) (by linarith)
      have h3 := abs_add_le (e.alpha * (e.vel - forward s.current)) (e.alpha * (forward s.current * (1 - Real.cos (s'.current.theta.v * s.period))))
      rw [abs_mul e.alpha (e.vel - forward s.current), abs_of_nonneg ha0] at h3
      linarith
    have := mul_le_mul_of_nonneg_left hstep (pow_nonneg ha0 l.length)
    rw [List.length_cons, pow_succ]
    nlinarith

/-- What one estimate adds to the position: along the heading in the middle of the step the distance travelled, across it that times the tangent of the
slip angle. -/
theorem estimate_parts {e : Estimator} {st : State} {v : Sensor} (hc : Real.cos (e.nextSlip (e.nextVel v) v.omega) ≠ 0) :
    let d := if |v.omega| < e.approxTh then e.nextVel v * e.period else 2 * e.nextVel v * Real.sin (v.omega * e.period / 2) / v.omega
    let q := -(d * Real.tan (e.nextSlip (e.nextVel v) v.omega))
    let m := st.theta.x + v.omega * e.period / 2
    (e.estimate Trig.real st v).2.x.x = st.x.x + (d * Real.cos m - q * Real.sin m) ∧
    (e.estimate Trig.real st v).2.y.x = st.y.x + (d * Real.sin m + q * Real.cos m) := by
  intro d q m
  constructor
  · show st.x.x + d / Real.cos (e.nextSlip (e.nextVel v) v.omega) * Real.cos (st.theta.x - e.nextSlip (e.nextVel v) v.omega + v.omega * e.period / 2) = _
    rw [show st.theta.x - e.nextSlip (e.nextVel v) v.omega + v.omega * e.period / 2 = m - e.nextSlip (e.nextVel v) v.omega by ring, Real.cos_sub]
    show _ = st.x.x + (d * Real.cos m - -(d * Real.tan (e.nextSlip (e.nextVel v) v.omega)) * Real.sin m)
    rw [Real.tan_eq_sin_div_cos]
    field_simp
    ring
  · show st.y.x + d / Real.cos (e.nextSlip (e.nextVel v) v.omega) * Real.sin (st.theta.x - e.nextSlip (e.nextVel v) v.omega + v.omega * e.period / 2) = _
    rw [show st.theta.x - e.nextSlip (e.nextVel v) v.omega + v.omega * e.period / 2 = m - e.nextSlip (e.nextVel v) v.omega by ring, Real.sin_sub]
    show _ = st.y.x + (d * Real.sin m + -(d * Real.tan (e.nextSlip (e.nextVel v) v.omega)) * Real.cos m)
    rw [Real.tan_eq_sin_div_cos]
    field_simp
    ring

/-- The distance travelled is at most speed times period. -/
theorem travelled_le {u o T th : ℝ} (hT : 0 < T) (ht : 0 < th) : |if |o| < th then u * T else 2 * u * Real.sin (o * T / 2) / o| ≤ |u| * T := by
  split
  · rw [abs_mul, abs_of_pos hT]
  · rename_i hn
    have ho : 0 < |o| := ht.trans_le (not_lt.1 hn)
    rw [abs_div, abs_mul, abs_mul, div_le_iff₀ ho, abs_of_pos (by norm_num : (0:ℝ) < 2)]
    have : |Real.sin (o * T / 2)| ≤ |o| * T / 2 := by
      refine Real.abs_sin_le_abs.trans ?_
      rw [abs_div, abs_mul, abs_of_pos hT, abs_of_pos (by norm_num : (0:ℝ) < 2)]
    have := mul_le_mul_of_nonneg_left this (abs_nonneg u)
    linarith

theorem tan_abs_le {b B : ℝ} (h : |b| ≤ B) (hB : B < Real.pi / 2) : |Real.tan b| ≤ Real.tan B := by
  have hB0 : 0 ≤ B := (abs_nonneg _).trans h
  rw [abs_le] at h ⊢
  constructor
  · rw [← Real.tan_neg]
    exact Real.strictMonoOn_tan.monotoneOn ⟨by linarith, by linarith⟩ ⟨by linarith, by linarith⟩ h.1
  · exact Real.strictMonoOn_tan.monotoneOn ⟨by linarith, by linarith⟩ ⟨by linarith, by linarith⟩ h.2

/-- **C105, drift.** Whatever the voltages: in every direction `(a, b)` the estimated position is off by at most the initial error plus `driftRate` times the time
driven, and the estimated heading is exact. The robot starts with the right heading, a speed known up to `E ≥ speedOff` and a slip angle of at most `B`, and `B` is at least
the largest lateral acceleration `O * (V + E)` over the slip constant. -/
theorem C105_drift {V O E B : ℝ} {a b : ℝ} (hab : a ^ 2 + b ^ 2 = 1) (l : List (ℝ × ℝ)) : ∀ (s : Simulator) (e : Estimator) (st : State), e.period = s.period → 0 ≤ e.alpha →
    e.alpha < 1 → 0 < e.approxTh → 0 < e.slipConst → Roams s V O → st.theta.x = s.current.theta.x →
    speedOff e.alpha s V O ≤ E → |e.vel - forward s.current| ≤ E → |e.slip| ≤ B → O * (V + E) ≤ B * e.slipConst → B < Real.pi / 2 →
    let r := simEst Trig.real s e st l
    |a * (r.2.2.x.x - r.1.current.x.x) + b * (r.2.2.y.x - r.1.current.y.x)| ≤
      |a * (st.x.x - s.current.x.x) + b * (st.y.x - s.current.y.x)| + l.length * s.period * driftRate s V O E (Real.tan B) ∧
    r.2.2.theta.x = r.1.current.theta.x ∧ |r.2.1.vel - forward r.1.current| ≤ E ∧ |r.2.1.slip| ≤ B := by
  induction l with
  | nil =>
    intro s e st _ _ _ _ _ _ hth _ hE hB _ _
    refine ⟨by simp [simEst], hth, hE, hB⟩
  | cons v l ih =>
    intro s e st hp ha0 ha1 ht hC h hth hso hE hB hlat hB2
    obtain ⟨hro, hj⟩ := roams_step h v.1 v.2
    have hvel := (C105_speed [v] s e st hp ha0 ha1 h).2
    have hstep := C57_step (s.apply v.1 v.2) h.noSlide h.period
    simp only [simEst, List.length_singleton, pow_one] at hvel
    obtain ⟨s', hs'⟩ : ∃ s', s' = (s.apply v.1 v.2).step Trig.real := ⟨_, rfl⟩
    obtain ⟨p, hpe⟩ : ∃ p, p = e.estimate Trig.real st (sensors Trig.real s') := ⟨_, rfl⟩
    rw [← hs'] at hro hj hvel hstep
    rw [← hpe] at hvel
    have hT := h.period
    have hV : 0 ≤ V := (abs_nonneg _).trans h.speed
    have hO : 0 ≤ O := (abs_nonneg _).trans h.turn
    have hE0 : 0 ≤ E := (abs_nonneg _).trans hE
    have hB0 : 0 ≤ B := (abs_nonneg _).trans hB
    have hpE : |p.1.vel - forward s'.current| ≤ E := by
      refine hvel.trans ?_
      have h1 := mul_le_mul_of_nonneg_left hE ha0
      have h2 := mul_le_mul_of_nonneg_left hso (by linarith : 0 ≤ 1 - e.alpha)
      linarith
    have hpv : p.1.vel = e.nextVel (sensors Trig.real s') := by rw [hpe]; rfl
    have hpU : |p.1.vel| ≤ V + E := by
      have : p.1.vel = forward s'.current + (p.1.vel - forward s'.current) := by ring
      rw [this]; exact (abs_add_le _ _).trans (add_le_add hro.speed hpE)
    have hom : (sensors Trig.real s').omega = s'.current.theta.v := rfl
    have hps : |e.nextSlip (e.nextVel (sensors Trig.real s')) (sensors Trig.real s').omega| ≤ B := by
      refine slip_bound (by rw [hp]; exact hT) hC hB ?_
      rw [hom, ← hpv]
      exact (mul_le_mul hro.turn hpU (abs_nonneg _) hO).trans hlat
    have hcos : Real.cos (e.nextSlip (e.nextVel (sensors Trig.real s')) (sensors Trig.real s').omega) ≠ 0 := by
      rw [abs_le] at hps
      exact (Real.cos_pos_of_mem_Ioo ⟨by linarith, by linarith⟩).ne'
    have hpp : p.1.period = e.period := by rw [hpe]; rfl
    have hpa : p.1.alpha = e.alpha := by rw [hpe]; rfl
    have hpt : p.1.approxTh = e.approxTh := by rw [hpe]; rfl
    have hpc : p.1.slipConst = e.slipConst := by rw [hpe]; rfl
    have hpsl : |p.1.slip| ≤ B := by rw [hpe]; exact hps
    have hper : s'.period = s.period := by rw [hs']; rfl
    have hso' : speedOff e.alpha s' V O = speedOff e.alpha s V O := by rw [hs']; rfl
    have hdr' : driftRate s' V O E (Real.tan B) = driftRate s V O E (Real.tan B) := by rw [hs']; rfl
    have hpth : p.2.theta.x = s'.current.theta.x := by
      rw [hpe, hs']
      show st.theta.x + _ * e.period = s.current.theta.x + _ * s.period
      rw [hth, hp]; rfl
    have hi := ih s' p.1 p.2 (by rw [hpp, hper, hp]) (by rw [hpa]; exact ha0) (by rw [hpa]; exact ha1) (by rw [hpt]; exact ht) (by rw [hpc]; exact hC) hro hpth
      (by rw [hpa, hso']; exact hso) hpE hpsl (by rw [hpc]; exact hlat) hB2
    rw [hper, hdr'] at hi
    intro r
    have hr : r = simEst Trig.real s' p.1 p.2 l := by rw [hpe, hs']; rfl
    rw [← hr] at hi
    refine ⟨hi.1.trans ?_, hi.2⟩
    -- one step
    obtain ⟨hpx, hpy⟩ := estimate_parts (st := st) hcos
    rw [← hpe, ← hpv] at hpx hpy
    rw [hom, hp] at hpx hpy
    have hturn : |s'.current.theta.v * s.period| ≤ O * s.period := by
      rw [abs_mul, abs_of_pos hT]; exact mul_le_mul_of_nonneg_right hro.turn hT.le
    obtain ⟨-, hns', hdx, hdy, hdt, -⟩ := hstep
    obtain ⟨f1, f2⟩ := forward_noSlide h.noSlide
    obtain ⟨g1, g2⟩ := forward_noSlide hns'
    have hdx' : s'.current.x.x - s.current.x.x = (s.current.x.v + s'.current.x.v) / 2 * s.period := hdx
    have hdy' : s'.current.y.x - s.current.y.x = (s.current.y.v + s'.current.y.v) / 2 * s.period := hdy
    have hdt' : s'.current.theta.x - s.current.theta.x = s'.current.theta.v * s.period := hdt
    obtain ⟨m, hm⟩ : ∃ m, m = st.theta.x + s'.current.theta.v * s.period / 2 := ⟨_, rfl⟩
    rw [← hm] at hpx hpy
    have hm1 : s.current.theta.x = m - s'.current.theta.v * s.period / 2 := by rw [hm, hth]; ring
    have hm2 : s'.current.theta.x = m + s'.current.theta.v * s.period / 2 := by rw [hm, hth]; linarith
    rw [f1, g1, hm1, hm2] at hdx'
    rw [f2, g2, hm1, hm2] at hdy'
    obtain ⟨d, hd⟩ : ∃ d, d = if |s'.current.theta.v| < e.approxTh then p.1.vel * s.period else 2 * p.1.vel * Real.sin (s'.current.theta.v * s.period / 2) / s'.current.theta.v :=
      ⟨_, rfl⟩
    rw [← hd] at hpx hpy
    obtain ⟨t, htn⟩ : ∃ t, t = Real.tan (e.nextSlip p.1.vel s'.current.theta.v) := ⟨_, rfl⟩
    rw [← htn] at hpx hpy
    have htB : |t| ≤ Real.tan B := by rw [htn, hpv]; exact tan_abs_le hps hB2
    have key := bound (p := d) (q := -(d * t)) (m := m) (h := s'.current.theta.v * s.period / 2) (st := d) (B := Real.tan B) (L := 0) hab hT h.speed hro.speed hj hpE
      (d := O * s.period) (by rw [abs_div, abs_two]; linarith) (by rw [hd]; exact travelled hT ht hturn) (by rw [hd]; exact travelled_le hT ht)
      (by simp) (by rw [abs_neg, abs_mul]; exact mul_le_mul_of_nonneg_left htB (abs_nonneg _)) ((abs_nonneg _).trans htB) le_rfl
    have e0 : a * (p.2.x.x - s'.current.x.x) + b * (p.2.y.x - s'.current.y.x) = (a * (st.x.x - s.current.x.x) + b * (st.y.x - s.current.y.x)) +
        (a * ((d * Real.cos m - -(d * t) * Real.sin m) - (forward s.current * Real.cos (m - s'.current.theta.v * s.period / 2) +
          forward s'.current * Real.cos (m + s'.current.theta.v * s.period / 2)) * s.period / 2) +
        b * ((d * Real.sin m + -(d * t) * Real.cos m) - (forward s.current * Real.sin (m - s'.current.theta.v * s.period / 2) +
          forward s'.current * Real.sin (m + s'.current.theta.v * s.period / 2)) * s.period / 2)) := by
      rw [hpx, hpy]
      linear_combination -a * hdx' - b * hdy'
    rw [e0]
    have hdef : (V + E) * (Real.tan B + 0 + (O * s.period) ^ 2 / 24) + E + speedJump s V / 2 + V * (O * s.period) ^ 2 / 8 + speedJump s V * (O * s.period) / 4 =
        driftRate s V O E (Real.tan B) := by unfold driftRate; ring
    rw [hdef] at key
    have := (abs_add_le _ _).trans (add_le_add (le_refl |a * (st.x.x - s.current.x.x) + b * (st.y.x - s.current.y.x)|) key)
    push_cast [List.length_cons]
    linarith

/-- **C105, bounded.** So driving straight the estimate never drifts off: if position, heading and speed are right at the start, then however long the drive and
whatever the voltages, the estimated position is on the line driven, and off by at most `period * α / (1 - α)` times half the largest jump of the speed. -/
theorem C105_bounded {V O : ℝ} (l : List ℝ) (s : Simulator) (e : Estimator) (st : State) (hp : e.period = s.period) (ha0 : 0 ≤ e.alpha) (ha1 : e.alpha < 1)
    (ht : 0 < e.approxTh) (hs : e.slip = 0) (h : Roams s V O) (h0 : s.current.theta.v = 0) (hth : st.theta.x = s.current.theta.x) (hx : st.x.x = s.current.x.x)
    (hy : st.y.x = s.current.y.x) (hv : e.vel = forward s.current) :
    let r := simEst Trig.real s e st (l.map fun v => (v, v))
    ∃ off, |off| ≤ s.period * e.alpha / (1 - e.alpha) * (speedJump s V / 2) ∧
      r.2.2.x.x = r.1.current.x.x + off * Real.cos s.current.theta.x ∧ r.2.2.y.x = r.1.current.y.x + off * Real.sin s.current.theta.x := by
  obtain ⟨h1, h2, -⟩ := C105_straight l s e st hp h.period ha1.ne ht hs h.noSlide h0 hth
  have hsp := C65_speed (speedJump s V) l s e st hp h.period ha0 ha1 h.noSlide h0 (by
    intro k v _ before
    have hb := (C105_speed ((l.take k).map fun v => (v, v)) s e st hp ha0 ha1 h).1
    have hj := (roams_step hb v v).2
    have hk : ∀ (l : List (ℝ × ℝ)) (s : Simulator) (e : Estimator) (st : State), speedJump (simEst Trig.real s e st l).1 V = speedJump s V := by
      intro l
      induction l with
      | nil => intro _ _ _; rfl
      | cons w l ih => intro s e st; exact (ih _ _ _).trans rfl
    rw [hk] at hj
    exact hj)
  dsimp only at hsp h1 h2
  generalize simEst Trig.real s e st (l.map fun v => (v, v)) = r at hsp h1 h2
  rw [hv, sub_self, abs_zero, mul_zero, zero_add] at hsp
  rw [hx, sub_self, zero_add] at h1
  rw [hy, sub_self, zero_add] at h2
  refine ⟨e.period * e.alpha / (1 - e.alpha) * ((e.vel - forward s.current) - (r.2.1.vel - forward r.1.current)), ?_, by rw [← h1]; ring, by rw [← h2]; ring⟩
  have hT := h.period
  have hJ : 0 ≤ speedJump s V / 2 := by
    have := (abs_nonneg _).trans h.speed
    have := h.transT1
    unfold speedJump; positivity
  have hc : 0 ≤ e.period * e.alpha / (1 - e.alpha) := by
    rw [hp]
    have : 0 < 1 - e.alpha := by linarith
    positivity
  rw [abs_mul, abs_of_nonneg hc, hv, sub_self, zero_sub, abs_neg]
  rw [hp] at hc ⊢
  refine mul_le_mul_of_nonneg_left (hsp.trans ?_) hc
  have := pow_nonneg ha0 l.length
  nlinarith

/-- A robot at rest in the corner cell with motors for 1 m/s and 10 rad/s, sampled every millisecond, and an estimator that knows where it is. -/
example (w : Walls.Walls) : let z : AxisState := ⟨0, 0, 0⟩
    let s := Simulator.new w ⟨⟨0.045, 0, 0⟩, ⟨0.045, 0, 0⟩, z⟩ ⟨z, z, z⟩ 1 0.001 1 0.369 10 0.149 0.033
    let α : ℝ := 0.9
    Roams s 1 10 ∧ speedOff α s 1 10 ≤ 0.004 ∧ (10 : ℝ) * (1 + 0.004) ≤ 0.11 * 100 ∧ (0.11 : ℝ) < Real.pi / 2 := by
  refine ⟨⟨?_, ?_, ?_, ?_, ?_, ?_, ?_, ?_, ?_⟩, ?_, by norm_num, by have := Real.two_le_pi; linarith⟩ <;>
    norm_num [Simulator.new, NoSlide, forward, speedOff, speedJump]

end Verif.Props
