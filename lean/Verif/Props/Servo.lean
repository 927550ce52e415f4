import Verif.Spec.Servo
import Verif.Proof.Schur
/-!
# The speed loop: controller and simulated motors
-/
namespace Verif.Props
open Verif Verif.Control Verif.Sim Verif.Spec Verif.Schur

namespace Servo

set_option maxHeartbeats 400000 in
/-- One axis. -/
theorem axis {p : Params} {K T1 h : ℝ} (ht : Tuned p K T1 h) :
    ∃ C ρ : ℝ, 0 < C ∧ 0 ≤ ρ ∧ ρ < 1 ∧ ∀ (v S r dr m dm : ℕ → ℝ) (D μ : ℝ) (n : ℕ),
      (∀ k < n, v (k + 1) = v k * (T1 / (T1 + h)) +
        (1 - T1 / (T1 + h)) * (K * (controlEach (r k) (dr k) (v k + m k) (dm k) p h (S k)).1)) →
      (∀ k < n, S (k + 1) = (controlEach (r k) (dr k) (v k + m k) (dm k) p h (S k)).2) →
      (∀ k, |defect T1 h (r k) (dr k) (r (k + 1))| ≤ D) → (∀ k, |m k| ≤ μ) →
      |r n - v n| + |S n| ≤ C * (ρ ^ n * (|r 0 - v 0| + |S 0|) + D + μ) ∧
      |(controlEach (r n) (dr n) (v n + m n) (dm n) p h (S n)).1| ≤
        (|r n| + T1 * |dr n|) / K + C * (ρ ^ n * (|r 0 - v 0| + |S 0|) + D + μ) := by
  obtain ⟨rfl, rfl, hkd, hK, hT, hh, hki, hslow, hmild⟩ := ht
  set K := p.modelK
  set T1 := p.modelT1
  have hTh : 0 < T1 + h := by linarith
  obtain ⟨β, hβ⟩ : ∃ β, β = h * K / (T1 + h) := ⟨_, rfl⟩
  have hβ0 : 0 < β := by rw [hβ]; positivity
  obtain ⟨α, hα⟩ : ∃ α, α = T1 / (T1 + h) := ⟨_, rfl⟩
  have hβα : (1 - α) * K = β := by rw [hα, hβ]; field_simp; ring
  have hα' : α * (T1 + h) = T1 := by rw [hα]; field_simp
  have hβ' : β * (T1 + h) = h * K := by rw [hβ]; field_simp
  have c1 : (α - β * p.kp) + β * p.ki * h < 1 := by
    have : ((α - β * p.kp) + β * p.ki * h) * (T1 + h) < 1 * (T1 + h) := by
      have e : ((α - β * p.kp) + β * p.ki * h) * (T1 + h) = T1 + h * (K * p.ki * h - K * p.kp) := by
        calc _ = α * (T1 + h) + (β * (T1 + h)) * (p.ki * h - p.kp) := by ring
          _ = _ := by rw [hα', hβ']; ring
      rw [e]
      nlinarith
    exact lt_of_mul_lt_mul_right this hTh.le
  have c2 : 0 < 2 + 2 * (α - β * p.kp) + β * p.ki * h := by
    have : 0 * (T1 + h) < (2 + 2 * (α - β * p.kp) + β * p.ki * h) * (T1 + h) := by
      have e : (2 + 2 * (α - β * p.kp) + β * p.ki * h) * (T1 + h) = 4 * T1 + 2 * h + K * p.ki * h * h - 2 * K * p.kp * h := by
        calc _ = 2 * (T1 + h) + 2 * (α * (T1 + h)) + (β * (T1 + h)) * (p.ki * h - 2 * p.kp) := by ring
          _ = _ := by rw [hα', hβ']; ring
      rw [e]; linarith
    exact lt_of_mul_lt_mul_right this hTh.le
  obtain ⟨C, ρ, hC, hρ0, hρ1, hdec⟩ := decay hh (mul_pos hβ0 hki) c1 c2
  obtain ⟨G, hG⟩ : ∃ G, G = |β * p.kp| + h + 1 := ⟨_, rfl⟩
  have hG1 : 1 ≤ G := by rw [hG]; linarith [abs_nonneg (β * p.kp)]
  have h1ρ : 0 < 1 - ρ := by linarith
  obtain ⟨B, hB⟩ : ∃ B, B = C * G / (1 - ρ) := ⟨_, rfl⟩
  have hBC : C ≤ B := by
    rw [hB, le_div_iff₀ h1ρ]
    nlinarith
  have hB0 : 0 < B := by linarith
  obtain ⟨H, hH⟩ : ∃ H, H = |p.kp| + p.ki + 1 := ⟨_, rfl⟩
  have hH1 : 1 ≤ H := by rw [hH]; linarith [abs_nonneg p.kp]
  refine ⟨H * B + H, ρ, by positivity, hρ0, hρ1, ?_⟩
  intro v S r dr m dm D μ n hv hS hD hμ
  have hD0 : 0 ≤ D := (abs_nonneg _).trans (hD 0)
  have hμ0 : 0 ≤ μ := (abs_nonneg _).trans (hμ 0)
  obtain ⟨E, hE⟩ : ∃ E, E = |r 0 - v 0| + |S 0| := ⟨_, rfl⟩
  have hE0 : 0 ≤ E := by rw [hE]; positivity
  have main : |r n - v n| + |S n| ≤ B * (ρ ^ n * E + D + μ) := by
    have := disturbed (a := α - β * p.kp) (b := β * p.ki) (h := h) (W := G * (D + μ)) hC hρ0 hρ1 hdec
      (fun k => (r k - v k, S k))
      (fun k => (β * p.kp * m k + defect T1 h (r k) (dr k) (r (k + 1)), -(h * m k))) n ?_ ?_
    · have e : N ((fun k => (r k - v k, S k)) 0) = E := hE.symm
      rw [e] at this
      have e' : N ((fun k => (r k - v k, S k)) n) = |r n - v n| + |S n| := rfl
      rw [e'] at this
      refine this.trans ?_
      have hp : 0 ≤ ρ ^ n := pow_nonneg hρ0 n
      have q1 : C * ρ ^ n * E ≤ B * (ρ ^ n * E) := by
        rw [mul_assoc]; exact mul_le_mul_of_nonneg_right hBC (by positivity)
      have q2 : C * (G * (D + μ)) * ((1 - ρ ^ n) / (1 - ρ)) ≤ B * (D + μ) := by
        rw [hB]
        have : C * (G * (D + μ)) * ((1 - ρ ^ n) / (1 - ρ)) = C * G / (1 - ρ) * (D + μ) * (1 - ρ ^ n) := by
          field_simp
        rw [this]
        have : 0 ≤ C * G / (1 - ρ) * (D + μ) := by positivity
        nlinarith
      linarith
    · intro k hk
      have hvk := hv k hk
      have hSk := hS k hk
      rw [← hα] at hvk
      simp only [controlEach, hkd, zero_mul, add_zero] at hvk hSk
      have e1 : (1 - α) * (K * ((dr k * T1 + r k) / K + p.kp * (r k - (v k + m k)) + p.ki * S k)) =
          (1 - α) * (dr k * T1 + r k) + β * (p.kp * (r k - (v k + m k)) + p.ki * S k) := by
        have : K * ((dr k * T1 + r k) / K) = dr k * T1 + r k := by field_simp
        rw [← hβα]
        linear_combination (1 - α) * this
      rw [e1] at hvk
      have e2 : h * T1 / (T1 + h) = (1 - α) * T1 := by rw [hα]; field_simp; ring
      ext
      · simp only [M, Prod.fst_add, defect]
        rw [hvk, e2]; ring
      · simp only [M, Prod.snd_add]
        rw [hSk]; ring
    · intro k _
      have a1 := abs_add_le (β * p.kp * m k) (defect T1 h (r k) (dr k) (r (k + 1)))
      have a2 : |β * p.kp * m k| ≤ |β * p.kp| * μ := by
        rw [abs_mul]; exact mul_le_mul_of_nonneg_left (hμ k) (abs_nonneg _)
      have a3 : |-(h * m k)| ≤ h * μ := by
        rw [abs_neg, abs_mul, abs_of_pos hh]; exact mul_le_mul_of_nonneg_left (hμ k) hh.le
      have a4 := hD k
      show |_| + |_| ≤ _
      have : G * (D + μ) = G * D + (|β * p.kp| * μ + h * μ + μ) := by rw [hG]; ring
      rw [this]
      nlinarith
  rw [← hE]
  have hX : 0 ≤ ρ ^ n * E + D + μ := by positivity
  refine ⟨main.trans ?_, ?_⟩
  · apply mul_le_mul_of_nonneg_right _ hX
    nlinarith
  · simp only [controlEach, hkd, zero_mul, add_zero]
    have b1 : |(dr n * T1 + r n) / K| ≤ (|r n| + T1 * |dr n|) / K := by
      rw [abs_div, abs_of_pos hK]
      apply div_le_div_of_nonneg_right _ hK.le
      have := abs_add_le (dr n * T1) (r n)
      rw [abs_mul, abs_of_pos hT] at this
      linarith
    have b2 : |p.kp * (r n - (v n + m n))| ≤ |p.kp| * (|r n - v n| + μ) := by
      rw [abs_mul]
      apply mul_le_mul_of_nonneg_left _ (abs_nonneg _)
      have : r n - (v n + m n) = (r n - v n) + -(m n) := by ring
      rw [this]
      have := abs_add_le (r n - v n) (-(m n))
      rw [abs_neg] at this
      linarith [hμ n]
    have b3 : |p.ki * S n| = p.ki * |S n| := by rw [abs_mul, abs_of_pos hki]
    have b4 := abs_add_le ((dr n * T1 + r n) / K + p.kp * (r n - (v n + m n))) (p.ki * S n)
    have b5 := abs_add_le ((dr n * T1 + r n) / K) (p.kp * (r n - (v n + m n)))
    have b6 : |p.kp| * (|r n - v n| + μ) + p.ki * |S n| ≤ H * (B * (ρ ^ n * E + D + μ)) + H * (ρ ^ n * E + D + μ) := by
      have k0 := abs_nonneg p.kp
      have k1 : |p.kp| * |r n - v n| ≤ |p.kp| * (B * (ρ ^ n * E + D + μ)) :=
        mul_le_mul_of_nonneg_left (by linarith [abs_nonneg (S n)]) k0
      have k2 : p.ki * |S n| ≤ p.ki * (B * (ρ ^ n * E + D + μ)) :=
        mul_le_mul_of_nonneg_left (by linarith [abs_nonneg (r n - v n)]) hki.le
      have k3 : |p.kp| * μ ≤ H * (ρ ^ n * E + D + μ) := by
        have q0 : 0 ≤ ρ ^ n * E := by positivity
        have q1 : |p.kp| * μ ≤ H * μ := mul_le_mul_of_nonneg_right (by rw [hH]; linarith) hμ0
        have q2 : H * μ ≤ H * (ρ ^ n * E + D + μ) := mul_le_mul_of_nonneg_left (by linarith) (by linarith)
        linarith
      have k4 : H * (B * (ρ ^ n * E + D + μ)) = |p.kp| * (B * (ρ ^ n * E + D + μ)) + p.ki * (B * (ρ ^ n * E + D + μ)) + B * (ρ ^ n * E + D + μ) := by
        rw [hH]; ring
      have k5 : 0 ≤ B * (ρ ^ n * E + D + μ) := by positivity
      rw [k4]; linarith
    have : (H * B + H) * (ρ ^ n * E + D + μ) = H * (B * (ρ ^ n * E + D + μ)) + H * (ρ ^ n * E + D + μ) := by ring
    rw [this]
    linarith

theorem Like.refl (p : Controller × Simulator) : Like p p := ⟨rfl, rfl, rfl, rfl, rfl, rfl, rfl, rfl, rfl⟩

theorem like_servo {T : Trig} {r m : ControlTarget} {p q : Controller × Simulator} (h : Like p q) : Like p (servo T r m q) :=
  ⟨h.trans, h.rot, h.ctlPeriod, h.period, h.transK, h.transT1, h.rotK, h.rotT1, h.maxVoltage⟩

theorem like_run {T : Trig} {r m : ℕ → ControlTarget} {p q : Controller × Simulator} (h : Like p q) (n : ℕ) :
    Like p (servoRun T r m q n) := by
  induction n with
  | zero => exact h
  | succ n ih => exact like_servo ih

theorem limit_id {max v : ℝ} (h : |v| ≤ max) : limit max v = v := by
  have := abs_le.1 h
  unfold limit
  rw [if_neg (by linarith), if_neg (by linarith)]

theorem transVel_step (s : Simulator) : transVel Trig.real (s.step Trig.real).current = s.nextTransVel Trig.real := by
  simp only [Simulator.step, transVel, Trig.real]
  set θ := s.current.theta.x + s.nextRotVel * s.period
  have := Real.sin_sq_add_cos_sq θ
  calc _ = s.nextTransVel Trig.real * (Real.sin θ ^ 2 + Real.cos θ ^ 2) := by simp only [Trig.real]; ring
    _ = _ := by rw [this, mul_one]; rfl

/-- What a round does to the speeds and sums when the voltages can be applied. -/
theorem round {r m : ControlTarget} {p : Controller × Simulator} (hp : p.1.period = p.2.period)
    (hw : Within p.2.maxVoltage (asked Trig.real r m p)) :
    let v := transVel Trig.real p.2.current
    let ω := p.2.current.theta.v
    let oT := controlEach r.v r.a (v + m.v) m.a p.1.trans p.2.period p.1.transSum
    let oR := controlEach r.omega r.alpha (ω + m.omega) m.alpha p.1.rot p.2.period p.1.rotSum
    let q := servo Trig.real r m p
    transVel Trig.real q.2.current = v * (p.2.transT1 / (p.2.transT1 + p.2.period)) +
      (1 - p.2.transT1 / (p.2.transT1 + p.2.period)) * (p.2.transK * oT.1) ∧
    q.2.current.theta.v = ω * (p.2.rotT1 / (p.2.rotT1 + p.2.period)) +
      (1 - p.2.rotT1 / (p.2.rotT1 + p.2.period)) * (p.2.rotK * oR.1) ∧
    q.1.transSum = oT.2 ∧ q.1.rotSum = oR.2 := by
  intro v ω oT oR q
  have hd : asked Trig.real r m p = ⟨oT.1 - oR.1, oT.1 + oR.1⟩ := by
    simp only [asked, Controller.control, measured, hp]; rfl
  rw [hd] at hw
  obtain ⟨hl, hr⟩ := hw
  simp only at hl hr
  have hq : q.2 = (p.2.apply (oT.1 - oR.1) (oT.1 + oR.1)).step Trig.real := by
    show (p.2.apply (asked Trig.real r m p).left (asked Trig.real r m p).right).step Trig.real = _
    rw [hd]
  have hap : p.2.apply (oT.1 - oR.1) (oT.1 + oR.1) = { p.2 with leftVoltage := oT.1 - oR.1, rightVoltage := oT.1 + oR.1 } := by
    unfold Simulator.apply
    rw [limit_id hl, limit_id hr]
  rw [hap] at hq
  refine ⟨?_, ?_, ?_, ?_⟩
  · rw [hq, transVel_step]
    have e : (oT.1 + oR.1 + (oT.1 - oR.1)) / 2 = oT.1 := by ring
    simp only [Simulator.nextTransVel, e]
    rfl
  · rw [hq]
    have e : (oT.1 + oR.1 - (oT.1 - oR.1)) / 2 = oR.1 := by ring
    simp only [Simulator.step, Simulator.nextRotVel, e]
    rfl
  · simp only [q, servo, Controller.control, measured, hp]; rfl
  · simp only [q, servo, Controller.control, measured, hp]; rfl

/-- Both axes: bounds for the errors and voltages of round `n`, when the voltages of the rounds before could be applied. -/
theorem both {c : Controller} {s : Simulator} (hf : Fits c s) :
    ∃ C ρ C' ρ' : ℝ, 0 < C ∧ 0 ≤ ρ ∧ ρ < 1 ∧ 0 < C' ∧ 0 ≤ ρ' ∧ ρ' < 1 ∧
      ∀ p, Like (c, s) p → ∀ (r m : ℕ → ControlTarget) (D μ D' μ' : ℝ),
      (∀ n, |defect s.transT1 s.period (r n).v (r n).a (r (n + 1)).v| ≤ D) → (∀ n, |(m n).v| ≤ μ) →
      (∀ n, |defect s.rotT1 s.period (r n).omega (r n).alpha (r (n + 1)).omega| ≤ D') → (∀ n, |(m n).omega| ≤ μ') →
      ∀ n, (∀ k < n, Within s.maxVoltage (asked Trig.real (r k) (m k) (servoRun Trig.real r m p k))) →
        let X := C * (ρ ^ n * (|(r 0).v - transVel Trig.real p.2.current| + |p.1.transSum|) + D + μ)
        let X' := C' * (ρ' ^ n * (|(r 0).omega - p.2.current.theta.v| + |p.1.rotSum|) + D' + μ')
        let q := servoRun Trig.real r m p n
        |(r n).v - transVel Trig.real q.2.current| + |q.1.transSum| ≤ X ∧
        |(r n).omega - q.2.current.theta.v| + |q.1.rotSum| ≤ X' ∧
        ∀ V V', (|(r n).v| + s.transT1 * |(r n).a|) / s.transK ≤ V → (|(r n).omega| + s.rotT1 * |(r n).alpha|) / s.rotK ≤ V' →
          Within (V + V' + X + X') (asked Trig.real (r n) (m n) q) := by
  obtain ⟨C, ρ, hC, hρ, hρ1, ax⟩ := axis hf.trans
  obtain ⟨C', ρ', hC', hρ', hρ1', ax'⟩ := axis hf.rot
  refine ⟨C, ρ, C', ρ', hC, hρ, hρ1, hC', hρ', hρ1', ?_⟩
  intro p hl r m D μ D' μ' hD hμ hD' hμ' n hw X X' q
  have hlk : ∀ k, Like (c, s) (servoRun Trig.real r m p k) := fun k => like_run hl k
  have per : ∀ k, (servoRun Trig.real r m p k).1.period = (servoRun Trig.real r m p k).2.period := by
    intro k; rw [(hlk k).ctlPeriod, (hlk k).period]; exact hf.period
  have rd : ∀ k < n, _ := fun k hk => round (r := r k) (m := m k) (per k) (by rw [(hlk k).maxVoltage]; exact hw k hk)
  obtain ⟨b1, b2⟩ := ax (fun k => transVel Trig.real (servoRun Trig.real r m p k).2.current)
    (fun k => (servoRun Trig.real r m p k).1.transSum) (fun k => (r k).v) (fun k => (r k).a) (fun k => (m k).v)
    (fun k => (m k).a) D μ n
    (fun k hk => by
      have := (rd k hk).1
      rw [(hlk k).transT1, (hlk k).period, (hlk k).transK, (hlk k).trans] at this
      exact this)
    (fun k hk => by
      have := (rd k hk).2.2.1
      rw [(hlk k).period, (hlk k).trans] at this
      exact this) hD hμ
  obtain ⟨b1', b2'⟩ := ax' (fun k => (servoRun Trig.real r m p k).2.current.theta.v)
    (fun k => (servoRun Trig.real r m p k).1.rotSum) (fun k => (r k).omega) (fun k => (r k).alpha) (fun k => (m k).omega)
    (fun k => (m k).alpha) D' μ' n
    (fun k hk => by
      have := (rd k hk).2.1
      rw [(hlk k).rotT1, (hlk k).period, (hlk k).rotK, (hlk k).rot] at this
      exact this)
    (fun k hk => by
      have := (rd k hk).2.2.2
      rw [(hlk k).period, (hlk k).rot] at this
      exact this) hD' hμ'
  refine ⟨b1, b1', ?_⟩
  intro V V' hV hV'
  have hd : asked Trig.real (r n) (m n) q =
      ⟨(controlEach (r n).v (r n).a (transVel Trig.real q.2.current + (m n).v) (m n).a c.trans s.period q.1.transSum).1 -
        (controlEach (r n).omega (r n).alpha (q.2.current.theta.v + (m n).omega) (m n).alpha c.rot s.period q.1.rotSum).1,
       (controlEach (r n).v (r n).a (transVel Trig.real q.2.current + (m n).v) (m n).a c.trans s.period q.1.transSum).1 +
        (controlEach (r n).omega (r n).alpha (q.2.current.theta.v + (m n).omega) (m n).alpha c.rot s.period q.1.rotSum).1⟩ := by
    have h1 : q.1.period = s.period := (hlk n).ctlPeriod.trans hf.period
    have h2 : q.1.trans = c.trans := (hlk n).trans
    have h3 : q.1.rot = c.rot := (hlk n).rot
    simp only [asked, Controller.control, measured, h1, h2, h3]
  rw [hd]
  set uT := (controlEach (r n).v (r n).a (transVel Trig.real q.2.current + (m n).v) (m n).a c.trans s.period q.1.transSum).1
  set uR := (controlEach (r n).omega (r n).alpha (q.2.current.theta.v + (m n).omega) (m n).alpha c.rot s.period q.1.rotSum).1
  have b3 : |uT| ≤ V + X := b2.trans (by simp only [X]; exact add_le_add_left hV _)
  have b3' : |uR| ≤ V' + X' := b2'.trans (by simp only [X']; exact add_le_add_left hV' _)
  have := abs_le.1 b3
  have := abs_le.1 b3'
  constructor <;> rw [abs_le] <;> constructor <;> simp only <;> linarith

end Servo

open Servo

/-- **C80.** The speed loop tracks its reference: as long as the motors can get the voltages the controller asks for, the
errors of speed and turn rate fall geometrically to a level given by the defect of the reference and by the error of the
measurement. The constants depend on gains, motors and period only. -/
theorem C80_tracks {c : Controller} {s : Simulator} (hf : Fits c s) :
    ∃ C ρ C' ρ' : ℝ, 0 < C ∧ 0 ≤ ρ ∧ ρ < 1 ∧ 0 < C' ∧ 0 ≤ ρ' ∧ ρ' < 1 ∧
      ∀ p, Like (c, s) p → ∀ (r m : ℕ → ControlTarget) (D μ D' μ' : ℝ),
      (∀ n, |defect s.transT1 s.period (r n).v (r n).a (r (n + 1)).v| ≤ D) → (∀ n, |(m n).v| ≤ μ) →
      (∀ n, |defect s.rotT1 s.period (r n).omega (r n).alpha (r (n + 1)).omega| ≤ D') → (∀ n, |(m n).omega| ≤ μ') →
      (∀ n, Within s.maxVoltage (asked Trig.real (r n) (m n) (servoRun Trig.real r m p n))) →
      ∀ n, let q := servoRun Trig.real r m p n
        |(r n).v - transVel Trig.real q.2.current| + |q.1.transSum| ≤
          C * (ρ ^ n * (|(r 0).v - transVel Trig.real p.2.current| + |p.1.transSum|) + D + μ) ∧
        |(r n).omega - q.2.current.theta.v| + |q.1.rotSum| ≤
          C' * (ρ' ^ n * (|(r 0).omega - p.2.current.theta.v| + |p.1.rotSum|) + D' + μ') := by
  obtain ⟨C, ρ, C', ρ', hC, hρ, hρ1, hC', hρ', hρ1', b⟩ := both hf
  refine ⟨C, ρ, C', ρ', hC, hρ, hρ1, hC', hρ', hρ1', ?_⟩
  intro p hl r m D μ D' μ' hD hμ hD' hμ' hw n
  have := b p hl r m D μ D' μ' hD hμ hD' hμ' n (fun k _ => hw k)
  exact ⟨this.1, this.2.1⟩

/-- **C80, voltages.** If the reference itself leaves enough of the voltage, then for starts near the reference the voltages
never reach their limit, and the errors fall as above. -/
theorem C80_stays {c : Controller} {s : Simulator} (hf : Fits c s) :
    ∃ C ρ C' ρ' : ℝ, 0 < C ∧ 0 ≤ ρ ∧ ρ < 1 ∧ 0 < C' ∧ 0 ≤ ρ' ∧ ρ' < 1 ∧
      ∀ p, Like (c, s) p → ∀ (r m : ℕ → ControlTarget) (D μ D' μ' V V' : ℝ),
      (∀ n, |defect s.transT1 s.period (r n).v (r n).a (r (n + 1)).v| ≤ D) → (∀ n, |(m n).v| ≤ μ) →
      (∀ n, |defect s.rotT1 s.period (r n).omega (r n).alpha (r (n + 1)).omega| ≤ D') → (∀ n, |(m n).omega| ≤ μ') →
      (∀ n, (|(r n).v| + s.transT1 * |(r n).a|) / s.transK ≤ V) →
      (∀ n, (|(r n).omega| + s.rotT1 * |(r n).alpha|) / s.rotK ≤ V') →
      V + V' + C * (|(r 0).v - transVel Trig.real p.2.current| + |p.1.transSum| + D + μ) +
        C' * (|(r 0).omega - p.2.current.theta.v| + |p.1.rotSum| + D' + μ') ≤ s.maxVoltage →
      ∀ n, let q := servoRun Trig.real r m p n
        Within s.maxVoltage (asked Trig.real (r n) (m n) q) ∧
        |(r n).v - transVel Trig.real q.2.current| + |q.1.transSum| ≤
          C * (ρ ^ n * (|(r 0).v - transVel Trig.real p.2.current| + |p.1.transSum|) + D + μ) ∧
        |(r n).omega - q.2.current.theta.v| + |q.1.rotSum| ≤
          C' * (ρ' ^ n * (|(r 0).omega - p.2.current.theta.v| + |p.1.rotSum|) + D' + μ') := by
  obtain ⟨C, ρ, C', ρ', hC, hρ, hρ1, hC', hρ', hρ1', b⟩ := both hf
  refine ⟨C, ρ, C', ρ', hC, hρ, hρ1, hC', hρ', hρ1', ?_⟩
  intro p hl r m D μ D' μ' V V' hD hμ hD' hμ' hV hV' hmax n
  have key : ∀ n, ∀ k < n, Within s.maxVoltage (asked Trig.real (r k) (m k) (servoRun Trig.real r m p k)) := by
    intro n
    induction n with
    | zero => intro k hk; exact absurd hk (Nat.not_lt_zero k)
    | succ n ih =>
      intro k hk
      rcases Nat.lt_succ_iff_lt_or_eq.1 hk with hk | rfl
      · exact ih k hk
      · obtain ⟨-, -, h3⟩ := b p hl r m D μ D' μ' hD hμ hD' hμ' k ih
        have h4 := h3 V V' (hV k) (hV' k)
        have e1 : ρ ^ k * (|(r 0).v - transVel Trig.real p.2.current| + |p.1.transSum|) ≤
            |(r 0).v - transVel Trig.real p.2.current| + |p.1.transSum| :=
          mul_le_of_le_one_left (by positivity) (pow_le_one₀ hρ hρ1.le)
        have e2 : ρ' ^ k * (|(r 0).omega - p.2.current.theta.v| + |p.1.rotSum|) ≤
            |(r 0).omega - p.2.current.theta.v| + |p.1.rotSum| :=
          mul_le_of_le_one_left (by positivity) (pow_le_one₀ hρ' hρ1'.le)
        have e3 := mul_le_mul_of_nonneg_left (add_le_add_left (add_le_add_left e1 D) μ) hC.le
        have e4 := mul_le_mul_of_nonneg_left (add_le_add_left (add_le_add_left e2 D') μ') hC'.le
        exact ⟨h4.1.trans (by linarith), h4.2.trans (by linarith)⟩
  have := b p hl r m D μ D' μ' hD hμ hD' hμ' n (key n)
  exact ⟨key (n + 1) n (Nat.lt_succ_self n), this.1, this.2.1⟩

/-- **C80, constant speed.** A robot that is to go on with constant speed and turn rate, near enough to them and with enough
voltage left, gets to exactly these, whatever the start. -/
theorem C80_settles {c : Controller} {s : Simulator} (hf : Fits c s) :
    ∃ ε : ℝ, 0 < ε ∧ ∀ v ω : ℝ, (|v| / s.transK + |ω| / s.rotK < s.maxVoltage →
      ∀ p, Like (c, s) p →
        |v - transVel Trig.real p.2.current| + |p.1.transSum| + (|ω - p.2.current.theta.v| + |p.1.rotSum|) ≤
          ε * (s.maxVoltage - (|v| / s.transK + |ω| / s.rotK)) →
      ∀ acc : ℕ → ℝ × ℝ,
      let q := servoRun Trig.real (fun _ => ⟨v, 0, ω, 0⟩) (fun n => ⟨0, (acc n).1, 0, (acc n).2⟩) p
      Filter.Tendsto (fun n => transVel Trig.real (q n).2.current) Filter.atTop (nhds v) ∧
      Filter.Tendsto (fun n => (q n).2.current.theta.v) Filter.atTop (nhds ω) ∧
      Filter.Tendsto (fun n => (q n).1.transSum) Filter.atTop (nhds 0) ∧
      Filter.Tendsto (fun n => (q n).1.rotSum) Filter.atTop (nhds 0)) := by
  obtain ⟨C, ρ, C', ρ', hC, hρ, hρ1, hC', hρ', hρ1', b⟩ := C80_stays hf
  refine ⟨1 / (C + C'), by positivity, ?_⟩
  intro v ω hv p hl hs acc q
  obtain ⟨E, hE⟩ : ∃ E, E = |v - transVel Trig.real p.2.current| + |p.1.transSum| := ⟨_, rfl⟩
  obtain ⟨E', hE'⟩ : ∃ E', E' = |ω - p.2.current.theta.v| + |p.1.rotSum| := ⟨_, rfl⟩
  have hE0 : 0 ≤ E := by rw [hE]; positivity
  have hE0' : 0 ≤ E' := by rw [hE']; positivity
  rw [← hE, ← hE', div_mul_eq_mul_div, one_mul, le_div_iff₀ (by positivity)] at hs
  have b' := b p hl (fun _ => ⟨v, 0, ω, 0⟩) (fun n => ⟨0, (acc n).1, 0, (acc n).2⟩) 0 0 0 0 (|v| / s.transK) (|ω| / s.rotK)
    (fun n => by simp [defect]) (fun n => by simp) (fun n => by simp [defect]) (fun n => by simp)
    (fun n => by simp) (fun n => by simp) (by
      simp only [add_zero]
      rw [← hE, ← hE']
      have : 0 ≤ C * E' := by positivity
      have : 0 ≤ C' * E := by positivity
      linarith)
  simp only [add_zero, ← hE, ← hE'] at b'
  have lim : Filter.Tendsto (fun n => C * (ρ ^ n * E)) Filter.atTop (nhds 0) := by
    have := ((tendsto_pow_atTop_nhds_zero_of_lt_one hρ hρ1).mul_const E).const_mul C
    simpa using this
  have lim' : Filter.Tendsto (fun n => C' * (ρ' ^ n * E')) Filter.atTop (nhds 0) := by
    have := ((tendsto_pow_atTop_nhds_zero_of_lt_one hρ' hρ1').mul_const E').const_mul C'
    simpa using this
  refine ⟨?_, ?_, ?_, ?_⟩
  · rw [tendsto_iff_dist_tendsto_zero]
    refine squeeze_zero (fun _ => dist_nonneg) (fun n => ?_) lim
    rw [dist_comm, Real.dist_eq]
    exact le_trans (le_add_of_nonneg_right (abs_nonneg _)) (b' n).2.1
  · rw [tendsto_iff_dist_tendsto_zero]
    refine squeeze_zero (fun _ => dist_nonneg) (fun n => ?_) lim'
    rw [dist_comm, Real.dist_eq]
    exact le_trans (le_add_of_nonneg_right (abs_nonneg _)) (b' n).2.2
  · refine squeeze_zero_norm (fun n => ?_) lim
    rw [Real.norm_eq_abs]
    exact le_trans (le_add_of_nonneg_left (abs_nonneg _)) (b' n).2.1
  · refine squeeze_zero_norm (fun n => ?_) lim'
    rw [Real.norm_eq_abs]
    exact le_trans (le_add_of_nonneg_left (abs_nonneg _)) (b' n).2.2

/-- The gains of `mousecore2/tests/search.rs` belong to the motors of the simulator there. -/
example (walls : Walls.Walls) (st : State) :
    Fits (Controller.new ⟨4.8497, 29.5783, 0, 1.865, 0.4443⟩ ⟨0.21134, 2.9317, 0, 82.39, 0.2855⟩ 0.001)
      (Simulator.new walls st st 3.7 0.001 1.865 0.4443 82.39 0.2855 0.0335) := by
  refine ⟨rfl, ⟨rfl, rfl, rfl, ?_, ?_, ?_, ?_, ?_, ?_⟩, ⟨rfl, rfl, rfl, ?_, ?_, ?_, ?_, ?_, ?_⟩⟩ <;>
    norm_num [Simulator.new, Controller.new]

/-- A constant acceleration: the defect is the part of the acceleration that the motor is late by. -/
example (T1 h v a : ℝ) (h1 : 0 < T1) (h2 : 0 < h) (n : ℕ) :
    defect T1 h (v + a * (n * h)) a (v + a * ((n + 1) * h)) = a * h * h / (T1 + h) := by
  unfold defect
  field_simp
  ring

end Verif.Props
