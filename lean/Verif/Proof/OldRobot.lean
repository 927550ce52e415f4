import Verif.Spec.OldRobot
import Verif.Props.Slip
import Verif.Props.OldDrive
/-!
# The former estimator in real numbers
-/
namespace Verif.Proof.OldV
open Verif Verif.Spec Verif.Old.Robot
open Verif.Estimate (Sensor)

/-- The newer estimator with the same settings and values. -/
def newer (e : Old.Robot.Estimator) (α v b : ℝ) : Estimate.Estimator := ⟨e.period, α, e.slipConst, e.approxTh, b, v⟩

open Classical in
/-- The distance of one estimate. -/
noncomputable def stride (T th vel ω : ℝ) : ℝ := if |ω| < th then vel * T else 2 * vel * Real.sin (ω * T / 2) / ω

/-- The state after one estimate, with the new speed and slip angle. -/
noncomputable def next (T th vel b : ℝ) (s : Control.State) (v : Sensor) : Control.State :=
  let m := s.theta.x - b + v.omega * T / 2
  ⟨⟨s.x.x + stride T th vel v.omega * Real.cos m, vel * Real.cos m, v.acc * Real.cos m⟩,
    ⟨s.y.x + stride T th vel v.omega * Real.sin m, vel * Real.sin m, v.acc * Real.sin m⟩,
    ⟨s.theta.x + v.omega * T, v.omega, (v.omega - s.theta.v) / T⟩⟩

/-- The estimator after one estimate. -/
noncomputable def after (e : Old.Robot.Estimator) (α v b : ℝ) (s : Control.State) (sx sy : ℝ) (w : Sensor) : Old.Robot.Estimator :=
  let vel := (newer e α v b).nextVel w
  let slip := (newer e α v b).nextSlip vel w.omega
  { e with vel := .fin vel, slip := .fin slip, state := robotAt (next e.period e.approxTh vel slip s w) (sx + e.devDelta) (sy + e.devDelta) }

theorem exact_sub (a b : ℝ) : exact.sub (.fin a) (.fin b) = .fin (a - b) := by simp [Arith.sub, F.neg, Arith.add, exact, sub_eq_add_neg]
theorem exact_add (a b : ℝ) : exact.add (.fin a) (.fin b) = .fin (a + b) := rfl
theorem exact_mul (a b : ℝ) : exact.mul (.fin a) (.fin b) = .fin (a * b) := rfl
theorem exact_div {a b : ℝ} (h : b ≠ 0) : exact.div (.fin a) (.fin b) = .fin (a / b) := by simp [Arith.div, exact, h]

variable {e : Old.Robot.Estimator} {α v b : ℝ} {s : Control.State} {sx sy : ℝ}

theorem poll_eq (h : Knows e α v b s sx sy) (w : Sensor) : e.poll exact (sensed w) = .ok (after e α v b s sx sy w) := by
  classical
  obtain ⟨hT, hC, hth, ha, hv, hb, hs⟩ := h
  show e.estimate exact (.fin w.left) (.fin w.right) (.fin w.acc) w.omega = _
  unfold Old.Robot.Estimator.estimate
  rw [if_neg (by simp [F.isNan])]
  have hT' : e.period ≠ 0 := hT.ne'
  have hvel : exact.add (exact.mul e.alpha (exact.add e.vel (exact.mul (.fin w.acc) (.fin e.period))))
      (exact.mul (exact.sub (.fin 1) e.alpha)
        (exact.div (exact.add (exact.div (.fin w.left) (.fin e.period)) (exact.div (.fin w.right) (.fin e.period))) (.fin 2))) =
      .fin ((newer e α v b).nextVel w) := by
    rw [ha, hv, exact_div hT', exact_div hT', exact_add, exact_div (by norm_num), exact_sub]
    rfl
  simp only [hvel]
  generalize hV : (newer e α v b).nextVel w = vel
  have hslip : exact.div (exact.add (exact.mul e.slip (exact.div (.fin 1) (.fin e.period))) (.fin w.omega))
      (exact.add (exact.div (.fin 1) (.fin e.period)) (exact.div (.fin e.slipConst) (F.fin vel).abs)) =
      .fin ((newer e α v b).nextSlip vel w.omega) := by
    rw [hb, exact_div hT', exact_mul, exact_add]
    unfold Estimate.Estimator.nextSlip
    by_cases h0 : vel = 0
    · rw [if_pos h0, h0]
      have : exact.div (.fin e.slipConst) (F.fin 0).abs = .pinf := by simp [Arith.div, F.abs, F.infOf, hC]
      rw [this]
      rfl
    · rw [if_neg h0]
      have hp := abs_pos.2 h0
      have : exact.div (.fin e.slipConst) (F.fin vel).abs = .fin (e.slipConst / |vel|) := exact_div hp.ne'
      rw [this, exact_add, exact_div (by positivity)]
      rfl
  simp only [hslip]
  have hdist : (if |w.omega| < e.approxTh then exact.mul (.fin vel) (.fin e.period)
      else exact.div (exact.mul (exact.mul (.fin 2) (.fin vel)) (exact.rnd (Real.sin (w.omega * e.period / 2)))) (.fin w.omega)) =
      .fin (stride e.period e.approxTh vel w.omega) := by
    unfold stride
    split
    · rfl
    · rename_i hn
      have : w.omega ≠ 0 := by rintro h0; rw [h0, abs_zero] at hn; exact hn hth
      exact exact_div this
  simp only [hdist, hs, robotAt, exact_sub, exact_add, exact_div hT', fn]
  unfold after
  simp only [hV]
  rfl

theorem after_knows (h : Knows e α v b s sx sy) (w : Sensor) :
    Knows (after e α v b s sx sy w) α ((newer e α v b).nextVel w) ((newer e α v b).nextSlip ((newer e α v b).nextVel w) w.omega)
      (next e.period e.approxTh ((newer e α v b).nextVel w) ((newer e α v b).nextSlip ((newer e α v b).nextVel w) w.omega) s w)
      (sx + e.devDelta) (sy + e.devDelta) :=
  ⟨h.period, h.slipConst, h.approx, h.alpha, rfl, rfl, rfl⟩

theorem reckon_append (A : Arith) (l l' : List Sensors) (e : Old.Robot.Estimator) :
    reckon A (l ++ l') e = (reckon A l e).bind (reckon A l') := by
  induction l generalizing e with
  | nil => rfl
  | cons v l ih =>
    show (e.poll A v).bind (reckon A (l ++ l')) = ((e.poll A v).bind (reckon A l)).bind (reckon A l')
    cases e.poll A v with
    | error p => rfl
    | ok e' => exact ih e'

/-- The former estimator has the speed, the slip angle and the heading of the newer one. -/
theorem reckon_eq (l : List Sensor) : ∀ (e : Old.Robot.Estimator) (v b : ℝ) (s s2 : Control.State) (sx sy : ℝ), Knows e α v b s sx sy → s2.theta = s.theta →
    ∃ e' s', reckon exact (l.map sensed) e = .ok e' ∧
      e'.period = e.period ∧ e'.slipConst = e.slipConst ∧ e'.approxTh = e.approxTh ∧ e'.devDelta = e.devDelta ∧
      Knows e' α (estRun .real (newer e α v b) s2 l).1.vel (estRun .real (newer e α v b) s2 l).1.slip s'
        (sx + l.length * e.devDelta) (sy + l.length * e.devDelta) ∧
      (estRun .real (newer e α v b) s2 l).2.theta = s'.theta := by
  induction l with
  | nil =>
    intro e v b s s2 sx sy h h2
    exact ⟨e, s, rfl, rfl, rfl, rfl, rfl, by simpa [estRun, newer] using h, h2⟩
  | cons w l ih =>
    intro e v b s s2 sx sy h h2
    obtain ⟨e', s', h1, p1, p2, p3, p4, hk, ht⟩ := ih (after e α v b s sx sy w) _ _ _ ((newer e α v b).estimate .real s2 w).2 _ _ (after_knows h w) (by
      show (_ : Control.AxisState) = _
      simp only [Estimate.Estimator.estimate, next, h2]
      rfl)
    refine ⟨e', s', ?_, p1, p2, p3, p4, ?_, ht⟩
    · show (e.poll exact (sensed w)).bind (reckon exact (l.map sensed)) = _
      rw [poll_eq h]
      exact h1
    · have e1 : ∀ x : ℝ, x + e.devDelta + l.length * (after e α v b s sx sy w).devDelta = x + (w :: l).length * e.devDelta := by
        intro x
        show x + e.devDelta + l.length * e.devDelta = _
        rw [List.length_cons]; push_cast; ring
      rw [e1, e1] at hk
      exact hk

end Verif.Proof.OldV
