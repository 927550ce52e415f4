import Verif.Props.Control
import Mathlib.Analysis.SpecialFunctions.ExpDeriv
import Mathlib.Analysis.SpecialFunctions.Trigonometric.Deriv
import Mathlib.Analysis.Calculus.Deriv.MeanValue
import Mathlib.Analysis.Real.Pi.Bounds
/-!
# What the control laws achieve (C71 – C73)

Continuous time: the robot executes the commands exactly and without delay.
-/
namespace Verif.Props
open Verif Verif.Spec Verif.Control

/-! ## Decay -/

/-- A function with `f' + m f ≥ 0` stays above its exponentially decaying initial value. -/
theorem decay_ge {m : ℝ} {f f' : ℝ → ℝ} (hf : ∀ t, 0 ≤ t → HasDerivAt f (f' t) t) (h : ∀ t, 0 ≤ t → 0 ≤ f' t + m * f t)
    {t : ℝ} (ht : 0 ≤ t) : Real.exp (-(m * t)) * f 0 ≤ f t := by
  have hd : ∀ s, 0 ≤ s → HasDerivAt (fun s => Real.exp (m * s) * f s) (Real.exp (m * s) * (f' s + m * f s)) s := by
    intro s hs
    have h1 : HasDerivAt (fun s => Real.exp (m * s)) (Real.exp (m * s) * m) s := by
      simpa using ((hasDerivAt_id s).const_mul m).exp
    exact (h1.mul (hf s hs)).congr_deriv (by ring)
  have hm : MonotoneOn (fun s => Real.exp (m * s) * f s) (Set.Ici 0) := by
    apply monotoneOn_of_deriv_nonneg (convex_Ici 0)
    · exact fun s hs => (hd s hs).continuousAt.continuousWithinAt
    · intro s hs
      rw [interior_Ici] at hs
      exact (hd s hs.le).differentiableAt.differentiableWithinAt
    · intro s hs
      rw [interior_Ici] at hs
      rw [(hd s hs.le).deriv]
      exact mul_nonneg (Real.exp_pos _).le (h s hs.le)
  have := hm (Set.self_mem_Ici) ht ht
  simp only [mul_zero, Real.exp_zero, one_mul] at this
  rw [Real.exp_neg, inv_mul_le_iff₀ (Real.exp_pos _)]
  exact this

/-! ## C71: what the demand of a pillar is good for -/

/-- The robot's position, velocity and acceleration at all times from 0 on. -/
structure Motion (s : ℝ → State) (ux uy : ℝ → ℝ) : Prop where
  x : ∀ t, 0 ≤ t → HasDerivAt (fun t => (s t).x.x) (s t).x.v t
  y : ∀ t, 0 ≤ t → HasDerivAt (fun t => (s t).y.x) (s t).y.v t
  vx : ∀ t, 0 ≤ t → HasDerivAt (fun t => (s t).x.v) (ux t) t
  vy : ∀ t, 0 ≤ t → HasDerivAt (fun t => (s t).y.v) (uy t) t

/-- The distance of the robot from a pillar, squared. -/
noncomputable def clearance2 (s : State) (p : ℝ × ℝ) : ℝ := (s.x.x - p.1) ^ 2 + (s.y.x - p.2) ^ 2

/-- **C71.** A robot that starts outside the avoidance distance of a pillar, does not approach it too fast at first, and whose
acceleration meets the demand of that pillar at all times never comes closer to the pillar than the avoidance distance. -/
theorem C71_safe (c : Supervisor) (p : ℝ × ℝ) (s : ℝ → State) (ux uy : ℝ → ℝ) (hm : Motion s ux uy)
    (hd : ∀ t, 0 ≤ t → 0 ≤ demand c (s t) p (ux t) (uy t)) (h0 : c.avoidance ^ 2 ≤ clearance2 (s 0) p)
    (h1 : 0 ≤ 2 * ((s 0).x.x - p.1) * (s 0).x.v + 2 * ((s 0).y.x - p.2) * (s 0).y.v + c.margin * (clearance2 (s 0) p - c.avoidance ^ 2))
    (t : ℝ) (ht : 0 ≤ t) : c.avoidance ^ 2 ≤ clearance2 (s t) p := by
  have d0 : ∀ t, 0 ≤ t → HasDerivAt (fun t => barrier c.avoidance (s t) p) (barrier' (s t) p) t := by
    intro t ht
    unfold barrier barrier'
    exact (((((hm.x t ht).sub_const p.1).pow 2).add (((hm.y t ht).sub_const p.2).pow 2)).sub_const _).congr_deriv (by norm_num)
  have d1 : ∀ t, 0 ≤ t → HasDerivAt (fun t => barrier' (s t) p) (barrier'' (s t) p (ux t) (uy t)) t := by
    intro t ht
    unfold barrier' barrier''
    exact (((((hm.x t ht).sub_const p.1).const_mul 2).mul (hm.vx t ht)).add
      ((((hm.y t ht).sub_const p.2).const_mul 2).mul (hm.vy t ht))).congr_deriv (by ring)
  have g : ∀ t, 0 ≤ t → 0 ≤ barrier' (s t) p + c.margin * barrier c.avoidance (s t) p := by
    intro t ht
    have := decay_ge (m := c.margin) (fun t ht => (d1 t ht).add ((d0 t ht).const_mul c.margin)) (fun t ht => by
      have := hd t ht
      unfold demand at this
      simp only [Pi.add_apply]
      linarith [this]) ht
    refine le_trans ?_ this
    refine mul_nonneg (Real.exp_pos _).le ?_
    simpa [barrier, barrier', clearance2] using h1
  have := decay_ge (m := c.margin) d0 g ht
  have h2 : 0 ≤ Real.exp (-(c.margin * t)) * barrier c.avoidance (s 0) p :=
    mul_nonneg (Real.exp_pos _).le (by unfold clearance2 at h0; unfold barrier; linarith)
  have h3 := h2.trans this
  unfold barrier at h3
  unfold clearance2
  linarith

/-- A robot 1 m from a pillar that approaches it with `x = 1/2 + e^-t / 2`, for an avoidance distance of 0.1 m and margin 10. -/
example :
    let c : Supervisor := ⟨10, 0.1, 0.09⟩
    let s : ℝ → State := fun t => ⟨⟨1 / 2 + Real.exp (-t) / 2, -(Real.exp (-t) / 2), 0⟩, ⟨0, 0, 0⟩, ⟨0, 0, 0⟩⟩
    Motion s (fun t => Real.exp (-t) / 2) (fun _ => 0) ∧ (∀ t, 0 ≤ t → 0 ≤ demand c (s t) (0, 0) (Real.exp (-t) / 2) 0) ∧
      c.avoidance ^ 2 ≤ clearance2 (s 0) (0, 0) ∧
      0 ≤ 2 * ((s 0).x.x - 0) * (s 0).x.v + 2 * ((s 0).y.x - 0) * (s 0).y.v + c.margin * (clearance2 (s 0) (0, 0) - c.avoidance ^ 2) := by
  have h : ∀ t : ℝ, HasDerivAt (fun t => Real.exp (-t) / 2) (-(Real.exp (-t) / 2)) t := fun t => by
    have := ((hasDerivAt_neg t).exp).div_const 2
    exact this.congr_deriv (by ring)
  refine ⟨⟨fun t _ => (h t).const_add _, fun t _ => hasDerivAt_const _ _, fun t _ => (h t).neg.congr_deriv (by ring),
    fun t _ => hasDerivAt_const _ _⟩, fun t ht => ?_, ?_, ?_⟩
  · have h1 : Real.exp (-t) ≤ 1 := Real.exp_le_one_iff.2 (by linarith)
    have h2 := Real.exp_pos (-t)
    simp only [demand, barrier, barrier', barrier'']
    generalize Real.exp (-t) = e at h1 h2
    nlinarith [mul_pos h2 h2]
  · norm_num [clearance2]
  · norm_num [clearance2]

/-- **C71, limit of the approach.** Correcting the acceleration for the most violated pillar can make it violate the demand of another
pillar that is also considered, and that the request respected: there is a robot in a maze of 90 mm squares, outside the avoidance
distance of both pillars, for which this happens. -/
theorem C71_breaks (T : Trig) : ∃ (c : Supervisor) (s : State) (i : TrackingInput) (o : Supervised) (ps : List (ℝ × ℝ)) (p : ℝ × ℝ),
    c.squareWidth = 0.09 ∧ 0 < c.avoidance ∧ 0 < c.margin ∧ c.nearestPillars s.x.x s.y.x = .ok ps ∧ p ∈ ps ∧
    (∀ q ∈ ps, c.avoidance ^ 2 < clearance2 s q) ∧ c.supervise T i s = .ok o ∧
    0 < demand c s p i.ux i.uy ∧ demand c s p o.ux o.uy < 0 := by
  obtain ⟨c, hc⟩ : ∃ c : Supervisor, c = ⟨20, 0.04, 0.09⟩ := ⟨_, rfl⟩
  obtain ⟨s, hs⟩ : ∃ s : State, s = ⟨⟨0.06, 0.3, 0⟩, ⟨0.03, 0, 0⟩, ⟨0, 0, 0⟩⟩ := ⟨_, rfl⟩
  obtain ⟨i, hi⟩ : ∃ i : TrackingInput, i = ⟨5, 1, 0, 0⟩ := ⟨_, rfl⟩
  obtain ⟨p, q, hps, hpq⟩ := C50_which c 90 (by norm_num) (by norm_num [hc]) s.x.x s.y.x 0 0 (by norm_num) (by norm_num)
    (by norm_num [hc, hs]) (by norm_num [hc, hs]) (by norm_num [hc, hs]) (by norm_num [hc, hs])
  norm_num only [Nat.cast_zero, zero_add] at hps hpq
  have hpq' : p = pillar c 1 0 ∧ q = pillar c 2 0 := by
    rcases hpq with ⟨h, -⟩ | ⟨h, -⟩ | ⟨-, h, -⟩ | ⟨-, -, h⟩
    · norm_num [hc, hs] at h
    · norm_num [hc, hs] at h
    · norm_num [hc, hs] at h
    · simpa using h
  obtain ⟨rfl, rfl⟩ := hpq'
  have hclear : ∀ q ∈ [pillar c 1 1, pillar c 2 1, pillar c 1 2, pillar c 2 2, pillar c 1 0, pillar c 2 0],
      c.avoidance ^ 2 < clearance2 s q := by
    intro q hq
    simp only [List.mem_cons, List.not_mem_nil, or_false] at hq
    rcases hq with rfl | rfl | rfl | rfl | rfl | rfl <;> norm_num [clearance2, pillar, hc, hs]
  have hoff : ∀ r ∈ [pillar c 1 1, pillar c 2 1, pillar c 1 2, pillar c 2 2, pillar c 1 0, pillar c 2 0], r ≠ (s.x.x, s.y.x) := by
    intro r hr e
    have := hclear r hr
    rw [e] at this
    norm_num [clearance2, hc] at this
  obtain ⟨o, ho⟩ := C49_total T c i s _ (by simp) hps hoff
  refine ⟨c, s, i, o, _, pillar c 1 1, by rw [hc], by norm_num [hc], by norm_num [hc], hps, by simp, hclear, ho, ?_, ?_⟩
  · norm_num [demand, barrier, barrier', barrier'', pillar, hc, hs, hi]
  · obtain ⟨ps, h1, -, h2⟩ := C49_supervise T c i s o ho
    rw [hps] at h1
    cases h1
    obtain ⟨r, hr, hmin, heq, hclose⟩ := h2 ⟨pillar c 1 0, by simp, by norm_num [demand, barrier, barrier', barrier'', pillar, hc, hs, hi]⟩
    have hr0 : r = pillar c 1 0 := by
      have := hmin (pillar c 1 0) (by simp)
      simp only [List.mem_cons, List.not_mem_nil, or_false] at hr
      rcases hr with rfl | rfl | rfl | rfl | rfl | rfl
      · norm_num [demand, barrier, barrier', barrier'', pillar, hc, hs, hi] at this
      · norm_num [demand, barrier, barrier', barrier'', pillar, hc, hs, hi] at this
      · norm_num [demand, barrier, barrier', barrier'', pillar, hc, hs, hi] at this
      · norm_num [demand, barrier, barrier', barrier'', pillar, hc, hs, hi] at this
      · rfl
      · norm_num [demand, barrier, barrier', barrier'', pillar, hc, hs, hi] at this
    subst hr0
    -- the closest point is (5 - 35/6, 1 + 35/6)
    have hc1 := hclose (5 - 35 / 6) (1 + 35 / 6) (by norm_num [demand, barrier, barrier', barrier'', pillar, hc, hs])
    simp only [demand, barrier, barrier', barrier'', pillar, hc, hs, hi, sqDist] at heq hc1 ⊢
    norm_num at heq hc1 ⊢
    nlinarith [sq_nonneg (o.ux - (5 - 35 / 6)), sq_nonneg (o.uy - (1 + 35 / 6))]

/-! ## C72: feedback linearisation -/

/-- **C72.** Above the threshold the command is exactly the motion requested: a robot that moves along its heading with the
commanded speed, acceleration, turn rate and angular acceleration has the requested acceleration and jerk. -/
theorem C72_realises (pi : ℝ) (k : Tracker) (s : State) (t : Target) (i : TrackingInput)
    (hth : 0 ≤ k.xiThreshold)
    (hv : k.xiThreshold < |t.x.v * Real.cos t.theta.x + t.y.v * Real.sin t.theta.x|)
    (hxi : k.xiThreshold < |k.xi + k.period * (i.ux * Real.cos s.theta.x + i.uy * Real.sin s.theta.x)|)
    (r : ControlTarget) (hr : (k.track Trig.real pi s t i).2.1 = r) :
    (k.track Trig.real pi s t i).1.xi = r.v ∧
    ∃ j, Feasible ⟨⟨s.x.x, r.v * Real.cos s.theta.x, i.ux, i.dux⟩, ⟨s.y.x, r.v * Real.sin s.theta.x, i.uy, i.duy⟩,
      ⟨s.theta.x, r.omega, r.alpha, 0⟩⟩ r.v r.a j := by
  have hcs := Real.sin_sq_add_cos_sq s.theta.x
  unfold Tracker.track at hr ⊢
  dsimp only [Trig.real] at hr ⊢
  rw [if_pos ⟨hv, hxi⟩] at hr
  have hne : k.xi + k.period * (i.ux * Real.cos s.theta.x + i.uy * Real.sin s.theta.x) ≠ 0 := by
    intro h
    rw [h, abs_zero] at hxi
    linarith
  subst hr
  refine ⟨rfl, ?_⟩
  generalize k.xi + k.period * (i.ux * Real.cos s.theta.x + i.uy * Real.sin s.theta.x) = xi at hne ⊢
  obtain ⟨w, hw⟩ : ∃ w, w = (i.uy * Real.cos s.theta.x - i.ux * Real.sin s.theta.x) / xi := ⟨_, rfl⟩
  have hw' : xi * w = i.uy * Real.cos s.theta.x - i.ux * Real.sin s.theta.x := by rw [hw]; field_simp
  rw [← hw]
  obtain ⟨al, hal⟩ : ∃ al, al = -((2 * (i.ux * Real.cos s.theta.x + i.uy * Real.sin s.theta.x) * w + i.dux * Real.sin s.theta.x -
      i.duy * Real.cos s.theta.x) / xi) := ⟨_, rfl⟩
  have hal' : xi * al = -(2 * (i.ux * Real.cos s.theta.x + i.uy * Real.sin s.theta.x) * w + i.dux * Real.sin s.theta.x -
      i.duy * Real.cos s.theta.x) := by rw [hal]; field_simp
  rw [← hal]
  refine ⟨i.dux * Real.cos s.theta.x + i.duy * Real.sin s.theta.x + xi * w ^ 2, ⟨rfl, rfl, ?_, ?_, ?_, ?_⟩⟩
  · dsimp only; rw [hw']; linear_combination -i.ux * hcs
  · dsimp only; rw [hw']; linear_combination -i.uy * hcs
  · dsimp only; rw [hal']; linear_combination -i.dux * hcs
  · dsimp only; rw [hal']; linear_combination -i.duy * hcs

/-- **C72, convergence.** If the acceleration of the robot is the one `navigate` asks for, and the target moves consistently, the
tracking error in either coordinate decays exponentially, whatever it is at first; the rate depends on the gains only. -/
theorem C72_converges (n : Navigation) (hg : 0 < n.gain) (hd : 0 < n.dgain) :
    ∃ c C : ℝ, 0 < c ∧ 0 < C ∧ ∀ (s : ℝ → State) (tgt : ℝ → Target),
      Motion s (fun t => (n.navigate (s t) (tgt t)).ux) (fun t => (n.navigate (s t) (tgt t)).uy) →
      (∀ t, 0 ≤ t → HasDerivAt (fun t => (tgt t).x.x) (tgt t).x.v t ∧ HasDerivAt (fun t => (tgt t).x.v) (tgt t).x.a t) →
      (∀ t, 0 ≤ t → HasDerivAt (fun t => (tgt t).y.x) (tgt t).y.v t ∧ HasDerivAt (fun t => (tgt t).y.v) (tgt t).y.a t) →
      ∀ t, 0 ≤ t →
        ((tgt t).x.x - (s t).x.x) ^ 2 + ((tgt t).x.v - (s t).x.v) ^ 2 ≤
          C * Real.exp (-(c * t)) * (((tgt 0).x.x - (s 0).x.x) ^ 2 + ((tgt 0).x.v - (s 0).x.v) ^ 2) ∧
        ((tgt t).y.x - (s t).y.x) ^ 2 + ((tgt t).y.v - (s t).y.v) ^ 2 ≤
          C * Real.exp (-(c * t)) * (((tgt 0).y.x - (s 0).y.x) ^ 2 + ((tgt 0).y.v - (s 0).y.v) ^ 2) := by
  obtain ⟨k, hk⟩ : ∃ k, k = n.gain := ⟨_, rfl⟩
  obtain ⟨d, hdd⟩ : ∃ d, d = n.dgain := ⟨_, rfl⟩
  rw [← hk] at hg
  rw [← hdd] at hd
  obtain ⟨ε, hε⟩ : ∃ ε, ε = d * k / (k + d ^ 2) := ⟨_, rfl⟩
  have hkd : 0 < k + d ^ 2 := by positivity
  have ε0 : 0 < ε := by rw [hε]; positivity
  have ε1 : ε * (k + d ^ 2) = d * k := by rw [hε]; field_simp
  have ε2 : 4 * ε ^ 2 ≤ k := by
    have : 4 * (ε * (k + d ^ 2)) ^ 2 ≤ k * (k + d ^ 2) ^ 2 := by
      rw [ε1]; nlinarith [mul_nonneg hg.le (sq_nonneg (k - d ^ 2))]
    have h2 : 0 < (k + d ^ 2) ^ 2 := by positivity
    rw [mul_pow, ← mul_assoc] at this
    exact le_of_mul_le_mul_right this h2
  have main : ∃ c C : ℝ, 0 < c ∧ 0 < C ∧ ∀ e v : ℝ → ℝ, (∀ t, 0 ≤ t → HasDerivAt e (v t) t) →
      (∀ t, 0 ≤ t → HasDerivAt v (-(d * v t) - k * e t) t) → ∀ t, 0 ≤ t →
        e t ^ 2 + v t ^ 2 ≤ C * Real.exp (-(c * t)) * (e 0 ^ 2 + v 0 ^ 2) := by
    refine ⟨min (d / 2) (ε / 4), (3 / 2 + 9 / 8 * k) / min (1 / 2) (7 / 8 * k), by positivity, by positivity, ?_⟩
    intro e v he hv t ht
    obtain ⟨c, hc⟩ : ∃ c, c = min (d / 2) (ε / 4) := ⟨_, rfl⟩
    have c1 : c ≤ d / 2 := hc ▸ min_le_left _ _
    have c2 : c ≤ ε / 4 := hc ▸ min_le_right _ _
    have c0 : 0 < c := by rw [hc]; positivity
    rw [← hc]
    have hW : ∀ t, 0 ≤ t → HasDerivAt (fun t => -(v t ^ 2 + k * e t ^ 2 + ε * (e t * v t)))
        (-(2 * v t * (-(d * v t) - k * e t) + k * (2 * e t * v t) + ε * (v t * v t + e t * (-(d * v t) - k * e t)))) t := by
      intro t ht
      exact ((((hv t ht).pow 2).add (((he t ht).pow 2).const_mul k)).add (((he t ht).mul (hv t ht)).const_mul ε)).neg.congr_deriv
        (by simp only [Nat.cast_ofNat]; ring)
    have cross (a b : ℝ) : ε * |a * b| ≤ b ^ 2 / 2 + k / 8 * a ^ 2 := by
      have h1 : ε * |a * b| = (ε * |a|) * |b| := by rw [abs_mul]; ring
      rw [h1]
      have h2 : (ε * |a|) ^ 2 ≤ k / 4 * a ^ 2 := by
        rw [mul_pow, sq_abs]; nlinarith [sq_nonneg a]
      have h3 := sq_abs b
      nlinarith [sq_nonneg (ε * |a| - |b|)]
    have up (a b : ℝ) : b ^ 2 + k * a ^ 2 + ε * (a * b) ≤ 3 / 2 * b ^ 2 + 9 / 8 * k * a ^ 2 := by
      have := cross a b
      have := mul_le_mul_of_nonneg_left (le_abs_self (a * b)) ε0.le
      linarith
    have lo (a b : ℝ) : 1 / 2 * b ^ 2 + 7 / 8 * k * a ^ 2 ≤ b ^ 2 + k * a ^ 2 + ε * (a * b) := by
      have := cross a b
      have := mul_le_mul_of_nonneg_left (neg_abs_le (a * b)) ε0.le
      linarith
    have := decay_ge (m := c) hW (fun t _ => by
      have hu := up (e t) (v t)
      generalize e t = a at *
      generalize v t = b at *
      have hcW : c * (b ^ 2 + k * a ^ 2 + ε * (a * b)) ≤ c * (3 / 2 * b ^ 2 + 9 / 8 * k * a ^ 2) := mul_le_mul_of_nonneg_left hu c0.le
      have e1 : c * (b ^ 2) ≤ d / 2 * b ^ 2 := mul_le_mul_of_nonneg_right c1 (sq_nonneg b)
      have e2 : c * (k * a ^ 2) ≤ ε / 4 * (k * a ^ 2) := mul_le_mul_of_nonneg_right c2 (by positivity)
      have e3 : ε * d * |a * b| ≤ ε * k / 2 * a ^ 2 + ε * d ^ 2 / (2 * k) * b ^ 2 := by
        have hx : (ε * d * |a * b|) * (2 * k) ≤ (ε * k / 2 * a ^ 2 + ε * d ^ 2 / (2 * k) * b ^ 2) * (2 * k) := by
          have : (ε * k / 2 * a ^ 2 + ε * d ^ 2 / (2 * k) * b ^ 2) * (2 * k) = ε * ((k * |a|) ^ 2 + (d * |b|) ^ 2) := by
            rw [mul_pow, mul_pow, sq_abs, sq_abs]; field_simp
          rw [this, abs_mul]
          nlinarith [mul_nonneg ε0.le (sq_nonneg (k * |a| - d * |b|))]
        exact le_of_mul_le_mul_right hx (by positivity)
      have e4 : ε + ε * d ^ 2 / (2 * k) ≤ d := by
        have : (ε + ε * d ^ 2 / (2 * k)) * k = ε * (k + d ^ 2 / 2) := by field_simp
        have h2 : (ε + ε * d ^ 2 / (2 * k)) * k ≤ d * k := by
          rw [this, ← ε1]; apply mul_le_mul_of_nonneg_left _ ε0.le; nlinarith [sq_nonneg d]
        exact le_of_mul_le_mul_right h2 hg
      have e5 := mul_le_mul_of_nonneg_right e4 (sq_nonneg b)
      have e6 := mul_le_mul_of_nonneg_left (neg_abs_le (a * b)) (mul_pos ε0 hd).le
      nlinarith [sq_nonneg a, sq_nonneg b, mul_nonneg hd.le (sq_nonneg b), mul_nonneg (mul_pos ε0 hg).le (sq_nonneg a)]) ht
    have h1 := lo (e t) (v t)
    have h2 := up (e 0) (v 0)
    have hm : 0 < min (1 / 2 : ℝ) (7 / 8 * k) := by positivity
    have m1 := min_le_left (1 / 2 : ℝ) (7 / 8 * k)
    have m2 := min_le_right (1 / 2 : ℝ) (7 / 8 * k)
    generalize min (1 / 2 : ℝ) (7 / 8 * k) = m at *
    have hE := Real.exp_pos (-(c * t))
    generalize Real.exp (-(c * t)) = E at *
    rw [div_mul_eq_mul_div, div_mul_eq_mul_div, le_div_iff₀ hm]
    have l1 : (e t ^ 2 + v t ^ 2) * m ≤ 1 / 2 * v t ^ 2 + 7 / 8 * k * e t ^ 2 := by
      nlinarith [mul_le_mul_of_nonneg_right m1 (sq_nonneg (v t)), mul_le_mul_of_nonneg_right m2 (sq_nonneg (e t))]
    have l2 : 3 / 2 * v 0 ^ 2 + 9 / 8 * k * e 0 ^ 2 ≤ (3 / 2 + 9 / 8 * k) * (e 0 ^ 2 + v 0 ^ 2) := by
      nlinarith [sq_nonneg (e 0), sq_nonneg (v 0), mul_nonneg hg.le (sq_nonneg (v 0))]
    have l3 := mul_le_mul_of_nonneg_left (h2.trans l2) hE.le
    nlinarith
  obtain ⟨c, C, hc, hC, H⟩ := main
  refine ⟨c, C, hc, hC, ?_⟩
  intro s tgt hm hx hy t ht
  constructor
  · refine H (fun t => (tgt t).x.x - (s t).x.x) (fun t => (tgt t).x.v - (s t).x.v) (fun t ht => (hx t ht).1.sub (hm.x t ht))
      (fun t ht => ((hx t ht).2.sub (hm.vx t ht)).congr_deriv ?_) t ht
    simp only [Navigation.navigate, hk, hdd]; ring
  · refine H (fun t => (tgt t).y.x - (s t).y.x) (fun t => (tgt t).y.v - (s t).y.v) (fun t ht => (hy t ht).1.sub (hm.y t ht))
      (fun t ht => ((hy t ht).2.sub (hm.vy t ht)).congr_deriv ?_) t ht
    simp only [Navigation.navigate, hk, hdd]; ring

/-- A robot 1 m off a target at rest, approaching with `x = e^-t` under the gains 2 and 3. -/
example : Motion (fun t => ⟨⟨Real.exp (-t), -Real.exp (-t), 0⟩, ⟨0, 0, 0⟩, ⟨0, 0, 0⟩⟩)
    (fun t => ((Navigation.mk 2 3).navigate ⟨⟨Real.exp (-t), -Real.exp (-t), 0⟩, ⟨0, 0, 0⟩, ⟨0, 0, 0⟩⟩ ⟨.zero, .zero, .zero⟩).ux)
    (fun t => ((Navigation.mk 2 3).navigate ⟨⟨Real.exp (-t), -Real.exp (-t), 0⟩, ⟨0, 0, 0⟩, ⟨0, 0, 0⟩⟩ ⟨.zero, .zero, .zero⟩).uy) := by
  have h : ∀ t : ℝ, HasDerivAt (fun t => Real.exp (-t)) (-Real.exp (-t)) t := fun t => by
    simpa using (hasDerivAt_neg t).exp
  refine ⟨fun t _ => h t, fun t _ => hasDerivAt_const _ _, fun t _ => (h t).neg.congr_deriv ?_, fun t _ => (hasDerivAt_const t (0 : ℝ)).congr_deriv ?_⟩
  · simp only [Navigation.navigate, Axis.zero]; ring
  · simp only [Navigation.navigate, Axis.zero]; ring

/-- A robot at 1 m/s asked to accelerate sideways: it turns. -/
example (pi : ℝ) : ((Tracker.mk 1 0.001 0.2 1 1).track Trig.real pi ⟨⟨0, 1, 0⟩, ⟨0, 0, 0⟩, ⟨0, 0, 0⟩⟩ ⟨⟨0, 1, 0, 0⟩, .zero, .zero⟩
    ⟨0, 2, 0, 0⟩).2.1 = ⟨1, 0, 2, 0⟩ := by
  norm_num [Tracker.track, Trig.real, Axis.zero]

/-! ## C73: the law for low speeds -/

/-- The polynomial used for `sin x / x` has an error of at most `2 |x|^10 / 11!`. -/
theorem C73_sinc {x : ℝ} (hx : |x| ≤ 6) : |x * sinc x - Real.sin x| ≤ 2 * |x| ^ 11 / 39916800 := by
  have hb := Complex.exp_bound' (x := (x : ℂ) * Complex.I) (n := 11) (by
    rw [norm_mul, Complex.norm_I, mul_one, Complex.norm_real, Real.norm_eq_abs]
    norm_num; linarith)
  rw [norm_mul, Complex.norm_I, mul_one, Complex.norm_real, Real.norm_eq_abs] at hb
  have him := (Complex.abs_im_le_norm _).trans hb
  have e : (Complex.exp (x * Complex.I) - ∑ m ∈ Finset.range 11, (x * Complex.I) ^ m / (m.factorial : ℂ)).im =
      Real.sin x - x * sinc x := by
    rw [Complex.sub_im, Complex.exp_ofReal_mul_I_im]
    congr 1
    have i2 : Complex.I ^ 2 = -1 := Complex.I_sq
    have hs : ∑ m ∈ Finset.range 11, (x * Complex.I) ^ m / (m.factorial : ℂ) =
        ((1 - x ^ 2 / 2 + x ^ 4 / 24 - x ^ 6 / 720 + x ^ 8 / 40320 - x ^ 10 / 3628800 : ℝ) : ℂ) + ((x * sinc x : ℝ) : ℂ) * Complex.I := by
      simp only [Finset.sum_range_succ, Finset.sum_range_zero, mul_pow, sinc, Nat.factorial]
      have i3 : Complex.I ^ 3 = -Complex.I := by rw [pow_succ, i2]; ring
      have i4 : Complex.I ^ 4 = 1 := Complex.I_pow_four
      have i5 : Complex.I ^ 5 = Complex.I := by rw [pow_succ, i4]; ring
      have i6 : Complex.I ^ 6 = -1 := by rw [pow_succ, i5, ← i2]; ring
      have i7 : Complex.I ^ 7 = -Complex.I := by rw [pow_succ, i6]; ring
      have i8 : Complex.I ^ 8 = 1 := by rw [show 8 = 4 + 4 by rfl, pow_add, i4]; ring
      have i9 : Complex.I ^ 9 = Complex.I := by rw [pow_succ, i8]; ring
      have i10 : Complex.I ^ 10 = -1 := by rw [show 10 = 8 + 2 by rfl, pow_add, i8, i2]; ring
      rw [i2, i3, i4, i5, i6, i7, i8, i9, i10]
      push_cast
      ring
    rw [hs, Complex.add_im, Complex.ofReal_im, Complex.im_ofReal_mul, Complex.I_im]
    ring
  rw [e, abs_sub_comm] at him
  refine him.trans (le_of_eq ?_)
  norm_num [Nat.factorial]
  ring

/-- The distance function of the tracking error that the law for low speeds makes shrink. -/
noncomputable def trackError (b : ℝ) (s : State) (t : Target) : ℝ :=
  b / 2 * ((t.x.x - s.x.x) ^ 2 + (t.y.x - s.y.x) ^ 2) + (t.theta.x - s.theta.x) ^ 2 / 2

/-- **C73.** Below the threshold, while the robot executes the command and the target moves along its heading, and the headings differ
by less than half a turn, the tracking error changes at the rate `-k (b xe² + θe²)`, with `xe` the distance to the target along the
heading of the robot, `θe` the error of the heading, `k = 2 zeta √(ω² + b v²)`; plus a term from the polynomial for `sin x / x` that
is at most `b |v| |ye| 2 |θe|^11 / 11!`. -/
theorem C73_decreases (k : Tracker) (s : ℝ → State) (tgt : ℝ → Target) (i : TrackingInput) (t : ℝ) (r : ControlTarget)
    (hr : (k.track Trig.real Real.pi (s t) (tgt t) i).2.1 = r) (v : ℝ)
    (hlow : |v| ≤ k.xiThreshold ∨
      |k.xi + k.period * (i.ux * Real.cos (s t).theta.x + i.uy * Real.sin (s t).theta.x)| ≤ k.xiThreshold)
    (hvx : (tgt t).x.v = v * Real.cos (tgt t).theta.x) (hvy : (tgt t).y.v = v * Real.sin (tgt t).theta.x)
    (hx : HasDerivAt (fun t => (s t).x.x) (r.v * Real.cos (s t).theta.x) t)
    (hy : HasDerivAt (fun t => (s t).y.x) (r.v * Real.sin (s t).theta.x) t)
    (hth : HasDerivAt (fun t => (s t).theta.x) r.omega t)
    (gx : HasDerivAt (fun t => (tgt t).x.x) (tgt t).x.v t) (gy : HasDerivAt (fun t => (tgt t).y.x) (tgt t).y.v t)
    (gth : HasDerivAt (fun t => (tgt t).theta.x) (tgt t).theta.v t)
    (hpi : |(tgt t).theta.x - (s t).theta.x| < Real.pi) :
    let θ := (tgt t).theta.x - (s t).theta.x
    let xe := ((tgt t).x.x - (s t).x.x) * Real.cos (s t).theta.x + ((tgt t).y.x - (s t).y.x) * Real.sin (s t).theta.x
    let ye := -((tgt t).x.x - (s t).x.x) * Real.sin (s t).theta.x + ((tgt t).y.x - (s t).y.x) * Real.cos (s t).theta.x
    let k1 := 2 * k.zeta * Real.sqrt ((tgt t).theta.v ^ 2 + k.b * v ^ 2)
    ∃ D, HasDerivAt (fun t => trackError k.b (s t) (tgt t)) (-(k1 * (k.b * xe ^ 2 + θ ^ 2)) + D) t ∧
      |D| ≤ |k.b * v * ye| * (2 * |θ| ^ 11 / 39916800) := by
  intro θ xe ye k1
  have hpp := Real.pi_pos
  have hn : normalizeAngle Real.pi ((tgt t).theta.x - (s t).theta.x) = θ := by
    rw [abs_lt] at hpi
    rw [C51_normalize Real.pi hpp]
    exact ⟨⟨by linarith [hpi.1], hpi.2.le⟩, 0, by simp [θ]⟩
  have e1 : (tgt t).x.v * Real.cos (tgt t).theta.x + (tgt t).y.v * Real.sin (tgt t).theta.x = v := by
    rw [hvx, hvy]; linear_combination v * Real.sin_sq_add_cos_sq (tgt t).theta.x
  have hc : ¬ (k.xiThreshold < |(tgt t).x.v * Real.cos (tgt t).theta.x + (tgt t).y.v * Real.sin (tgt t).theta.x| ∧
      k.xiThreshold < |k.xi + k.period * (i.ux * Real.cos (s t).theta.x + i.uy * Real.sin (s t).theta.x)|) := by
    rw [e1]
    rintro ⟨h1, h2⟩
    rcases hlow with h | h <;> linarith
  unfold Tracker.track at hr
  dsimp only [Trig.real] at hr
  rw [if_neg hc, hn, e1] at hr
  have hk1 : 2 * k.zeta * Real.sqrt ((tgt t).theta.v * (tgt t).theta.v + k.b * v * v) = k1 := by
    simp only [k1]
    rw [show (tgt t).theta.v * (tgt t).theta.v + k.b * v * v = (tgt t).theta.v ^ 2 + k.b * v ^ 2 by ring]
  rw [hk1] at hr
  subst hr
  refine ⟨k.b * v * ye * (Real.sin θ - θ * sinc θ), ?_, ?_⟩
  · refine (((((gx.sub hx).pow 2).add ((gy.sub hy).pow 2)).const_mul (k.b / 2)).add (((gth.sub hth).pow 2).div_const 2)).congr_deriv ?_
    dsimp only
    rw [hvx, hvy]
    have hcs := Real.sin_sq_add_cos_sq (s t).theta.x
    have ht : (tgt t).theta.x = (s t).theta.x + θ := by simp [θ]
    have hC : Real.cos (tgt t).theta.x = Real.cos (s t).theta.x * Real.cos θ - Real.sin (s t).theta.x * Real.sin θ := by
      rw [ht, Real.cos_add]
    have hS : Real.sin (tgt t).theta.x = Real.sin (s t).theta.x * Real.cos θ + Real.cos (s t).theta.x * Real.sin θ := by
      rw [ht, Real.sin_add]
    rw [hC, hS]
    simp only [Pi.sub_apply, Nat.cast_ofNat]
    have hxe : xe = ((tgt t).x.x - (s t).x.x) * Real.cos (s t).theta.x + ((tgt t).y.x - (s t).y.x) * Real.sin (s t).theta.x := rfl
    have hye : ye = -((tgt t).x.x - (s t).x.x) * Real.sin (s t).theta.x + ((tgt t).y.x - (s t).y.x) * Real.cos (s t).theta.x := rfl
    rw [hxe, hye]
    have hth' : (tgt t).theta.x - (s t).theta.x = θ := rfl
    rw [hth']
    generalize (tgt t).x.x - (s t).x.x = xd
    generalize (tgt t).y.x - (s t).y.x = yd
    ring
  · rw [abs_mul]
    refine mul_le_mul_of_nonneg_left ?_ (abs_nonneg _)
    rw [abs_sub_comm]
    exact C73_sinc (by have := Real.pi_le_four; linarith)

/-- A robot 1 m behind a target that drives with 1 m/s, on the way to catching up with `xe = e^(-2t)`. -/
example : ∃ D, HasDerivAt (fun t : ℝ => trackError 1 ⟨⟨t - Real.exp (-(2 * t)), 0, 0⟩, ⟨0, 0, 0⟩, ⟨0, 0, 0⟩⟩ ⟨⟨t, 1, 0, 0⟩, .zero, .zero⟩)
    (-2 + D) 0 ∧ |D| ≤ 0 := by
  have h : HasDerivAt (fun t : ℝ => t - Real.exp (-(2 * t))) 3 0 := by
    have h1 : HasDerivAt (fun t : ℝ => Real.exp (-(2 * t))) (-2) 0 := by
      simpa using (((hasDerivAt_id (0 : ℝ)).const_mul 2).neg).exp
    exact ((hasDerivAt_id (0 : ℝ)).sub h1).congr_deriv (by norm_num)
  have hr : ((Tracker.mk 0 0.001 2 1 1).track Trig.real Real.pi ⟨⟨0 - Real.exp (-(2 * 0)), 0, 0⟩, ⟨0, 0, 0⟩, ⟨0, 0, 0⟩⟩
      ⟨⟨0, 1, 0, 0⟩, .zero, .zero⟩ ⟨0, 0, 0, 0⟩).2.1 = ⟨3, 0, 0, 0⟩ := by
    have hn : normalizeAngle Real.pi (0 - 0) = 0 := by
      rw [C51_normalize Real.pi Real.pi_pos]
      exact ⟨⟨by linarith [Real.pi_pos], Real.pi_pos.le⟩, 0, by simp⟩
    unfold Tracker.track
    dsimp only [Axis.zero]
    rw [hn]
    norm_num [Trig.real]
  obtain ⟨D, h1, h2⟩ := C73_decreases (Tracker.mk 0 0.001 2 1 1) (fun t => ⟨⟨t - Real.exp (-(2 * t)), 0, 0⟩, ⟨0, 0, 0⟩, ⟨0, 0, 0⟩⟩)
    (fun t => ⟨⟨t, 1, 0, 0⟩, .zero, .zero⟩) ⟨0, 0, 0, 0⟩ 0 _ hr 1 (.inl (by norm_num)) (by simp [Axis.zero]) (by simp [Axis.zero])
    (by simpa using h) (by simpa using hasDerivAt_const (0 : ℝ) (0 : ℝ)) (by simpa using hasDerivAt_const (0 : ℝ) (0 : ℝ))
    (hasDerivAt_id _) (hasDerivAt_const _ _) (hasDerivAt_const _ _) (by simpa [Axis.zero] using Real.pi_pos)
  refine ⟨D, ?_, ?_⟩
  · convert h1 using 1
    norm_num [Axis.zero]
  · simpa [Axis.zero] using h2

/-- The error of the polynomial is at most 0.016 for all headings. -/
example {x : ℝ} (hx : |x| ≤ Real.pi) : |x * sinc x - Real.sin x| ≤ 0.016 := by
  have hp := Real.pi_lt_d2
  refine (C73_sinc (by linarith)).trans ?_
  have : |x| ^ 11 ≤ 3.15 ^ 11 := pow_le_pow_left₀ (abs_nonneg x) (by linarith) 11
  norm_num at this ⊢
  linarith

end Verif.Props
