import Verif.Spec.Slalom
import Verif.Proof.Profile
import Verif.Proof.Quadrature
import Verif.Props.Iter
import Mathlib.Analysis.SpecialFunctions.Trigonometric.Deriv
import Mathlib.Analysis.SpecialFunctions.Trigonometric.Bounds
import Mathlib.Algebra.BigOperators.Intervals
import Mathlib.MeasureTheory.Integral.IntervalIntegral.FundThmCalculus
/-!
# C44, C47: curves
-/
namespace Verif.Props
open Verif Verif.Control Verif.Straight Verif.Slalom Verif.Spec Verif.StraightP

/-- The sum of the steps of the quadrature. -/
noncomputable def curveSum (f : ℝ → ℝ) (v h x : ℝ) (k : ℕ) : ℝ :=
  x + ∑ i ∈ Finset.range k, v * h * ((f (i * h + 0.21132487 * h) + f (i * h + 0.7886751 * h)) / 2)

/-- The target at a time and place. -/
noncomputable def curveTarget (T : Trig) (c : Overall) (v x y t : ℝ) : Target :=
  let a := c.calculate t
  ⟨⟨x, v * T.cos a.x, -v * T.sin a.x * a.v, -v * (T.cos a.x * (a.v * a.v) + T.sin a.x * a.a)⟩,
   ⟨y, v * T.sin a.x, v * T.cos a.x * a.v, v * (-T.sin a.x * (a.v * a.v) + T.cos a.x * a.a)⟩, a⟩

theorem curve_outputs (T : Trig) (c : Overall) {r h : ℝ} (x y v : ℝ) (hr : 0 ≤ r) (hp : 0 < h) (n : Nat) :
    outputs (Curve.next T) n ⟨c, 0, .fin r, h, x, y, v⟩ = (List.range n).map fun k : Nat =>
      if k < ⌊r / h⌋₊ + 1 then some (curveTarget T c v (curveSum (fun s => T.cos (c.calculate s).x) v h x k)
        (curveSum (fun s => T.sin (c.calculate s).x) v h y k) (k * h)) else none := by
  have key := out_finite (Curve.next T)
    (fun k => ⟨c, k * h, .fin r, h, curveSum (fun s => T.cos (c.calculate s).x) v h x k, curveSum (fun s => T.sin (c.calculate s).x) v h y k, v⟩)
    (fun k => curveTarget T c v (curveSum (fun s => T.cos (c.calculate s).x) v h x k)
        (curveSum (fun s => T.sin (c.calculate s).x) v h y k) (k * h)) (⌊r / h⌋₊ + 1) (fun k hk => ?_) (fun k hk => ?_) n 0
  · simpa [curveSum] using key
  · unfold Curve.next
    dsimp only
    rw [if_neg (show ¬ (F.fin r).lt (.fin (k * h)) from (floor_iff hr hp k).2 hk)]
    refine Prod.ext rfl ?_
    simp only [Nat.cast_add, Nat.cast_one, add_mul, one_mul, curveSum, Finset.sum_range_succ, cs, bs]
    congr 1
    · simp; ring
    · simp; ring
  · unfold Curve.next
    dsimp only
    rw [if_pos (show (F.fin r).lt (.fin (k * h)) by
      by_contra hn
      have := (floor_iff hr hp k).1 hn
      omega)]

/-- C44: a curve yields `⌊r / period⌋ + 1` targets and then nothing. -/
theorem C44_curve (T : Trig) (c : Overall) {r h : ℝ} (x y v : ℝ) (hr : 0 ≤ r) (hp : 0 < h) (n : Nat) :
    (outputs (Curve.next T) n ⟨c, 0, .fin r, h, x, y, v⟩).map Option.isSome = (List.range n).map fun k : Nat => decide (k < ⌊r / h⌋₊ + 1) := by
  rw [curve_outputs T c x y v hr hp, List.map_map]
  refine List.map_congr_left fun k _ => ?_
  simp only [Function.comp]
  split <;> simp_all

example : ((outputs (Curve.next .real) 5 ⟨(Gen.generate ⟨9, 300, 30000⟩ 0 1 0 0).1, 0, .fin 0.005, 0.002, 0, 0, 1⟩).map Option.isSome) =
    [true, true, true, false, false] := by
  rw [C44_curve .real _ 0 0 1 (by norm_num) (by norm_num)]
  have : ⌊(0.005 : ℝ) / 0.002⌋₊ = 2 := by rw [Nat.floor_eq_iff (by norm_num)]; norm_num
  rw [this]
  decide

/-! ## C47 -/

section C47

variable {v vRef d1 d2 d3 h : ℝ}

/-- The limits of the angle of a curve. -/
noncomputable def curveGen (v vRef d1 d2 d3 : ℝ) : Gen := ⟨v / vRef * d1, v / vRef * (v / vRef) * d2, v / vRef * (v / vRef) * (v / vRef) * d3⟩

theorem curve_eq (h x y th dist v vRef d1 d2 d3 : ℝ) : generateCurve h x y th dist v vRef d1 d2 d3 =
    ⟨((curveGen v vRef d1 d2 d3).generate th dist 0 0).1, 0, ((curveGen v vRef d1 d2 d3).generate th dist 0 0).2.1, h, x, y, v⟩ := rfl

theorem curve_request (R : CurveRequest v vRef d1 d2 d3 h) : Request (curveGen v vRef d1 d2 d3) 0 0 := by
  obtain ⟨a, b, c, d, e, -⟩ := R
  have : 0 < v / vRef := div_pos a b
  constructor <;> simp only [curveGen, le_refl] <;> positivity

theorem yields_seq {σ α : Type} (next : σ → Option α × σ) (S : Nat → σ) (o : Nat → α)
    (hS : ∀ k, next (S k) = (some (o k), S (k + 1)) ∨ next (S k) = (none, S k)) (t : α) :
    ∀ k m, Yields next (S m) k t → t = o (m + k) := by
  intro k
  induction k with
  | zero =>
    intro m hy
    unfold Yields outputs at hy
    rcases hS m with e | e
    · rw [e] at hy; simpa using hy.symm
    · rw [e] at hy; simp at hy
  | succ k ih =>
    intro m hy
    unfold Yields outputs at hy
    rcases hS m with e | e
    · rw [e] at hy
      rw [ih (m + 1) (by simpa [Yields] using hy)]
      congr 1; omega
    · exfalso
      rw [e, List.getElem?_cons_succ, out_dead next (S m) e, List.getElem?_replicate] at hy
      split at hy <;> simp at hy

/-- What a sample of a curve is. -/
theorem curve_yields (x y th dist : ℝ) {k : ℕ} {t : Target}
    (hy : Yields (Curve.next .real) (generateCurve h x y th dist v vRef d1 d2 d3) k t) :
    t = curveTarget .real (generateCurve h x y th dist v vRef d1 d2 d3).calculator v
      (curveSum (fun s => Real.cos ((generateCurve h x y th dist v vRef d1 d2 d3).calculator.calculate s).x) v h x k)
      (curveSum (fun s => Real.sin ((generateCurve h x y th dist v vRef d1 d2 d3).calculator.calculate s).x) v h y k) (k * h) := by
  generalize hc : generateCurve h x y th dist v vRef d1 d2 d3 = c at *
  have e : c = ⟨c.calculator, 0, c.tEnd, h, x, y, v⟩ := by rw [← hc]; rfl
  generalize c.calculator = C at *
  generalize c.tEnd = E at *
  subst e
  have key := yields_seq (Curve.next .real)
    (fun k => ⟨C, k * h, E, h, curveSum (fun s => Real.cos (C.calculate s).x) v h x k, curveSum (fun s => Real.sin (C.calculate s).x) v h y k, v⟩)
    (fun k => curveTarget .real C v (curveSum (fun s => Real.cos (C.calculate s).x) v h x k)
        (curveSum (fun s => Real.sin (C.calculate s).x) v h y k) (k * h)) (fun k => ?_) t k 0 (by simpa [curveSum] using hy)
  · simpa using key
  · by_cases hl : E.lt (.fin (k * h))
    · right
      unfold Curve.next
      dsimp only
      rw [if_pos hl]
    · left
      unfold Curve.next
      dsimp only
      rw [if_neg hl]
      refine Prod.ext rfl ?_
      simp only [Nat.cast_add, Nat.cast_one, add_mul, one_mul, curveSum, Finset.sum_range_succ, cs, bs]
      congr 1
      · simp [Trig.real]; ring
      · simp [Trig.real]; ring

/-- C47: the first sample is at the start of the curve with its heading. -/
theorem C47_start (R : CurveRequest v vRef d1 d2 d3 h) (x y th dist : ℝ) {t : Target}
    (hy : Yields (Curve.next .real) (generateCurve h x y th dist v vRef d1 d2 d3) 0 t) :
    t.x.x = x ∧ t.y.x = y ∧ t.theta.x = th := by
  rw [curve_yields x y th dist hy]
  refine ⟨by simp [curveTarget, curveSum], by simp [curveTarget, curveSum], ?_⟩
  simp only [curveTarget, Nat.cast_zero, zero_mul]
  exact (start_x (curve_request R) th dist)

/-- C47: the mouse drives forward with exactly the speed of the curve and not sideways, in the heading that belongs to the time of the
sample. -/
theorem C47_velocity (x y th dist : ℝ) {k : ℕ} {t : Target}
    (hy : Yields (Curve.next .real) (generateCurve h x y th dist v vRef d1 d2 d3) k t) :
    t.theta = (generateCurve h x y th dist v vRef d1 d2 d3).calculator.calculate (k * h) ∧
    rotate (-t.theta.x) (t.x.v, t.y.v) = (v, 0) := by
  rw [curve_yields x y th dist hy]
  refine ⟨rfl, ?_⟩
  simp only [curveTarget, rotate, Real.cos_neg, Real.sin_neg, Trig.real]
  generalize ((generateCurve h x y th dist v vRef d1 d2 d3).calculator.calculate (k * h)).x = a
  refine Prod.ext ?_ ?_
  · have := Real.sin_sq_add_cos_sq a
    dsimp only
    linear_combination v * this
  · dsimp only; ring

section
variable (R : CurveRequest v vRef d1 d2 d3 h) (x y th dist : ℝ)
include R

theorem curve_deriv (s : ℝ) : HasDerivAt (curveHeading (generateCurve h x y th dist v vRef d1 d2 d3))
    ((generateCurve h x y th dist v vRef d1 d2 d3).calculator.calculate s).v s := rest_deriv (curve_request R) th dist s

theorem curve_deriv2 (s : ℝ) : HasDerivAt (fun s => ((generateCurve h x y th dist v vRef d1 d2 d3).calculator.calculate s).v)
    ((generateCurve h x y th dist v vRef d1 d2 d3).calculator.calculate s).a s := gen_deriv_v (curve_request R) th dist s

/-- Derivatives of the cosine of the heading, turned by a constant angle. -/
theorem curve_cos (φ s : ℝ) :
    let c := (generateCurve h x y th dist v vRef d1 d2 d3).calculator
    HasDerivAt (fun s => Real.cos ((c.calculate s).x + φ)) (-Real.sin ((c.calculate s).x + φ) * (c.calculate s).v) s ∧
    HasDerivAt (fun s => -Real.sin ((c.calculate s).x + φ) * (c.calculate s).v)
      (-(Real.cos ((c.calculate s).x + φ) * (c.calculate s).v ^ 2) - Real.sin ((c.calculate s).x + φ) * (c.calculate s).a) s := by
  intro c
  have e1 := (curve_deriv R x y th dist s).add_const φ
  have e2 := curve_deriv2 R x y th dist s
  refine ⟨e1.cos, ?_⟩
  refine (e1.sin.neg.mul e2).congr_deriv ?_
  simp only [c, Pi.neg_apply, curveHeading]
  ring

end

/-- C47: acceleration and jerk are the first and second derivatives of the velocity. -/
theorem C47_derivatives (R : CurveRequest v vRef d1 d2 d3 h) (x y th dist : ℝ) {k : ℕ} {t : Target}
    (hy : Yields (Curve.next .real) (generateCurve h x y th dist v vRef d1 d2 d3) k t) :
    let θ := curveHeading (generateCurve h x y th dist v vRef d1 d2 d3)
    (t.x.v = v * Real.cos (θ (k * h)) ∧ t.x.a = deriv (fun s => v * Real.cos (θ s)) (k * h) ∧
      t.x.j = deriv (deriv fun s => v * Real.cos (θ s)) (k * h)) ∧
    (t.y.v = v * Real.sin (θ (k * h)) ∧ t.y.a = deriv (fun s => v * Real.sin (θ s)) (k * h) ∧
      t.y.j = deriv (deriv fun s => v * Real.sin (θ s)) (k * h)) := by
  intro θ
  have hc (φ s : ℝ) := curve_cos R x y th dist φ s
  rw [curve_yields x y th dist hy]
  have hsin (s : ℝ) : Real.sin (θ s) = Real.cos (θ s + -(Real.pi / 2)) := by rw [← sub_eq_add_neg, Real.cos_sub_pi_div_two]
  have hcos (s : ℝ) : Real.sin (θ s + -(Real.pi / 2)) = -Real.cos (θ s) := by rw [← sub_eq_add_neg, Real.sin_sub_pi_div_two]
  have d1' (φ : ℝ) : deriv (fun s => v * Real.cos (θ s + φ)) = fun s => v * (-Real.sin (θ s + φ) *
      ((generateCurve h x y th dist v vRef d1 d2 d3).calculator.calculate s).v) := by
    funext s; exact ((hc φ s).1.const_mul v).deriv
  have d2' (φ s : ℝ) : deriv (deriv (fun s => v * Real.cos (θ s + φ))) s = v * (-(Real.cos (θ s + φ) *
      ((generateCurve h x y th dist v vRef d1 d2 d3).calculator.calculate s).v ^ 2) - Real.sin (θ s + φ) *
      ((generateCurve h x y th dist v vRef d1 d2 d3).calculator.calculate s).a) := by
    rw [d1']; exact ((hc φ s).2.const_mul v).deriv
  refine ⟨⟨rfl, ?_, ?_⟩, ⟨rfl, ?_, ?_⟩⟩
  · have := congrFun (d1' 0) (k * h)
    simp only [add_zero] at this
    rw [this]
    simp only [curveTarget, Trig.real, θ, curveHeading]; ring
  · have := d2' 0 (k * h)
    simp only [add_zero] at this
    rw [this]
    simp only [curveTarget, Trig.real, θ, curveHeading]; ring
  · have := congrFun (d1' (-(Real.pi / 2))) (k * h)
    simp only [← hsin, hcos] at this
    rw [this]
    simp only [curveTarget, Trig.real, θ, curveHeading]; ring
  · have := d2' (-(Real.pi / 2)) (k * h)
    simp only [← hsin, hcos] at this
    rw [this]
    simp only [curveTarget, Trig.real, θ, curveHeading]; ring

/-- C47: from one sample to the next the position moves by at most the speed times the period. -/
theorem C47_step (x y th dist : ℝ) {k : ℕ} {t t' : Target}
    (hy : Yields (Curve.next .real) (generateCurve h x y th dist v vRef d1 d2 d3) k t)
    (hy' : Yields (Curve.next .real) (generateCurve h x y th dist v vRef d1 d2 d3) (k + 1) t') :
    (t'.x.x - t.x.x) ^ 2 + (t'.y.x - t.y.x) ^ 2 ≤ (v * h) ^ 2 := by
  rw [curve_yields x y th dist hy, curve_yields x y th dist hy']
  simp only [curveTarget, curveSum, Finset.sum_range_succ]
  generalize ((generateCurve h x y th dist v vRef d1 d2 d3).calculator.calculate (k * h + 0.21132487 * h)).x = a
  generalize ((generateCurve h x y th dist v vRef d1 d2 d3).calculator.calculate (k * h + 0.7886751 * h)).x = b
  have ha := Real.sin_sq_add_cos_sq a
  have hb := Real.sin_sq_add_cos_sq b
  have hab : Real.cos a * Real.cos b + Real.sin a * Real.sin b ≤ 1 := by rw [← Real.cos_sub]; exact Real.cos_le_one _
  have hv : 0 ≤ (v * h) ^ 2 := sq_nonneg _
  have : (v * h) ^ 2 * (1 - (Real.cos a * Real.cos b + Real.sin a * Real.sin b)) ≥ 0 := mul_nonneg hv (by linarith)
  nlinarith

set_option maxHeartbeats 1000000 in
/-- C47: the positions of the samples are those of the path driven with the speed of the curve in its heading, up to an error of third order in the
period, apart from the rounding of the nodes of the quadrature. -/
theorem C47_accuracy (R : CurveRequest v vRef d1 d2 d3 h) (x y th dist : ℝ) {k : ℕ} {t : Target}
    (hy : Yields (Curve.next .real) (generateCurve h x y th dist v vRef d1 d2 d3) k t) (X Y : ℝ → ℝ)
    (hF : Follows v (curveHeading (generateCurve h x y th dist v vRef d1 d2 d3)) X Y) (hX : X 0 = x) (hY : Y 0 = y) :
    let W := v / vRef * d1
    let A := (v / vRef) ^ 2 * d2
    let J := (v / vRef) ^ 3 * d3
    let e := k * (v * h * ((W ^ 3 + 3 * W * A + J) * h ^ 3 / 100 + 2e-8 * (W ^ 2 + A) * h ^ 2 + 1.5e-8 * W * h))
    |t.x.x - X (k * h)| ≤ e ∧ |t.y.x - Y (k * h)| ≤ e := by
  intro W A J e
  have hv := R.v
  have hh := R.period
  have hreq := curve_request R
  have hW : (curveGen v vRef d1 d2 d3).vMax = W := rfl
  have hA : (curveGen v vRef d1 d2 d3).aMax = A := by simp only [curveGen, A]; ring
  have hJ : (curveGen v vRef d1 d2 d3).jMax = J := by simp only [curveGen, J]; ring
  have W0 : 0 ≤ W := by rw [← hW]; exact hreq.v.le
  have A0 : 0 ≤ A := by rw [← hA]; exact hreq.a.le
  have J0 : 0 ≤ J := by rw [← hJ]; exact hreq.j.le
  generalize hc : (generateCurve h x y th dist v vRef d1 d2 d3).calculator = c at *
  have bw (s : ℝ) : |(c.calculate s).v| ≤ W := by
    obtain ⟨⟨l1, l2⟩, -⟩ := C41_limits hreq th dist s
    rw [← abs_of_nonneg l1, abs_mul, dir_abs, one_mul, hW] at l2
    rw [← hc]; exact l2
  have ba (s : ℝ) : |(c.calculate s).a| ≤ A := by
    rw [← hA, ← hc]; exact (C41_limits hreq th dist s).2.1
  have lj (s t : ℝ) : |(c.calculate t).a - (c.calculate s).a| ≤ J * |t - s| := by
    rw [← hJ, ← hc]; exact C43_acceleration hreq th dist s t
  have lip {f f' : ℝ → ℝ} {C : ℝ} (hf : ∀ s, HasDerivAt f (f' s) s) (hC : ∀ s, |f' s| ≤ C) (s t : ℝ) : |f t - f s| ≤ C * |t - s| :=
    Convex.norm_image_sub_le_of_norm_hasDerivWithin_le (s := Set.univ) (fun x _ => (hf x).hasDerivWithinAt) (fun x _ => hC x) convex_univ
      (Set.mem_univ s) (Set.mem_univ t)
  have lx (s t : ℝ) : |(c.calculate t).x - (c.calculate s).x| ≤ W * |t - s| :=
    lip (f := fun s => (c.calculate s).x) (fun s => by rw [← hc]; exact curve_deriv R x y th dist s) bw s t
  have lv (s t : ℝ) : |(c.calculate t).v - (c.calculate s).v| ≤ A * |t - s| :=
    lip (f := fun s => (c.calculate s).v) (fun s => by rw [← hc]; exact curve_deriv2 R x y th dist s) ba s t
  have key (φ : ℝ) (F : ℝ → ℝ) (hF : ∀ s, HasDerivAt F (Real.cos ((c.calculate s).x + φ)) s) (u : ℝ) :
      |F (u + h) - F u - h * ((Real.cos ((c.calculate (u + 0.21132487 * h)).x + φ) + Real.cos ((c.calculate (u + 0.7886751 * h)).x + φ)) / 2)| ≤
        h * ((W ^ 3 + 3 * W * A + J) * h ^ 3 / 100 + 2e-8 * (W ^ 2 + A) * h ^ 2 + 1.5e-8 * W * h) := by
    have hd (s : ℝ) := curve_cos R x y th dist φ s
    rw [hc] at hd
    refine Quad.step hF (fun s => (hd s).1) (fun s => (hd s).2) ?_ ?_ ?_ u hh.le
    · intro s t
      have k1 := lx s t
      have k2 := lv s t
      have k3 := lj s t
      have c1 : |Real.cos ((c.calculate t).x + φ) - Real.cos ((c.calculate s).x + φ)| ≤ W * |t - s| :=
        (Real.abs_cos_sub_cos_le _ _).trans (by rw [add_sub_add_right_eq_sub]; exact k1)
      have c2 : |Real.sin ((c.calculate t).x + φ) - Real.sin ((c.calculate s).x + φ)| ≤ W * |t - s| :=
        (Real.abs_sin_sub_sin_le _ _).trans (by rw [add_sub_add_right_eq_sub]; exact k1)
      have w1 := bw s
      have w2 := bw t
      have w3 := ba t
      have s1 := Real.abs_cos_le_one ((c.calculate s).x + φ)
      have s2 := Real.abs_sin_le_one ((c.calculate s).x + φ)
      generalize Real.cos ((c.calculate t).x + φ) = p at *
      generalize Real.cos ((c.calculate s).x + φ) = p' at *
      generalize Real.sin ((c.calculate t).x + φ) = q at *
      generalize Real.sin ((c.calculate s).x + φ) = q' at *
      generalize (c.calculate t).v = w at *
      generalize (c.calculate s).v = w' at *
      generalize (c.calculate t).a = b at *
      generalize (c.calculate s).a = b' at *
      have hd0 := abs_nonneg (t - s)
      generalize |t - s| = δ at *
      have e0 : -(p * w ^ 2) - q * b - (-(p' * w' ^ 2) - q' * b') =
          -((p - p') * w ^ 2) - p' * ((w - w') * (w + w')) - (q - q') * b - q' * (b - b') := by ring
      have t1 : |(p - p') * w ^ 2| ≤ W * δ * W ^ 2 := by
        rw [abs_mul, abs_pow]; exact mul_le_mul c1 (pow_le_pow_left₀ (abs_nonneg _) w2 2) (by positivity) (by positivity)
      have t2 : |p' * ((w - w') * (w + w'))| ≤ 1 * (A * δ * (2 * W)) := by
        rw [abs_mul, abs_mul]
        refine mul_le_mul s1 (mul_le_mul k2 ?_ (abs_nonneg _) (by positivity)) (by positivity) (by norm_num)
        exact (abs_add_le _ _).trans (by linarith)
      have t3 : |(q - q') * b| ≤ W * δ * A := by
        rw [abs_mul]; exact mul_le_mul c2 w3 (abs_nonneg _) (by positivity)
      have t4 : |q' * (b - b')| ≤ 1 * (J * δ) := by
        rw [abs_mul]; exact mul_le_mul s2 k3 (abs_nonneg _) (by norm_num)
      rw [e0]
      rw [abs_le] at t1 t2 t3 t4 ⊢
      constructor <;> nlinarith [t1.1, t1.2, t2.1, t2.2, t3.1, t3.2, t4.1, t4.2]
    · intro s
      rw [abs_mul, abs_neg]
      calc _ ≤ 1 * W := mul_le_mul (Real.abs_sin_le_one _) (bw s) (abs_nonneg _) (by norm_num)
        _ = W := one_mul W
    · intro s
      have t1 : |Real.cos ((c.calculate s).x + φ) * (c.calculate s).v ^ 2| ≤ 1 * W ^ 2 := by
        rw [abs_mul, abs_pow]; exact mul_le_mul (Real.abs_cos_le_one _) (pow_le_pow_left₀ (abs_nonneg _) (bw s) 2) (by positivity) (by norm_num)
      have t2 : |Real.sin ((c.calculate s).x + φ) * (c.calculate s).a| ≤ 1 * A := by
        rw [abs_mul]; exact mul_le_mul (Real.abs_sin_le_one _) (ba s) (abs_nonneg _) (by norm_num)
      rw [abs_le] at t1 t2 ⊢
      constructor <;> linarith [t1.1, t1.2, t2.1, t2.2]
  have sum (φ : ℝ) (Z : ℝ → ℝ) (hZ : ∀ s, HasDerivAt Z (v * Real.cos ((c.calculate s).x + φ)) s) :
      |curveSum (fun s => Real.cos ((c.calculate s).x + φ)) v h (Z 0) k - Z (k * h)| ≤ e := by
    have hF (s : ℝ) : HasDerivAt (fun s => Z s / v) (Real.cos ((c.calculate s).x + φ)) s :=
      ((hZ s).div_const v).congr_deriv (by field_simp)
    simp only [e]
    clear e hy
    induction k with
    | zero => simp [curveSum]
    | succ k ih =>
      have a := mul_le_mul_of_nonneg_left (key φ _ hF (k * h)) hv.le
      rw [← abs_of_nonneg hv.le, ← abs_mul, abs_of_nonneg hv.le] at a
      have e1 : v * (Z (k * h + h) / v) = Z (k * h + h) := by field_simp
      have e2 : v * (Z (k * h) / v) = Z (k * h) := by field_simp
      rw [mul_sub, mul_sub, e1, e2] at a
      have e3 : ((k + 1 : ℕ) : ℝ) * h = k * h + h := by push_cast; ring
      rw [e3]
      push_cast
      simp only [curveSum, Finset.sum_range_succ] at ih ⊢
      rw [abs_le] at *
      constructor <;> linarith [a.1, a.2, ih.1, ih.2]
  rw [curve_yields x y th dist hy, hc]
  constructor
  · have := sum 0 X (fun s => by simpa [← hc, curveHeading] using (hF s).1)
    simpa [hX, curveTarget] using this
  · have := sum (-(Real.pi / 2)) Y (fun s => by
      rw [← sub_eq_add_neg, Real.cos_sub_pi_div_two]; simpa [← hc, curveHeading] using (hF s).2)
    simpa [hY, curveTarget, ← sub_eq_add_neg, Real.cos_sub_pi_div_two] using this

/-- There is such a path. -/
theorem C47_path_exists (R : CurveRequest v vRef d1 d2 d3 h) (x y th dist : ℝ) :
    ∃ X Y, Follows v (curveHeading (generateCurve h x y th dist v vRef d1 d2 d3)) X Y ∧ X 0 = x ∧ Y 0 = y := by
  have hcont : Continuous (curveHeading (generateCurve h x y th dist v vRef d1 d2 d3)) :=
    continuous_iff_continuousAt.2 fun s => (curve_deriv R x y th dist s).continuousAt
  have c1 : Continuous fun s => v * Real.cos (curveHeading (generateCurve h x y th dist v vRef d1 d2 d3) s) :=
    continuous_const.mul (Real.continuous_cos.comp hcont)
  have c2 : Continuous fun s => v * Real.sin (curveHeading (generateCurve h x y th dist v vRef d1 d2 d3) s) :=
    continuous_const.mul (Real.continuous_sin.comp hcont)
  refine ⟨fun s => x + ∫ u in (0:ℝ)..s, v * Real.cos (curveHeading (generateCurve h x y th dist v vRef d1 d2 d3) u),
    fun s => y + ∫ u in (0:ℝ)..s, v * Real.sin (curveHeading (generateCurve h x y th dist v vRef d1 d2 d3) u), fun s => ⟨?_, ?_⟩, ?_, ?_⟩
  · exact (c1.integral_hasStrictDerivAt 0 s).hasDerivAt.const_add x
  · exact (c2.integral_hasStrictDerivAt 0 s).hasDerivAt.const_add y
  · simp
  · simp

/-! ## C67: where curves end -/

/-- C67: the path of a curve ends on the bisector of its turn: the angle between the first heading and the line from start to end is half the
turn. -/
theorem C67_bisector (R : CurveRequest v vRef d1 d2 d3 h) (x y th dist r : ℝ)
    (hr : (generateCurve h x y th dist v vRef d1 d2 d3).tEnd = .fin r) (X Y : ℝ → ℝ)
    (hF : Follows v (curveHeading (generateCurve h x y th dist v vRef d1 d2 d3)) X Y) :
    (X r - X 0) * Real.sin (th + dist / 2) = (Y r - Y 0) * Real.cos (th + dist / 2) := by
  have hs (s : ℝ) : curveHeading (generateCurve h x y th dist v vRef d1 d2 d3) (r - s) =
      2 * th + dist - curveHeading (generateCurve h x y th dist v vRef d1 d2 d3) s := (rest_symm (curve_request R) th dist r hr s).1
  generalize curveHeading (generateCurve h x y th dist v vRef d1 d2 d3) = θ at *
  have hD (s : ℝ) : HasDerivAt (fun s => X s * Real.sin (th + dist / 2) - Y s * Real.cos (th + dist / 2))
      (v * Real.sin (th + dist / 2 - θ s)) s := by
    refine (((hF s).1.mul_const _).sub ((hF s).2.mul_const _)).congr_deriv ?_
    rw [Real.sin_sub]; ring
  have hsub (s : ℝ) : HasDerivAt (fun s : ℝ => r - s) (-1) s := by simpa using (hasDerivAt_id s).const_sub r
  have key (s : ℝ) : HasDerivAt (fun s => (X s * Real.sin (th + dist / 2) - Y s * Real.cos (th + dist / 2)) -
      (X (r - s) * Real.sin (th + dist / 2) - Y (r - s) * Real.cos (th + dist / 2))) 0 s := by
    refine ((hD s).sub ((hD (r - s)).comp s (hsub s))).congr_deriv ?_
    rw [hs s, show th + dist / 2 - (2 * th + dist - θ s) = -(th + dist / 2 - θ s) by ring, Real.sin_neg]
    ring
  have h1 := const_of_deriv key r (r / 2)
  rw [show r - r / 2 = r / 2 by ring, sub_self, sub_self] at h1
  linarith

end C47

end Verif.Props
