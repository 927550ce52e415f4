import Verif.Spec.Straight
import Mathlib.Analysis.Calculus.Deriv.Add
import Mathlib.Analysis.Calculus.Deriv.Mul
import Mathlib.Analysis.Calculus.Deriv.Pow
import Mathlib.Analysis.Calculus.Deriv.Shift
import Mathlib.Tactic.Ring
import Mathlib.Tactic.Linarith
import Mathlib.Tactic.FieldSimp
import Mathlib.Tactic.LinearCombination
import Mathlib.Tactic.Positivity
import Mathlib.Tactic.NormNum
/-!
# Lemmas about straight trajectories
-/
namespace Verif.StraightP
open Verif Verif.Control Verif.Straight Verif.Spec

/-! ## Gluing -/

open Classical in
theorem glue_le {f g : ℝ → ℝ} {f' g' c t : ℝ} (h1 : t ≤ c → HasDerivAt f f' t) (h2 : c ≤ t → HasDerivAt g g' t)
    (e : t = c → f c = g c) (e' : t = c → f' = g') :
    HasDerivAt (fun s => if s ≤ c then f s else g s) (if t ≤ c then f' else g') t := by
  rcases lt_trichotomy t c with h | h | h
  · rw [if_pos h.le]
    refine (h1 h.le).congr_of_eventuallyEq ?_
    filter_upwards [Iio_mem_nhds h] with s hs
    exact if_pos (le_of_lt hs)
  · subst h
    rw [if_pos le_rfl]
    have hf : HasDerivWithinAt (fun s => if s ≤ t then f s else g s) f' (Set.Iic t) t :=
      (h1 le_rfl).hasDerivWithinAt.congr (fun s hs => if_pos hs) (if_pos le_rfl)
    have hg : HasDerivWithinAt (fun s => if s ≤ t then f s else g s) f' (Set.Ici t) t := by
      rw [e' rfl]
      refine (h2 le_rfl).hasDerivWithinAt.congr (fun s hs => ?_) ?_
      · rcases eq_or_lt_of_le (show t ≤ s from hs) with h | h
        · subst h; rw [if_pos le_rfl]; exact e rfl
        · exact if_neg (not_le.2 h)
      · rw [if_pos le_rfl]; exact e rfl
    have := hf.union hg
    rwa [Set.Iic_union_Ici, hasDerivWithinAt_univ] at this
  · rw [if_neg (not_le.2 h)]
    refine (h2 h.le).congr_of_eventuallyEq ?_
    filter_upwards [Ioi_mem_nhds h] with s hs
    exact if_neg (not_le.2 hs)

open Classical in
theorem glue_lt {f g : ℝ → ℝ} {f' g' c t : ℝ} (h1 : t ≤ c → HasDerivAt f f' t) (h2 : c ≤ t → HasDerivAt g g' t)
    (e : t = c → f c = g c) (e' : t = c → f' = g') :
    HasDerivAt (fun s => if s < c then f s else g s) (if t < c then f' else g') t := by
  rcases lt_trichotomy t c with h | h | h
  · rw [if_pos h]
    refine (h1 h.le).congr_of_eventuallyEq ?_
    filter_upwards [Iio_mem_nhds h] with s hs
    exact if_pos hs
  · subst h
    rw [if_neg (lt_irrefl _)]
    have hg : HasDerivWithinAt (fun s => if s < t then f s else g s) g' (Set.Ici t) t :=
      (h2 le_rfl).hasDerivWithinAt.congr (fun s hs => if_neg (not_lt.2 hs)) (if_neg (lt_irrefl _))
    have hf : HasDerivWithinAt (fun s => if s < t then f s else g s) g' (Set.Iic t) t := by
      rw [← e' rfl]
      refine (h1 le_rfl).hasDerivWithinAt.congr (fun s hs => ?_) ?_
      · rcases eq_or_lt_of_le (show s ≤ t from hs) with h | h
        · subst h; rw [if_neg (lt_irrefl _)]; exact (e rfl).symm
        · exact if_pos h
      · rw [if_neg (lt_irrefl _)]; exact (e rfl).symm
    have := hf.union hg
    rwa [Set.Iic_union_Ici, hasDerivWithinAt_univ] at this
  · rw [if_neg (not_lt.2 h.le)]
    refine (h2 h.le).congr_of_eventuallyEq ?_
    filter_upwards [Ioi_mem_nhds h] with s hs
    exact if_neg (not_lt.2 (le_of_lt hs))

/-! ## Time and distance of a ramp -/

variable {g : Gen}

theorem rampTime_nonneg {a j dv : ℝ} (ha : 0 < a) (hj : 0 < j) (h : 0 ≤ dv) : 0 ≤ rampTime a j dv := by
  unfold rampTime
  split <;> positivity

theorem rampTime_zero {a j : ℝ} (ha : 0 < a) (hj : 0 < j) : rampTime a j 0 = 0 := by
  unfold rampTime
  rw [if_neg (by have : 0 < a ^ 2 / j := by positivity
                 linarith)]
  simp

theorem sqrt_sq_div {a j : ℝ} (ha : 0 < a) (hj : 0 < j) : Real.sqrt (a ^ 2 / j / j) = a / j := by
  rw [show a ^ 2 / j / j = (a / j) ^ 2 by field_simp]
  exact Real.sqrt_sq (by positivity)

theorem rampTime_mono {a j x y : ℝ} (ha : 0 < a) (hj : 0 < j) (hxy : x ≤ y) : rampTime a j x ≤ rampTime a j y := by
  unfold rampTime
  split
  · rename_i h
    rw [if_pos (h.trans hxy)]
    have := div_le_div_of_nonneg_right hxy ha.le
    linarith
  · rename_i h
    push Not at h
    split
    · rename_i h'
      have h1 : Real.sqrt (x / j) ≤ a / j := by
        rw [← sqrt_sq_div ha hj]
        exact Real.sqrt_le_sqrt (div_le_div_of_nonneg_right h.le hj.le)
      have h2 : a / j ≤ y / a := by
        rw [div_le_div_iff₀ hj ha]
        rw [div_le_iff₀ hj] at h'
        nlinarith
      linarith
    · have := Real.sqrt_le_sqrt (div_le_div_of_nonneg_right hxy hj.le)
      linarith

theorem accDist_eq (g : Gen) (v v' : ℝ) : g.accDist v v' = rampDist g v v' := by
  unfold Gen.accDist rampDist rampTime
  dsimp only
  rw [show g.aMax * (g.aMax / g.jMax) = g.aMax ^ 2 / g.jMax by ring]
  simp only [ge_iff_le]
  split <;> ring

theorem rampDist_self (ha : 0 < g.aMax) (hj : 0 < g.jMax) (v : ℝ) : rampDist g v v = 0 := by
  unfold rampDist
  rw [sub_self, abs_zero, rampTime_zero ha hj, mul_zero]

theorem rampDist_nonneg (ha : 0 < g.aMax) (hj : 0 < g.jMax) {v v' : ℝ} (h : 0 ≤ v) (h' : 0 ≤ v') : 0 ≤ rampDist g v v' :=
  mul_nonneg (by linarith) (rampTime_nonneg ha hj (abs_nonneg _))

theorem rampDist_mono (ha : 0 < g.aMax) (hj : 0 < g.jMax) {v x y : ℝ} (h : 0 ≤ v) (hx : v ≤ x) (hxy : x ≤ y) :
    rampDist g v x ≤ rampDist g v y := by
  unfold rampDist
  rw [abs_of_nonneg (by linarith), abs_of_nonneg (by linarith)]
  exact mul_le_mul (by linarith) (rampTime_mono ha hj (by linarith)) (rampTime_nonneg ha hj (by linarith)) (by linarith)

/-! ## Bisection -/

theorem bisect_spec (up : ℝ → Prop) (n : Nat) : ∀ low high, low ≤ high →
    low ≤ (bisect up n low high).1 ∧ (bisect up n low high).2 ≤ high ∧
    (bisect up n low high).2 - (bisect up n low high).1 = (high - low) / 2 ^ n ∧
    ((bisect up n low high).1 = low ∨ up (bisect up n low high).1) ∧
    ((bisect up n low high).2 = high ∨ ¬ up (bisect up n low high).2) := by
  induction n with
  | zero => intro low high h; exact ⟨le_rfl, le_rfl, by simp [bisect], .inl rfl, .inl rfl⟩
  | succ n ih =>
    intro low high h
    unfold bisect
    dsimp only
    split
    · rename_i hu
      obtain ⟨h1, h2, h3, h4, h5⟩ := ih ((low + high) / 2) high (by linarith)
      refine ⟨by linarith, h2, by rw [h3, pow_succ]; field_simp; ring, .inr ?_, h5⟩
      rcases h4 with h4 | h4
      · rw [h4]; exact hu
      · exact h4
    · rename_i hu
      obtain ⟨h1, h2, h3, h4, h5⟩ := ih low ((low + high) / 2) (by linarith)
      refine ⟨h1, by linarith, by rw [h3, pow_succ]; field_simp; ring, h4, .inr ?_⟩
      rcases h5 with h5 | h5
      · rw [h5]; exact hu
      · exact h5

theorem bisect_le (up : ℝ → Prop) (n : Nat) {low high : ℝ} (h : low ≤ high) : (bisect up n low high).1 ≤ high := by
  obtain ⟨-, h2, h3, -⟩ := bisect_spec up n low high h
  have : 0 ≤ (high - low) / 2 ^ n := div_nonneg (by linarith) (by positivity)
  linarith

/-! ## Acceleration -/

/-- What `generate_acceleration` guarantees about the numbers; `J` is the signed jerk. -/
structure AccOk (g : Gen) (c : AccCalc) : Prop where
  t1 : 0 ≤ c.t1
  t12 : c.t1 ≤ c.t2
  t3 : c.t3 = c.t1 + c.t2
  aM : c.t1 < c.t2 → c.aM = c.jM * c.t1
  vEnd : c.vEnd = c.vStart + c.jM * c.t1 * c.t2
  xEnd : c.xEnd = c.xStart + (c.vStart + c.vEnd) / 2 * c.t3
  jM : |c.jM| = g.jMax
  lim : |c.jM * c.t1| ≤ g.aMax

theorem acc_ok (ha : 0 < g.aMax) (hj : 0 < g.jMax) (x v v' : ℝ) :
    AccOk g (g.acceleration x v v').1 ∧ (g.acceleration x v v').2 = (g.acceleration x v v').1.t3 ∧
    (g.acceleration x v v').1.t3 = rampTime g.aMax g.jMax |v' - v| ∧ (g.acceleration x v v').1.vStart = v ∧
    (g.acceleration x v v').1.vEnd = v' ∧ (g.acceleration x v v').1.xStart = x := by
  obtain ⟨s, hs, hs2, hsd⟩ : ∃ s : ℝ, (if v ≤ v' then (g.aMax, g.jMax) else (-g.aMax, -g.jMax)) = (s * g.aMax, s * g.jMax) ∧
      |s| = 1 ∧ v' - v = s * |v' - v| := by
    by_cases h : v ≤ v'
    · exact ⟨1, by rw [if_pos h]; simp, by simp, by rw [abs_of_nonneg (by linarith)]; ring⟩
    · exact ⟨-1, by rw [if_neg h]; simp, by simp, by rw [abs_of_neg (by linarith)]; ring⟩
  unfold Gen.acceleration
  simp only [hs]
  have hd := abs_nonneg (v' - v)
  generalize |v' - v| = d at *
  have hvd : g.aMax * (g.aMax / g.jMax) = g.aMax ^ 2 / g.jMax := by ring
  by_cases h : d ≥ g.aMax * (g.aMax / g.jMax)
  · rw [if_pos h]
    have h' : g.aMax / g.jMax ≤ d / g.aMax := by
      rw [ge_iff_le, hvd, div_le_iff₀ hj] at h
      rw [div_le_div_iff₀ hj ha]; nlinarith
    refine ⟨⟨by positivity, by linarith, by ring, fun _ => ?_, ?_, rfl.trans (by ring), ?_, ?_⟩, by trivial, ?_, by trivial, by trivial, by trivial⟩
    · field_simp
    · show v' = v + s * g.jMax * (g.aMax / g.jMax) * (g.aMax / g.jMax + (d / g.aMax - g.aMax / g.jMax))
      rw [show s * g.jMax * (g.aMax / g.jMax) * (g.aMax / g.jMax + (d / g.aMax - g.aMax / g.jMax)) = s * d by field_simp; ring]
      linarith
    · show |s * g.jMax| = _
      rw [abs_mul, hs2, one_mul, abs_of_pos hj]
    · show |s * g.jMax * (g.aMax / g.jMax)| ≤ _
      rw [show s * g.jMax * (g.aMax / g.jMax) = s * g.aMax by field_simp, abs_mul, hs2, one_mul, abs_of_pos ha]
    · show 2 * (g.aMax / g.jMax) + (d / g.aMax - g.aMax / g.jMax) = _
      unfold rampTime
      rw [if_pos (by rw [← hvd]; exact h)]; ring
  · rw [if_neg h]
    have hq : 0 ≤ d / g.jMax := by positivity
    have hsq : Real.sqrt (d / g.jMax) * Real.sqrt (d / g.jMax) = d / g.jMax := Real.mul_self_sqrt hq
    have h0 := Real.sqrt_nonneg (d / g.jMax)
    have hle : Real.sqrt (d / g.jMax) ≤ g.aMax / g.jMax := by
      rw [← sqrt_sq_div ha hj]
      refine Real.sqrt_le_sqrt (div_le_div_of_nonneg_right ?_ hj.le)
      rw [← hvd]; linarith
    refine ⟨⟨h0, le_rfl, two_mul _, fun h => absurd h (lt_irrefl _), ?_, rfl.trans (by ring), ?_, ?_⟩, by trivial, ?_, by trivial, by trivial, by trivial⟩
    · show v' = v + s * g.jMax * Real.sqrt (d / g.jMax) * Real.sqrt (d / g.jMax)
      rw [mul_assoc (s * g.jMax), hsq, show s * g.jMax * (d / g.jMax) = s * d by field_simp]
      linarith
    · show |s * g.jMax| = _
      rw [abs_mul, hs2, one_mul, abs_of_pos hj]
    · show |s * g.jMax * Real.sqrt (d / g.jMax)| ≤ _
      rw [abs_mul, abs_mul, hs2, one_mul, abs_of_pos hj, abs_of_nonneg h0]
      rw [le_div_iff₀ hj] at hle
      linarith
    · unfold rampTime
      rw [if_neg (by rw [← hvd]; exact h)]

theorem acc_form {c : AccCalc} (h : AccOk g c) (t : ℝ) : ∃ p q, (0 ≤ p ∧ p ≤ c.t1) ∧ (0 ≤ q ∧ q ≤ c.t1 * c.t2) ∧
    (c.calculate t).a = c.jM * p ∧ (c.calculate t).v = c.vStart + c.jM * q ∧ |(c.calculate t).j| ≤ |c.jM| := by
  obtain ⟨h1, h2, h3, h4, h5, -, -, -⟩ := h
  have h12 : 0 ≤ c.t1 * c.t2 := mul_nonneg h1 (h1.trans h2)
  unfold AccCalc.calculate
  split
  · exact ⟨0, 0, ⟨le_rfl, h1⟩, ⟨le_rfl, h12⟩, by simp, by simp, by simp⟩
  · rename_i ht0
    push Not at ht0
    split
    · rename_i ht
      refine ⟨t, t ^ 2 / 2, ⟨ht0, ht⟩, ⟨by positivity, by nlinarith⟩, rfl, by ring, le_rfl⟩
    · rename_i ht1
      push Not at ht1
      split
      · rename_i ht
        refine ⟨c.t1, c.t1 ^ 2 / 2 + c.t1 * (t - c.t1), ⟨h1, le_rfl⟩, ⟨?_, ?_⟩, h4 (by linarith), ?_, by simp⟩
        · have := mul_nonneg h1 (by linarith : 0 ≤ t - c.t1)
          positivity
        · nlinarith
        · dsimp only
          rw [h4 (by linarith)]; ring
      · rename_i ht2
        push Not at ht2
        split
        · rename_i ht
          have e1 : 0 ≤ c.t3 - t := by linarith
          have e2 : c.t3 - t ≤ c.t1 := by linarith
          refine ⟨c.t3 - t, c.t1 * c.t2 - (c.t3 - t) ^ 2 / 2, ⟨e1, e2⟩, ⟨by nlinarith, by nlinarith⟩, rfl, ?_, by simp⟩
          dsimp only
          rw [h5]; ring
        · exact ⟨0, c.t1 * c.t2, ⟨le_rfl, h1⟩, ⟨h12, le_rfl⟩, by simp, by rw [h5]; ring, by simp⟩

theorem acc_bounds {c : AccCalc} (h : AccOk g c) (t : ℝ) {lo hi : ℝ} (h1 : lo ≤ c.vStart) (h2 : lo ≤ c.vEnd)
    (h3 : c.vStart ≤ hi) (h4 : c.vEnd ≤ hi) :
    (lo ≤ (c.calculate t).v ∧ (c.calculate t).v ≤ hi) ∧ |(c.calculate t).a| ≤ g.aMax ∧ |(c.calculate t).j| ≤ g.jMax := by
  obtain ⟨p, q, ⟨p0, p1⟩, ⟨q0, q1⟩, ha, hv, hj⟩ := acc_form h t
  refine ⟨?_, ?_, hj.trans h.jM.le⟩
  · rw [hv]
    have := h.vEnd
    rcases le_total 0 c.jM with hs | hs
    · have e1 := mul_nonneg hs q0
      have e2 := mul_le_mul_of_nonneg_left q1 hs
      constructor <;> nlinarith
    · have e1 := mul_nonneg (neg_nonneg.2 hs) q0
      have e2 := mul_le_mul_of_nonneg_left q1 (neg_nonneg.2 hs)
      constructor <;> nlinarith
  · rw [ha, abs_mul, abs_of_nonneg p0]
    refine le_trans (mul_le_mul_of_nonneg_left p1 (abs_nonneg _)) ?_
    have := h.lim
    rwa [abs_mul, abs_of_nonneg h.t1] at this

theorem acc_zero {c : AccCalc} (h : AccOk g c) :
    (c.calculate 0).x = c.xStart ∧ (c.calculate 0).v = c.vStart ∧ (c.calculate 0).a = 0 := by
  unfold AccCalc.calculate
  rw [if_neg (lt_irrefl _), if_pos h.t1]
  simp

theorem acc_end {c : AccCalc} (h : AccOk g c) :
    (c.calculate c.t3).x = c.xEnd ∧ (c.calculate c.t3).v = c.vEnd ∧ (c.calculate c.t3).a = 0 := by
  obtain ⟨h1, h2, h3, h4, h5, h6, -, -⟩ := h
  unfold AccCalc.calculate
  rw [if_neg (by linarith)]
  by_cases e : c.t1 = 0
  · by_cases e2 : c.t2 = 0
    · rw [if_pos (by linarith)]
      have e3 : c.t3 = 0 := by linarith
      simp only [e3, h6, h5, e]
      refine ⟨by ring, by ring, by ring⟩
    · have : 0 < c.t2 := lt_of_le_of_ne (by linarith) (Ne.symm e2)
      rw [if_neg (by linarith), if_pos (by linarith)]
      have ha := h4 (by linarith)
      simp only [ha, h6, h5, h3, e]
      refine ⟨by ring, by ring, by ring⟩
  · have : 0 < c.t1 := lt_of_le_of_ne h1 (Ne.symm e)
    rw [if_neg (by linarith), if_neg (by linarith), if_pos le_rfl]
    simp

/-- When the middle phase is empty its acceleration does not matter. -/
theorem acc_norm {c : AccCalc} (h : AccOk g c) : ∃ c' : AccCalc, AccOk g c' ∧ c'.aM = c'.jM * c'.t1 ∧ c'.t3 = c.t3 ∧
    ∀ s, c.calculate s = c'.calculate s := by
  by_cases hlt : c.t1 < c.t2
  · exact ⟨c, h, h.aM hlt, rfl, fun _ => rfl⟩
  · have e : c.t1 = c.t2 := le_antisymm h.t12 (not_lt.1 hlt)
    refine ⟨{ c with aM := c.jM * c.t1 }, ⟨h.t1, h.t12, h.t3, fun _ => rfl, h.vEnd, h.xEnd, h.jM, h.lim⟩, rfl, rfl, fun s => ?_⟩
    unfold AccCalc.calculate
    dsimp only
    by_cases h1 : s ≤ c.t1
    · simp only [if_pos h1]
    · have h2 : ¬ s ≤ c.t2 := by rw [← e]; exact h1
      simp only [if_neg h1, if_neg h2]

theorem acc_deriv_v {c : AccCalc} (h : AccOk g c) (t : ℝ) : HasDerivAt (fun s => (c.calculate s).v) (c.calculate t).a t := by
  obtain ⟨c', h', hA, -, hc⟩ := acc_norm h
  simp only [hc]
  clear hc h
  generalize c' = c at *
  obtain ⟨h1, h2, h3, -, h5, h6, -, -⟩ := h'
  have e : ∀ s, (c.calculate s).v = if s < 0 then c.vStart else if s ≤ c.t1 then c.vStart + c.jM * s * s / 2
      else if s ≤ c.t2 then c.vStart + (c.aM * c.t1 / 2 + c.aM * (s - c.t1))
      else if s ≤ c.t3 then c.vEnd - c.jM * (c.t3 - s) * (c.t3 - s) / 2 else c.vEnd := by
    intro s
    unfold AccCalc.calculate
    split_ifs <;> rfl
  have e' : (c.calculate t).a = if t < 0 then 0 else if t ≤ c.t1 then c.jM * t
      else if t ≤ c.t2 then c.aM else if t ≤ c.t3 then c.jM * (c.t3 - t) else 0 := by
    unfold AccCalc.calculate
    split_ifs <;> rfl
  rw [e', funext e]
  have d1 : HasDerivAt (fun s : ℝ => c.vStart + c.jM * s * s / 2) (c.jM * t) t := by
    have := ((((hasDerivAt_id t).const_mul c.jM).mul (hasDerivAt_id t)).div_const 2).const_add c.vStart
    refine this.congr_deriv ?_
    simp only [id]; ring
  have d2 : HasDerivAt (fun s : ℝ => c.vStart + (c.aM * c.t1 / 2 + c.aM * (s - c.t1))) c.aM t := by
    have := ((((hasDerivAt_id t).sub_const c.t1).const_mul c.aM).const_add (c.aM * c.t1 / 2)).const_add c.vStart
    refine this.congr_deriv ?_
    ring
  have d3 : HasDerivAt (fun s : ℝ => c.vEnd - c.jM * (c.t3 - s) * (c.t3 - s) / 2) (c.jM * (c.t3 - t)) t := by
    have := (((((hasDerivAt_id t).const_sub c.t3).const_mul c.jM).mul ((hasDerivAt_id t).const_sub c.t3)).div_const 2).const_sub c.vEnd
    refine this.congr_deriv ?_
    simp only [id]; ring
  refine glue_lt (fun _ => hasDerivAt_const t c.vStart) (fun _ => glue_le (fun _ => d1) (fun _ => glue_le (fun _ => d2)
    (fun _ => glue_le (fun _ => d3) (fun _ => hasDerivAt_const t c.vEnd) ?_ ?_) ?_ ?_) ?_ ?_) ?_ ?_
  · rintro -; simp
  · rintro rfl; simp
  · rintro -
    rw [if_pos (by linarith), h5, h3, hA]; ring
  · rintro rfl
    rw [if_pos (by linarith), h3, hA]; ring
  · rintro -
    rw [if_pos h2, hA]; ring
  · rintro rfl
    rw [if_pos h2, hA]
  · rintro -
    rw [if_pos h1]; simp
  · rintro rfl
    rw [if_pos h1]; simp

/-- The position, continued beyond both ends at constant speed, has the reported velocity as derivative. -/
theorem acc_deriv_x {c : AccCalc} (h : AccOk g c) : ∃ X : ℝ → ℝ, (∀ s, 0 ≤ s → s ≤ c.t3 → X s = (c.calculate s).x) ∧
    ∀ t, HasDerivAt X (c.calculate t).v t := by
  obtain ⟨c', h', hA, h33, hc⟩ := acc_norm h
  simp only [hc]
  rw [← h33]
  clear hc h h33
  generalize c' = c at *
  obtain ⟨h1, h2, h3, -, h5, h6, -, -⟩ := h'
  refine ⟨fun s => if s < 0 then c.xStart + c.vStart * s else if s ≤ c.t1 then c.xStart + (c.vStart * s + c.jM * s * s * s / 6)
      else if s ≤ c.t2 then c.xStart + (c.vStart * c.t1 + c.jM * c.t1 * c.t1 * c.t1 / 6 +
        (c.vStart + c.aM * c.t1 / 2) * (s - c.t1) + c.aM * (s - c.t1) * (s - c.t1) / 2)
      else if s ≤ c.t3 then c.xEnd - c.vEnd * (c.t3 - s) + c.jM * (c.t3 - s) * (c.t3 - s) * (c.t3 - s) / 6
      else c.xEnd - c.vEnd * (c.t3 - s), fun s hs hs3 => ?_, fun t => ?_⟩
  · unfold AccCalc.calculate
    dsimp only
    split_ifs <;> first | rfl | (exfalso; linarith)
  have e' : (c.calculate t).v = if t < 0 then c.vStart else if t ≤ c.t1 then c.vStart + c.jM * t * t / 2
      else if t ≤ c.t2 then c.vStart + (c.aM * c.t1 / 2 + c.aM * (t - c.t1))
      else if t ≤ c.t3 then c.vEnd - c.jM * (c.t3 - t) * (c.t3 - t) / 2 else c.vEnd := by
    unfold AccCalc.calculate
    split_ifs <;> rfl
  rw [e']
  have d0 : HasDerivAt (fun s : ℝ => c.xStart + c.vStart * s) c.vStart t := by
    have := ((hasDerivAt_id t).const_mul c.vStart).const_add c.xStart
    refine this.congr_deriv ?_
    ring
  have d1 : HasDerivAt (fun s : ℝ => c.xStart + (c.vStart * s + c.jM * s * s * s / 6)) (c.vStart + c.jM * t * t / 2) t := by
    have i := hasDerivAt_id t
    have := ((i.const_mul c.vStart).add (((((i.const_mul c.jM).mul i).mul i)).div_const 6)).const_add c.xStart
    refine this.congr_deriv ?_
    simp only [id, Pi.mul_apply]; ring
  have d2 : HasDerivAt (fun s : ℝ => c.xStart + (c.vStart * c.t1 + c.jM * c.t1 * c.t1 * c.t1 / 6 +
        (c.vStart + c.aM * c.t1 / 2) * (s - c.t1) + c.aM * (s - c.t1) * (s - c.t1) / 2))
        (c.vStart + (c.aM * c.t1 / 2 + c.aM * (t - c.t1))) t := by
    have i := (hasDerivAt_id t).sub_const c.t1
    have := (((i.const_mul (c.vStart + c.aM * c.t1 / 2)).const_add (c.vStart * c.t1 + c.jM * c.t1 * c.t1 * c.t1 / 6)).add
      (((i.const_mul c.aM).mul i).div_const 2)).const_add c.xStart
    refine this.congr_deriv ?_
    simp only [id]; ring
  have d3 : HasDerivAt (fun s : ℝ => c.xEnd - c.vEnd * (c.t3 - s) + c.jM * (c.t3 - s) * (c.t3 - s) * (c.t3 - s) / 6)
      (c.vEnd - c.jM * (c.t3 - t) * (c.t3 - t) / 2) t := by
    have i := (hasDerivAt_id t).const_sub c.t3
    have := ((i.const_mul c.vEnd).const_sub c.xEnd).add ((((i.const_mul c.jM).mul i).mul i).div_const 6)
    refine this.congr_deriv ?_
    simp only [id, Pi.mul_apply]; ring
  have d4 : HasDerivAt (fun s : ℝ => c.xEnd - c.vEnd * (c.t3 - s)) c.vEnd t := by
    have := (((hasDerivAt_id t).const_sub c.t3).const_mul c.vEnd).const_sub c.xEnd
    refine this.congr_deriv ?_
    ring
  refine glue_lt (fun _ => d0) (fun _ => glue_le (fun _ => d1) (fun _ => glue_le (fun _ => d2)
    (fun _ => glue_le (fun _ => d3) (fun _ => d4) ?_ ?_) ?_ ?_) ?_ ?_) ?_ ?_
  · rintro -; ring
  · rintro rfl; ring
  · rintro -
    rw [if_pos (by linarith), h6, h5, h3, hA]; ring
  · rintro rfl
    rw [if_pos (by linarith), h5, h3, hA]; ring
  · rintro -
    rw [if_pos h2, hA]; ring
  · rintro rfl
    rw [if_pos h2, hA]; ring
  · rintro -
    rw [if_pos h1]; ring
  · rintro rfl
    rw [if_pos h1]; ring

/-- The acceleration in one formula: a trapezium. -/
theorem acc_trapezium {c : AccCalc} (h : AccOk g c) (t : ℝ) :
    (c.calculate t).a = c.jM * max 0 (min c.t1 (min t (c.t3 - t))) := by
  obtain ⟨h1, h2, h3, h4, -, -, -, -⟩ := h
  unfold AccCalc.calculate
  split
  · rename_i ht
    have e : min c.t1 (min t (c.t3 - t)) ≤ 0 := (min_le_right _ _).trans ((min_le_left _ _).trans ht.le)
    rw [max_eq_left e, mul_zero]
  · rename_i ht0
    push Not at ht0
    split
    · rename_i ht
      have e : min c.t1 (min t (c.t3 - t)) = t := by
        rw [min_eq_left (a := t) (by linarith)]; exact min_eq_right ht
      rw [e, max_eq_right ht0]
    · rename_i ht1
      push Not at ht1
      split
      · rename_i ht
        have e : min c.t1 (min t (c.t3 - t)) = c.t1 := min_eq_left (le_min ht1.le (by linarith))
        rw [e, max_eq_right h1]
        exact h4 (by linarith)
      · rename_i ht2
        push Not at ht2
        have e0 : min c.t1 (min t (c.t3 - t)) = c.t3 - t := by
          rw [min_eq_right (b := c.t3 - t) (by linarith)]; exact min_eq_right (by linarith)
        split
        · rename_i ht
          rw [e0, max_eq_right (by linarith)]
        · rename_i ht
          rw [e0, max_eq_left (by linarith), mul_zero]

theorem acc_lipschitz {c : AccCalc} (h : AccOk g c) (s t : ℝ) :
    |(c.calculate t).a - (c.calculate s).a| ≤ g.jMax * |t - s| := by
  rw [acc_trapezium h, acc_trapezium h, ← mul_sub, abs_mul, h.jM]
  refine mul_le_mul_of_nonneg_left ?_ (by rw [← h.jM]; exact abs_nonneg _)
  refine (abs_max_sub_max_le_max _ _ _ _).trans (max_le (by simp) ?_)
  refine (abs_min_sub_min_le_max _ _ _ _).trans (max_le (by simp) ?_)
  refine (abs_min_sub_min_le_max _ _ _ _).trans (max_le le_rfl ?_)
  rw [show c.t3 - t - (c.t3 - s) = -(t - s) by ring, abs_neg]

theorem acc_deriv_a {c : AccCalc} (h : AccOk g c) (t : ℝ) (h0 : t ≠ 0) (h1 : t ≠ c.t1) (h2 : t ≠ c.t2) (h3 : t ≠ c.t3) :
    HasDerivAt (fun s => (c.calculate s).a) (c.calculate t).j t := by
  have e : ∀ s, (c.calculate s).a = if s < 0 then 0 else if s ≤ c.t1 then c.jM * s
      else if s ≤ c.t2 then c.aM else if s ≤ c.t3 then c.jM * (c.t3 - s) else 0 := by
    intro s
    unfold AccCalc.calculate
    split_ifs <;> rfl
  have e' : (c.calculate t).j = if t < 0 then 0 else if t ≤ c.t1 then c.jM
      else if t ≤ c.t2 then 0 else if t ≤ c.t3 then -c.jM else 0 := by
    unfold AccCalc.calculate
    split_ifs <;> rfl
  rw [e', funext e]
  have d1 : HasDerivAt (fun s : ℝ => c.jM * s) c.jM t := by
    refine ((hasDerivAt_id t).const_mul c.jM).congr_deriv ?_
    ring
  have d3 : HasDerivAt (fun s : ℝ => c.jM * (c.t3 - s)) (-c.jM) t := by
    refine (((hasDerivAt_id t).const_sub c.t3).const_mul c.jM).congr_deriv ?_
    ring
  exact glue_lt (fun _ => hasDerivAt_const t 0) (fun _ => glue_le (fun _ => d1) (fun _ => glue_le (fun _ => hasDerivAt_const t c.aM)
    (fun _ => glue_le (fun _ => d3) (fun _ => hasDerivAt_const t 0) (fun h => absurd h h3) (fun h => absurd h h3))
    (fun h => absurd h h2) (fun h => absurd h h2)) (fun h => absurd h h1) (fun h => absurd h h1))
    (fun h => absurd h h0) (fun h => absurd h h0)

theorem acc_out {c : AccCalc} (h : AccOk g c) {t : ℝ} (ht : t ≤ 0 ∨ c.t3 ≤ t) : (c.calculate t).a = 0 := by
  rw [acc_trapezium h, max_eq_left, mul_zero]
  rcases ht with ht | ht
  · exact (min_le_right _ _).trans ((min_le_left _ _).trans ht)
  · exact (min_le_right _ _).trans ((min_le_right _ _).trans (by linarith))

end Verif.StraightP
