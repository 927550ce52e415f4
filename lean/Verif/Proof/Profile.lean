import Verif.Proof.Plan
import Mathlib.Analysis.Calculus.Deriv.MeanValue
import Mathlib.Analysis.Calculus.Deriv.Comp
import Mathlib.Analysis.Calculus.MeanValue
/-!
# Profiles from rest to rest

The angle of a curve starts and ends at rest. For such a request the position is the integral of the velocity at all times, and the
profile is symmetric about half of its duration.
-/
namespace Verif.StraightP
open Verif Verif.Control Verif.Straight Verif.Spec

variable {g : Gen} {vs ve : ℝ}

theorem dir_sq (x : ℝ) : direction x * direction x = 1 := by unfold direction; split <;> norm_num
theorem dir_abs (x : ℝ) : |direction x| = 1 := by unfold direction; split <;> norm_num
theorem dir_mul (x : ℝ) : |x| * direction x = x := by
  unfold direction; split
  · rename_i h; rw [abs_of_neg h]; ring
  · rename_i h; rw [abs_of_nonneg (not_lt.1 h)]; ring

theorem gen_fields (h : Request g vs ve) (xs dist : ℝ) :
    (g.generate xs dist vs ve).1.sign = direction dist ∧ (g.generate xs dist vs ve).1.xStart = xs := by
  obtain ⟨v, p, rest, tA, tC, tD, P⟩ := plan h dist
  rw [generate_eq P]
  exact ⟨rfl, rfl⟩

theorem calc_eq (h : Request g vs ve) (xs dist t : ℝ) :
    (g.generate xs dist vs ve).1.calculate t = ⟨(((g.generate xs dist vs ve).1.unsigned t).x - xs) * direction dist + xs,
      ((g.generate xs dist vs ve).1.unsigned t).v * direction dist, ((g.generate xs dist vs ve).1.unsigned t).a * direction dist,
      ((g.generate xs dist vs ve).1.unsigned t).j * direction dist⟩ := by
  unfold Overall.calculate
  rw [(gen_fields h xs dist).1, (gen_fields h xs dist).2]

theorem p0 {d v p rest tA tC tD : ℝ} (P : Plan g vs ve d v p rest tA tC tD) : p = 0 ∨ 0 < p := by
  rcases (P.req.start0.trans P.vsp).lt_or_eq with h | h
  · exact .inr h
  · exact .inl h.symm

theorem const_of_deriv {f : ℝ → ℝ} (h : ∀ t, HasDerivAt f 0 t) (s t : ℝ) : f s = f t :=
  is_const_of_deriv_eq_zero (fun x => (h x).differentiableAt) (fun x => (h x).deriv) s t

theorem const_on {f f' : ℝ → ℝ} (h : ∀ t, HasDerivAt f (f' t) t) {a b : ℝ} (hab : a ≤ b) (h0 : ∀ t, a ≤ t → t < b → f' t = 0) :
    f b = f a := by
  refine constant_of_has_deriv_right_zero (fun x _ => (h x).continuousAt.continuousWithinAt) (fun x hx => ?_) b ⟨hab, le_rfl⟩
  have := (h x).hasDerivWithinAt (s := Set.Ici x)
  rwa [h0 x hx.1 hx.2] at this

theorem acc_swap (x y p : ℝ) : (g.acceleration x 0 p).1.t1 = (g.acceleration y p 0).1.t1 := by
  unfold Gen.acceleration
  rw [abs_sub_comm p 0]

theorem acc_jM (x y : ℝ) {p : ℝ} (hp : 0 < p) : (g.acceleration x 0 p).1.jM = g.jMax ∧ (g.acceleration y p 0).1.jM = -g.jMax := by
  unfold Gen.acceleration
  rw [if_pos hp.le, if_neg (not_le.2 hp)]
  constructor <;> dsimp only <;> split <;> rfl

section
variable {d v p rest tA tC tD : ℝ}

/-- From rest to rest both ramps are the same, and there is no distance missing. -/
theorem rest_fields (P : Plan g 0 0 d v p rest tA tC tD) : v = 0 ∧ tD = tA ∧ 0 ≤ rest := by
  have hv : v = 0 := by
    obtain ⟨h1, h2, -⟩ := aim_down P.req le_rfl (d := d)
    rw [← P.hv] at h1 h2
    exact le_antisymm h2 h1
  refine ⟨hv, ?_, ?_⟩
  · rw [P.htD, P.htA, hv, abs_sub_comm]
  · by_contra h
    obtain ⟨-, -, h3, -⟩ := rest_neg P (not_le.1 h)
    rw [hv] at h3
    exact lt_irrefl _ h3

theorem U_rest_deriv (P : Plan g 0 0 d v p rest tA tC tD) (hp : 0 < p) (xs t : ℝ) :
    HasDerivAt (fun s => (U g xs 0 d v p tA tC tD s).x) (U g xs 0 d v p tA tC tD t).v t := by
  obtain ⟨hv, hD, hr⟩ := rest_fields P
  obtain ⟨Z, z1, z2, z3, z4⟩ := U_deriv_x P hp xs
  rw [min_eq_left hr, add_zero] at z3
  have hA := tA0 P
  have hC := tC0 P
  have e : (fun s => (U g xs 0 d v p tA tC tD s).x) = Z := by
    funext s
    rcases le_or_gt s 0 with h | h
    · have : Z 0 = Z s := const_on z1 h fun u _ hu => by unfold U; rw [if_pos hu]
      rw [← this, z3]
      rcases h.lt_or_eq with h | h
      · unfold U; rw [if_pos h]
      · subst h
        unfold U
        rw [if_neg (lt_irrefl _), if_pos hA, (acc_zero (accA P xs).1).1]
        exact (accA P xs).2.2.2.2.1
    · rcases le_or_gt s (tA + tC + tD) with h' | h'
      · exact z2 s h h'
      · have : Z s = Z (tA + tC + tD) := const_on z1 h'.le fun u hu _ => by rw [(U_end P hp xs u hu).2.1, hv]
        rw [this, z4, (U_end P hp xs s h'.le).1]
  rw [e]
  exact z1 t

theorem U_rest_acc (P : Plan g 0 0 d v p rest tA tC tD) (hp : 0 < p) (xs t : ℝ) :
    (U g xs 0 d v p tA tC tD (tA + tC + tD - t)).a = -(U g xs 0 d v p tA tC tD t).a := by
  obtain ⟨hv, hD, hr⟩ := rest_fields P
  obtain ⟨k, k2, -⟩ := accA P xs
  obtain ⟨l, l2, -⟩ := accD P (xs + d - rampDist g p v)
  rw [U_acc P, U_acc P, acc_trapezium k, acc_trapezium l, acc_trapezium k, acc_trapezium l, k2, l2, hv, ← acc_swap xs _ p,
    (acc_jM xs (xs + d - rampDist g p 0) hp).1, (acc_jM xs (xs + d - rampDist g p 0) hp).2, hD]
  have e1 : tA + tC + tA - t - (tA + tC) = tA - t := by ring
  have e2 : tA - (tA + tC + tA - t) = t - (tA + tC) := by ring
  have e3 : tA - (tA - t) = t := by ring
  have e4 : tA - (t - (tA + tC)) = tA + tC + tA - t := by ring
  rw [e1, e2, e3, e4, min_comm (tA + tC + tA - t), min_comm (tA - t)]
  ring

end

/-- The velocity is the derivative of the position at all times. -/
theorem rest_deriv (h : Request g 0 0) (xs dist t : ℝ) :
    HasDerivAt (fun s => ((g.generate xs dist 0 0).1.calculate s).x) ((g.generate xs dist 0 0).1.calculate t).v t := by
  obtain ⟨v, p, rest, tA, tC, tD, P⟩ := plan h dist
  simp only [calc_eq h]
  rcases p0 P with hp | hp
  · obtain ⟨-, -, -, -, hu⟩ := stuck P hp xs
    simp only [(hu _).1, (hu t).2.1]
    simpa using hasDerivAt_const t xs
  · simp only [(finite P hp xs).2]
    exact (((U_rest_deriv P hp xs t).sub_const xs).mul_const _).add_const xs

/-- The acceleration is the derivative of the velocity. -/
theorem gen_deriv_v (h : Request g vs ve) (xs dist t : ℝ) :
    HasDerivAt (fun s => ((g.generate xs dist vs ve).1.calculate s).v) ((g.generate xs dist vs ve).1.calculate t).a t := by
  obtain ⟨v, p, rest, tA, tC, tD, P⟩ := plan h dist
  simp only [calc_eq h]
  rcases p0 P with hp | hp
  · obtain ⟨-, -, -, -, hu⟩ := stuck P hp xs
    simp only [(hu _).2.1, (hu t).2.2.1, zero_mul]
    exact hasDerivAt_const t _
  · simp only [(finite P hp xs).2]
    exact (U_deriv_v P xs t).mul_const _

/-- Values at the ends. -/
theorem rest_ends (h : Request g 0 0) (xs dist r : ℝ) (hr : (g.generate xs dist 0 0).2.1 = .fin r) :
    0 < r ∧ ((g.generate xs dist 0 0).1.calculate 0).x = xs ∧ ((g.generate xs dist 0 0).1.calculate r).x = xs + dist := by
  obtain ⟨v, p, rest, tA, tC, tD, P⟩ := plan h dist
  simp only [calc_eq h]
  rcases p0 P with hp | hp
  · exfalso
    obtain ⟨-, -, -, he, -⟩ := stuck P hp xs
    rw [he] at hr
    dsimp only [F.infOf] at hr
    rw [if_neg (not_lt.2 (abs_nonneg _) : ¬ |dist| < 0)] at hr
    split at hr <;> cases hr
  · obtain ⟨he, hu⟩ := finite P hp xs
    rw [he] at hr
    obtain rfl : tA + tC + tD = r := by simpa using hr
    have hA := tA0 P
    have hA' : 0 < tA := by rw [P.htA, sub_zero, abs_of_pos hp]; exact rampTime_pos h.a h.j hp
    have hC := tC0 P
    have hD := tD0 P
    refine ⟨by linarith, ?_, ?_⟩
    · rw [hu]
      have : (U g xs 0 |dist| v p tA tC tD 0).x = xs := by
        unfold U
        rw [if_neg (lt_irrefl _), if_pos hA, (acc_zero (accA P xs).1).1]
        exact (accA P xs).2.2.2.2.1
      rw [this, sub_self, zero_mul, zero_add]
    · rw [hu, (U_end P hp xs _ le_rfl).1, add_sub_cancel_left, dir_mul, add_comm]

theorem start_x (h : Request g 0 0) (xs dist : ℝ) : ((g.generate xs dist 0 0).1.calculate 0).x = xs := by
  obtain ⟨v, p, rest, tA, tC, tD, P⟩ := plan h dist
  rcases p0 P with hp | hp
  · obtain ⟨-, -, -, -, hu⟩ := stuck P hp xs
    rw [calc_eq h, (hu 0).1]; simp
  · obtain ⟨he, -⟩ := finite P hp xs
    exact (rest_ends h xs dist _ (by rw [he])).2.1

/-- The profile is symmetric about half of its duration. -/
theorem rest_symm (h : Request g 0 0) (xs dist r : ℝ) (hr : (g.generate xs dist 0 0).2.1 = .fin r) (t : ℝ) :
    ((g.generate xs dist 0 0).1.calculate (r - t)).x = 2 * xs + dist - ((g.generate xs dist 0 0).1.calculate t).x ∧
    ((g.generate xs dist 0 0).1.calculate (r - t)).v = ((g.generate xs dist 0 0).1.calculate t).v ∧
    ((g.generate xs dist 0 0).1.calculate (r - t)).a = -((g.generate xs dist 0 0).1.calculate t).a := by
  have ha (t : ℝ) : ((g.generate xs dist 0 0).1.calculate (r - t)).a = -((g.generate xs dist 0 0).1.calculate t).a := by
    obtain ⟨v, p, rest, tA, tC, tD, P⟩ := plan h dist
    simp only [calc_eq h]
    rcases p0 P with hp | hp
    · obtain ⟨-, -, -, -, hu⟩ := stuck P hp xs
      rw [(hu _).2.2.1, (hu _).2.2.1]; simp
    · obtain ⟨he, hu⟩ := finite P hp xs
      rw [he] at hr
      obtain rfl : tA + tC + tD = r := by simpa using hr
      rw [hu, hu, U_rest_acc P hp]; ring
  have hsub (t : ℝ) : HasDerivAt (fun t : ℝ => r - t) (-1) t := by simpa using (hasDerivAt_id t).const_sub r
  have hv (t : ℝ) : ((g.generate xs dist 0 0).1.calculate (r - t)).v = ((g.generate xs dist 0 0).1.calculate t).v := by
    have key (t : ℝ) : HasDerivAt (fun t => ((g.generate xs dist 0 0).1.calculate (r - t)).v -
        ((g.generate xs dist 0 0).1.calculate t).v) 0 t := by
      have := ((gen_deriv_v h xs dist (r - t)).comp t (hsub t)).sub (gen_deriv_v h xs dist t)
      rw [ha t] at this
      exact this.congr_deriv (by ring)
    have := const_of_deriv key t (r / 2)
    rw [show r - r / 2 = r / 2 by ring, sub_self] at this
    linarith
  refine ⟨?_, hv t, ha t⟩
  have key (t : ℝ) : HasDerivAt (fun t => ((g.generate xs dist 0 0).1.calculate (r - t)).x +
      ((g.generate xs dist 0 0).1.calculate t).x) 0 t := by
    have := ((rest_deriv h xs dist (r - t)).comp t (hsub t)).add (rest_deriv h xs dist t)
    rw [hv t] at this
    exact this.congr_deriv (by ring)
  have := const_of_deriv key t 0
  obtain ⟨-, e0, e1⟩ := rest_ends h xs dist r hr
  rw [sub_zero, e0, e1] at this
  linarith

end Verif.StraightP
