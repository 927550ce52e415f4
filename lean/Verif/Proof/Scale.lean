import Verif.Model.Slalom
/-!
# Scaling the limits of a profile

Multiplying the limits on velocity, acceleration and jerk by `k`, `k²` and `k³`, and the velocities by `k`, gives the same profile `k` times faster.
-/
namespace Verif.ScaleP
open Verif Verif.Control Verif.Straight

/-- The scaled limits. -/
def scaled (k : ℝ) (g : Gen) : Gen := ⟨k * g.vMax, k * k * g.aMax, k * k * k * g.jMax⟩

/-- What becomes of a time. -/
noncomputable def faster (k : ℝ) : F → F
  | .fin r => .fin (r / k)
  | x => x

/-- What becomes of a target. -/
def fast (k : ℝ) (a : Axis) : Axis := ⟨a.x, k * a.v, k * k * a.a, k * k * k * a.j⟩

variable {k : ℝ} (hk : 0 < k) {g : Gen}
include hk

theorem neg_scale (t : ℝ) : t < 0 ↔ k * t < 0 := by
  constructor <;> intro h <;> nlinarith

theorem tc_scale : (scaled k g).aMax / (scaled k g).jMax = g.aMax / g.jMax / k := by
  simp only [scaled]
  by_cases h : g.jMax = 0
  · simp [h]
  · field_simp

theorem vd_scale : (scaled k g).aMax * ((scaled k g).aMax / (scaled k g).jMax) = k * (g.aMax * (g.aMax / g.jMax)) := by
  rw [tc_scale hk]; simp only [scaled]; field_simp

theorem abs_scale (a b : ℝ) : |k * b - k * a| = k * |b - a| := by rw [← mul_sub, abs_mul, abs_of_pos hk]

theorem sqrt_scale (d j : ℝ) : Real.sqrt (k * d / (k * k * k * j)) = Real.sqrt (d / j) / k := by
  rw [show k * d / (k * k * k * j) = (d / j) / (k ^ 2) by
    by_cases h : j = 0
    · simp [h]
    · field_simp]
  rw [Real.sqrt_div' _ (by positivity), Real.sqrt_sq hk.le]

theorem accDist_scale (a b : ℝ) : (scaled k g).accDist (k * a) (k * b) = g.accDist a b := by
  unfold Gen.accDist
  dsimp only
  rw [vd_scale hk, tc_scale hk, abs_scale hk]
  by_cases h : |b - a| ≥ g.aMax * (g.aMax / g.jMax)
  · rw [if_pos (mul_le_mul_of_nonneg_left h hk.le), if_pos h]
    simp only [scaled]
    by_cases h : g.aMax = 0
    · simp [h]
    · field_simp
  · rw [if_neg (by rw [ge_iff_le, mul_le_mul_iff_right₀ hk]; exact h), if_neg h]
    simp only [scaled]
    rw [sqrt_scale hk]
    field_simp

theorem bisect_scale {up up' : ℝ → Prop} (h : ∀ m, up' (k * m) ↔ up m) (n : Nat) :
    ∀ lo hi, bisect up' n (k * lo) (k * hi) = (k * (bisect up n lo hi).1, k * (bisect up n lo hi).2) := by
  induction n with
  | zero => intro lo hi; rfl
  | succ n ih =>
    intro lo hi
    unfold bisect
    dsimp only
    rw [← mul_add, mul_div_assoc]
    by_cases hm : up ((lo + hi) / 2)
    · rw [if_pos ((h _).2 hm), if_pos hm, ih]
    · rw [if_neg fun x => hm ((h _).1 x), if_neg hm, ih]

theorem reachable_scale (a b d : ℝ) : (scaled k g).reachable (k * a) (k * b) d = k * g.reachable a b d := by
  unfold Gen.reachable
  by_cases h : a < b
  · rw [if_pos (by rwa [mul_lt_mul_iff_right₀ hk]), if_pos h]
    have := bisect_scale hk (up := fun mid => g.accDist a mid < d) (up' := fun mid => (scaled k g).accDist (k * a) mid < d)
      (fun m => by rw [accDist_scale hk]) LOOP_COUNT a g.vMax
    exact congrArg Prod.fst this
  · rw [if_neg (by rwa [mul_lt_mul_iff_right₀ hk]), if_neg h]
    have := bisect_scale hk (up := fun mid => ¬ g.accDist a mid < d) (up' := fun mid => ¬ (scaled k g).accDist (k * a) mid < d)
      (fun m => by rw [accDist_scale hk]) LOOP_COUNT 0 a
    rw [mul_zero] at this
    exact congrArg Prod.fst this

theorem aim_scale (a b d : ℝ) : (scaled k g).aim (k * a) (k * b) d = k * g.aim a b d := by
  unfold Gen.aim
  dsimp only
  rw [reachable_scale hk]
  simp only [mul_lt_mul_iff_right₀ hk, gt_iff_lt]
  split <;> split <;> rfl

theorem peak_scale (a b d : ℝ) : (scaled k g).peak (k * a) (k * b) d = k * g.peak a b d := by
  unfold Gen.peak
  have := bisect_scale hk (up := fun mid => g.accDist a mid + g.accDist mid b ≤ d)
    (up' := fun mid => (scaled k g).accDist (k * a) mid + (scaled k g).accDist mid (k * b) ≤ d)
    (fun m => by rw [accDist_scale hk, accDist_scale hk]) LOOP_COUNT (if a < b then b else a) g.vMax
  have e : (if k * a < k * b then k * b else k * a) = k * (if a < b then b else a) := by
    simp only [mul_lt_mul_iff_right₀ hk, mul_ite]
  rw [e]
  exact congrArg Prod.fst this

/-- The scaled calculator. -/
noncomputable def fastAcc (k : ℝ) (c : AccCalc) : AccCalc :=
  ⟨c.xStart, k * c.vStart, c.xEnd, k * c.vEnd, k * k * c.aM, k * k * k * c.jM, c.t1 / k, c.t2 / k, c.t3 / k⟩

theorem acceleration_scale (x a b : ℝ) : (scaled k g).acceleration x (k * a) (k * b) =
    (fastAcc k (g.acceleration x a b).1, (g.acceleration x a b).2 / k) := by
  unfold Gen.acceleration
  dsimp only
  rw [vd_scale hk, tc_scale hk, abs_scale hk]
  have e1 : (k * |b - a|) / (scaled k g).aMax = |b - a| / g.aMax / k := by
    simp only [scaled]
    by_cases h : g.aMax = 0
    · simp [h]
    · field_simp
  have e2 : Real.sqrt (k * |b - a| / (scaled k g).jMax) = Real.sqrt (|b - a| / g.jMax) / k := sqrt_scale hk _ _
  rw [e1, e2]
  by_cases h : |b - a| ≥ g.aMax * (g.aMax / g.jMax) <;> by_cases h2 : a ≤ b
  · rw [if_pos (mul_le_mul_of_nonneg_left h hk.le), if_pos h, if_pos (mul_le_mul_of_nonneg_left h2 hk.le), if_pos h2]
    simp only [fastAcc, scaled, Prod.mk.injEq, AccCalc.mk.injEq, true_and, and_true]
    refine ⟨⟨?_, ?_, ?_⟩, ?_⟩ <;> field_simp <;> ring
  · rw [if_pos (mul_le_mul_of_nonneg_left h hk.le), if_pos h, if_neg (by rwa [mul_le_mul_iff_right₀ hk]), if_neg h2]
    simp only [fastAcc, scaled, Prod.mk.injEq, AccCalc.mk.injEq, true_and, and_true]
    refine ⟨⟨?_, ?_, ?_, ?_, ?_⟩, ?_⟩ <;> field_simp <;> ring
  · rw [if_neg (by rw [ge_iff_le, mul_le_mul_iff_right₀ hk]; exact h), if_neg h, if_pos (mul_le_mul_of_nonneg_left h2 hk.le), if_pos h2]
    simp only [fastAcc, scaled, Prod.mk.injEq, AccCalc.mk.injEq, true_and, and_true]
    refine ⟨⟨?_, ?_⟩, ?_⟩ <;> field_simp <;> ring
  · rw [if_neg (by rw [ge_iff_le, mul_le_mul_iff_right₀ hk]; exact h), if_neg h, if_neg (by rwa [mul_le_mul_iff_right₀ hk]), if_neg h2]
    simp only [fastAcc, scaled, Prod.mk.injEq, AccCalc.mk.injEq, true_and, and_true]
    refine ⟨⟨?_, ?_, ?_, ?_⟩, ?_⟩ <;> field_simp <;> ring

theorem calc_acc (c : AccCalc) (t : ℝ) : (fastAcc k c).calculate t = fast k (c.calculate (k * t)) := by
  have hneg : t < 0 ↔ k * t < 0 := neg_scale hk t
  have hle (u : ℝ) : t ≤ u / k ↔ k * t ≤ u := by rw [le_div_iff₀ hk, mul_comm]
  unfold AccCalc.calculate
  simp only [fastAcc, hle]
  by_cases h0 : t < 0
  · rw [if_pos h0, if_pos (hneg.1 h0)]; simp [fast]
  rw [if_neg h0, if_neg fun h => h0 (hneg.2 h)]
  by_cases h1 : k * t ≤ c.t1
  · rw [if_pos h1, if_pos h1]
    simp only [fast, Axis.mk.injEq, true_and, and_true]
    refine ⟨?_, ?_, ?_⟩ <;> ring
  rw [if_neg h1, if_neg h1]
  by_cases h2 : k * t ≤ c.t2
  · rw [if_pos h2, if_pos h2]
    simp only [fast, Axis.mk.injEq, true_and, mul_zero, and_true]
    refine ⟨?_, ?_⟩ <;> field_simp
  rw [if_neg h2, if_neg h2]
  by_cases h3 : k * t ≤ c.t3
  · rw [if_pos h3, if_pos h3]
    simp only [fast, Axis.mk.injEq, true_and]
    refine ⟨?_, ?_, ?_, ?_⟩ <;> field_simp
  rw [if_neg h3, if_neg h3]
  simp [fast]

/-- The scaled calculator. -/
noncomputable def fastConst (k : ℝ) (c : ConstCalc) : ConstCalc := ⟨faster k c.tEnd, c.xStart, k * c.v⟩

theorem infOf_scale (s : ℝ) : F.infOf (k * s) = F.infOf s := by
  unfold F.infOf
  simp only [mul_pos_iff_of_pos_left hk, ← neg_scale hk s]

theorem lt_scale (E : F) (t : ℝ) : (faster k E).lt (.fin t) ↔ E.lt (.fin (k * t)) := by
  cases E <;> simp only [faster, F.lt]
  rw [div_lt_iff₀ hk, mul_comm]

theorem le_scale (E : F) (t : ℝ) : (F.fin t).le (faster k E) ↔ (F.fin (k * t)).le E := by
  cases E <;> simp only [faster, F.le]
  rw [le_div_iff₀ hk, mul_comm]

theorem constant_scale (x d v : ℝ) : constant x d (k * v) = (fastConst k (constant x d v).1, faster k (constant x d v).2) := by
  have hq : exact.div (.fin d) (.fin (k * v)) = faster k (exact.div (.fin d) (.fin v)) := by
    unfold Arith.div
    dsimp only
    by_cases h : v = 0
    · rw [if_pos (by rw [h, mul_zero]), if_pos h]
      unfold F.infOf
      split
      · rfl
      · split <;> rfl
    · rw [if_neg (mul_ne_zero hk.ne' h), if_neg h]
      show F.fin (d / (k * v)) = F.fin (d / v / k)
      congr 1
      field_simp
  have hz : F.lt (faster k (exact.div (.fin d) (.fin v))) (.fin 0) ↔ F.lt (exact.div (.fin d) (.fin v)) (.fin 0) := by
    rw [lt_scale hk, mul_zero]
  unfold constant
  dsimp only
  rw [hq]
  by_cases h : F.lt (exact.div (.fin d) (.fin v)) (.fin 0)
  · rw [if_pos (hz.2 h), if_pos h]
    simp [fastConst, faster]
  · rw [if_neg fun x => h (hz.1 x), if_neg h]
    rfl

theorem val_scale (E : F) : val (faster k E) = val E / k := by
  cases E <;> simp [faster, val]

theorem calc_const (c : ConstCalc) (t : ℝ) : (fastConst k c).calculate t = fast k (c.calculate (k * t)) := by
  have hneg : t < 0 ↔ k * t < 0 := neg_scale hk t
  unfold ConstCalc.calculate
  by_cases h : c.tEnd.lt (.fin (k * t)) ∨ k * t < 0
  · rw [if_pos h, if_pos (by rw [hneg]; exact h.imp_left (lt_scale hk _ _).2)]
    simp only [fastConst, fast, val_scale hk, mul_zero, Axis.mk.injEq, true_and, and_true]
    field_simp
  · rw [if_neg h, if_neg (by rw [hneg]; exact fun x => h (x.imp_left (lt_scale hk _ _).1))]
    simp only [fastConst, fast, mul_zero, Axis.mk.injEq, true_and, and_true]
    ring

theorem add_scale (E E' : F) : exact.add (faster k E) (faster k E') = faster k (exact.add E E') := by
  cases E <;> cases E' <;> simp only [faster, Arith.add]
  show F.fin _ = F.fin _
  congr 1
  field_simp

/-- The scaled calculator. -/
noncomputable def fastOverall (k : ℝ) (c : Overall) : Overall :=
  ⟨c.xStart, k * c.vStart, c.t1 / k, faster k c.t2, faster k c.t3, c.distance, k * c.vEnd, fastAcc k c.accel, fastConst k c.const, fastAcc k c.decel,
    c.sign⟩

theorem calc_overall (c : Overall) (t : ℝ) : (fastOverall k c).calculate t = fast k (c.calculate (k * t)) := by
  have hneg : t < 0 ↔ k * t < 0 := neg_scale hk t
  have hle (u : ℝ) : t ≤ u / k ↔ k * t ≤ u := by rw [le_div_iff₀ hk, mul_comm]
  have hu : (fastOverall k c).unsigned t = fast k (c.unsigned (k * t)) := by
    have e1 : t ≤ (fastOverall k c).t1 ↔ k * t ≤ c.t1 := hle c.t1
    have e2 : (F.fin t).le (fastOverall k c).t2 ↔ (F.fin (k * t)).le c.t2 := le_scale hk _ _
    have e3 : (F.fin t).le (fastOverall k c).t3 ↔ (F.fin (k * t)).le c.t3 := le_scale hk _ _
    unfold Overall.unsigned
    by_cases h0 : t < 0
    · rw [if_pos h0, if_pos (hneg.1 h0)]; simp [fast, fastOverall]
    rw [if_neg h0, if_neg fun h => h0 (hneg.2 h)]
    by_cases h1 : k * t ≤ c.t1
    · rw [if_pos (e1.2 h1), if_pos h1]; exact calc_acc hk _ _
    rw [if_neg fun h => h1 (e1.1 h), if_neg h1]
    by_cases h2 : (F.fin (k * t)).le c.t2
    · rw [if_pos (e2.2 h2), if_pos h2]
      refine (calc_const hk _ _).trans ?_
      congr 2; simp only [fastOverall]; field_simp
    rw [if_neg fun h => h2 (e2.1 h), if_neg h2]
    by_cases h3 : (F.fin (k * t)).le c.t3
    · rw [if_pos (e3.2 h3), if_pos h3]
      refine (calc_acc hk _ _).trans ?_
      congr 2; simp only [fastOverall, val_scale hk]; field_simp
    rw [if_neg fun h => h3 (e3.1 h), if_neg h3]
    simp [fast, fastOverall]
  unfold Overall.calculate
  dsimp only
  rw [hu]
  simp only [fast, fastOverall, Axis.mk.injEq, true_and]
  refine ⟨?_, ?_, ?_⟩ <;> ring

theorem generate_scale (x d a b : ℝ) : (scaled k g).generate x d (k * a) (k * b) =
    (fastOverall k (g.generate x d a b).1, faster k (g.generate x d a b).2.1, k * (g.generate x d a b).2.2) := by
  unfold Gen.generate
  rcases hd : (if d < 0 then (-d, (-1 : ℝ)) else (d, 1)) with ⟨d', sg⟩
  dsimp only
  rw [aim_scale hk, peak_scale hk]
  generalize g.aim a b d' = v
  generalize g.peak a v d' = p
  rw [show (if k * v < k * p then k * v else k * p) = k * (if v < p then v else p) by
    simp only [mul_lt_mul_iff_right₀ hk, mul_ite]]
  generalize (if v < p then v else p) = w
  rw [accDist_scale hk, accDist_scale hk, acceleration_scale hk, acceleration_scale hk, constant_scale hk]
  dsimp only
  rw [show F.fin ((g.acceleration x a p).2 / k) = faster k (.fin (g.acceleration x a p).2) from rfl,
    show F.fin ((g.acceleration (x + d' - g.accDist p w) p w).2 / k) = faster k (.fin (g.acceleration (x + d' - g.accDist p w) p w).2) from rfl,
    add_scale hk, add_scale hk]
  rfl

end Verif.ScaleP
