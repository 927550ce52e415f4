import Verif.Props.Ramp
/-!
# C116: the targets of the first trajectory and of a move ahead
-/
namespace Verif.Props
open Verif Verif.Control Verif.Straight Verif.Spec Verif.StraightP Verif.SearchDriver

theorem bisect_up {up : ℝ → Prop} (n : Nat) : ∀ {low high : ℝ}, low ≤ high → (∀ x, low ≤ x → x ≤ high → up x) →
    (bisect up n low high).1 = high - (high - low) / 2 ^ n := by
  induction n with
  | zero => intro low high h hu; simp [bisect]
  | succ n ih =>
    intro low high h hu
    unfold bisect
    dsimp only
    rw [if_pos (hu _ (by linarith) (by linarith)), ih (by linarith) fun x h1 h2 => hu x (by linarith) h2, pow_succ]
    field_simp
    ring

/-- The limits of the test. -/
noncomputable def searchGen : Gen := ⟨0.3, 10, 100⟩

theorem search_rampTime {x : ℝ} (h : x < 1) : rampTime searchGen.aMax searchGen.jMax x = 2 * Real.sqrt (x / 100) := by
  unfold rampTime searchGen
  dsimp only
  rw [if_neg (by norm_num; exact h)]

/-- The speed at the end of the first trajectory, the largest speed, and half the times of the changes of speed. -/
noncomputable def endSpeed : ℝ := 0.3 - 0.3 / 2 ^ 25
noncomputable def topSpeed : ℝ := 0.3 - 0.3 / 2 ^ 50
noncomputable def upTime : ℝ := Real.sqrt (topSpeed / 100)
noncomputable def downTime : ℝ := Real.sqrt ((topSpeed - endSpeed) / 100)

theorem endSpeed_lo : 0.3 - 9e-9 ≤ endSpeed := by unfold endSpeed; norm_num
theorem endSpeed_hi : endSpeed ≤ topSpeed := by unfold endSpeed topSpeed; norm_num
theorem topSpeed_hi : topSpeed ≤ 0.3 := by unfold topSpeed; norm_num
theorem topSpeed_has : ivPeak.Has topSpeed := by
  unfold ivPeak topSpeed Iv.Has
  norm_num
theorem upTime_has : ivTau.Has upTime := by
  unfold ivTau upTime topSpeed Iv.Has
  constructor
  · rw [← div_le_iff₀ (by norm_num)]
    refine Real.le_sqrt_of_sq_le ?_
    norm_num
  · rw [← le_div_iff₀ (by norm_num), Real.sqrt_le_left (by norm_num)]
    norm_num
theorem upTime_sq : upTime * upTime = topSpeed / 100 := Real.mul_self_sqrt (by have := endSpeed_lo; have := endSpeed_hi; linarith)
theorem downTime_sq : downTime * downTime = (topSpeed - endSpeed) / 100 := Real.mul_self_sqrt (by have := endSpeed_hi; linarith)
theorem downTime_nonneg : 0 ≤ downTime := Real.sqrt_nonneg _
theorem downTime_hi : downTime ≤ 0.0000095 := by
  unfold downTime topSpeed endSpeed
  rw [Real.sqrt_le_left (by norm_num)]
  norm_num
theorem upTime_lo : 0.0547 ≤ upTime := by
  have := upTime_has.1
  unfold ivTau at this
  norm_num at this ⊢
  linarith
theorem upTime_hi : upTime ≤ 0.0548 := by
  have := upTime_has.2
  unfold ivTau at this
  norm_num at this ⊢
  linarith

theorem searchGen_req : Spec.Request searchGen 0 0.3 := by
  constructor <;> norm_num [searchGen]

theorem search_rampDist_up {x : ℝ} (h0 : 0 ≤ x) (h1 : x ≤ 0.3) : rampDist searchGen 0 x ≤ 0.0165 := by
  unfold rampDist
  rw [sub_zero, abs_of_nonneg h0, search_rampTime (by linarith)]
  have : Real.sqrt (x / 100) ≤ 0.055 := by
    rw [Real.sqrt_le_left (by norm_num)]
    norm_num at h1 ⊢
    linarith
  have := Real.sqrt_nonneg (x / 100)
  nlinarith

theorem search_rampDist_down {x : ℝ} (h0 : endSpeed ≤ x) (h1 : x ≤ 0.3) : rampDist searchGen x endSpeed ≤ 0.00001 := by
  have h2 := endSpeed_lo
  unfold rampDist
  rw [abs_of_nonpos (by linarith), search_rampTime (by linarith)]
  have : Real.sqrt (-(endSpeed - x) / 100) ≤ 0.00001 := by
    rw [Real.sqrt_le_left (by norm_num)]
    norm_num at h1 h2 ⊢
    linarith
  have := Real.sqrt_nonneg (-(endSpeed - x) / 100)
  nlinarith

theorem first_plan {d : ℝ} (hd : 0.045 ≤ d) : ∃ rest tC, Plan searchGen 0 0.3 |d| endSpeed topSpeed rest (2 * upTime) tC (2 * downTime) := by
  have hd' : |d| = d := abs_of_nonneg (by linarith)
  obtain ⟨v, p, rest, tA, tC, tD, P⟩ := StraightP.plan searchGen_req d
  have hv : v = endSpeed := by
    rw [P.hv]
    have hr : searchGen.reachable 0 0.3 |d| = endSpeed := by
      unfold Gen.reachable
      rw [if_pos (by norm_num)]
      refine (bisect_up _ (by norm_num [searchGen]) fun x h1 h2 => ?_).trans ?_
      · have h2 : x ≤ 0.3 := h2
        have := search_rampDist_up h1 h2
        rw [accDist_eq, hd']
        linarith
      · unfold searchGen endSpeed LOOP_COUNT
        norm_num
    unfold Gen.aim
    dsimp only
    rw [if_pos (by norm_num), hr, if_pos (by unfold endSpeed; norm_num)]
  have h0 := endSpeed_lo
  have hp : p = topSpeed := by
    rw [P.hp, hv]
    unfold Gen.peak
    rw [if_pos (by linarith)]
    refine (bisect_up _ (by unfold endSpeed searchGen; norm_num) fun x h1 h2 => ?_).trans ?_
    · have h2 : x ≤ 0.3 := h2
      have e1 := search_rampDist_up (by linarith) h2
      have e2 := search_rampDist_down h1 h2
      rw [accDist_eq, accDist_eq, hd']
      linarith
    · unfold searchGen endSpeed topSpeed LOOP_COUNT
      norm_num
  have h1 := endSpeed_hi
  have h2 := topSpeed_hi
  have hA : tA = 2 * upTime := by
    rw [P.htA, hp, sub_zero, abs_of_nonneg (by linarith), search_rampTime (by linarith)]
    rfl
  have hD : tD = 2 * downTime := by
    rw [P.htD, hp, hv, abs_of_nonpos (by linarith), search_rampTime (by linarith), neg_sub]
    rfl
  rw [hv, hp, hA, hD] at P
  exact ⟨rest, tC, P⟩

theorem dist_up : rampDist searchGen 0 topSpeed = topSpeed * upTime := by
  have h0 := endSpeed_lo
  have h1 := endSpeed_hi
  have h2 := topSpeed_hi
  unfold rampDist
  rw [sub_zero, abs_of_nonneg (by linarith), search_rampTime (by linarith), zero_add]
  unfold upTime
  ring

theorem dist_down : rampDist searchGen topSpeed endSpeed = (topSpeed + endSpeed) * downTime := by
  have h0 := endSpeed_lo
  have h1 := endSpeed_hi
  have h2 := topSpeed_hi
  unfold rampDist
  rw [abs_of_nonpos (by linarith), search_rampTime (by linarith), neg_sub]
  unfold downTime
  ring

/-- The acceleration of the start. -/
theorem acc_up (t : ℝ) (h0 : 0 ≤ t) (h1 : t ≤ 2 * upTime) : ∃ j, (searchGen.acceleration 0 0 topSpeed).1.calculate t =
    if t ≤ upTime then ⟨100 * t ^ 3 / 6, 50 * t ^ 2, 100 * t, j⟩ else
      ⟨topSpeed * upTime - topSpeed * (2 * upTime - t) + 100 / 6 * ((2 * upTime - t) * (2 * upTime - t) * (2 * upTime - t)),
        topSpeed - 50 * ((2 * upTime - t) * (2 * upTime - t)), 100 * (2 * upTime - t), j⟩ := by
  have e0 := endSpeed_lo
  have e1 := endSpeed_hi
  have e2 := topSpeed_hi
  have hu : Real.sqrt (|topSpeed - 0| / searchGen.jMax) = upTime := by
    rw [sub_zero, abs_of_nonneg (by linarith)]; rfl
  have hacc : (searchGen.acceleration 0 0 topSpeed).1 =
      ⟨0, 0, 0 + (0 + topSpeed) * (2 * upTime) / 2, topSpeed, 10, 100, upTime, upTime, 2 * upTime⟩ := by
    unfold Gen.acceleration
    dsimp only
    rw [if_neg (by rw [sub_zero, abs_of_nonneg (by linarith)]; unfold searchGen; norm_num; linarith), hu, if_pos (by linarith)]
    rfl
  rw [hacc]
  unfold AccCalc.calculate
  dsimp only
  rw [if_neg (by linarith)]
  split
  · exact ⟨100, by simp only [Axis.mk.injEq]; refine ⟨by ring, by ring, ?_⟩; simp⟩
  · exact ⟨-100, by simp only [Axis.mk.injEq]; refine ⟨by ring, by ring, ?_⟩; simp⟩

/-- The acceleration at the end of the first trajectory hardly matters. -/
theorem acc_down (x t : ℝ) : |((searchGen.acceleration x topSpeed endSpeed).1.calculate t).a| ≤ 0.001 := by
  have e0 := endSpeed_lo
  have e1 := endSpeed_hi
  have e2 := topSpeed_hi
  have hne : endSpeed < topSpeed := by unfold endSpeed topSpeed; norm_num
  have hu : Real.sqrt (|endSpeed - topSpeed| / searchGen.jMax) = downTime := by
    rw [abs_of_nonpos (by linarith), neg_sub]; rfl
  have hd := downTime_hi
  have hacc : (searchGen.acceleration x topSpeed endSpeed).1 =
      ⟨x, topSpeed, x + (topSpeed + endSpeed) * (2 * downTime) / 2, endSpeed, -10, -100, downTime, downTime, 2 * downTime⟩ := by
    unfold Gen.acceleration
    dsimp only
    rw [if_neg (by rw [abs_of_nonpos (by linarith)]; unfold searchGen; norm_num; linarith), hu, if_neg (by linarith)]
    rfl
  rw [hacc]
  unfold AccCalc.calculate
  dsimp only
  split
  · simp; norm_num
  split
  · rw [abs_le]; norm_num at hd ⊢; constructor <;> linarith
  split
  · rw [abs_le]; norm_num at hd ⊢; constructor <;> linarith
  · simp; norm_num

/-! ## The first trajectory -/

structure FirstTimes (d tC : ℝ) : Prop where
  way : topSpeed * upTime + topSpeed * tC + (topSpeed + endSpeed) * downTime = d
  long : 0.204 ≤ 2 * upTime + tC
  short : 2 * upTime + tC + 2 * downTime ≤ 0.24

theorem first_samples {d : ℝ} (hd : 0.045 ≤ d) (hd' : d ≤ 0.055) : ∃ tC, FirstTimes d tC ∧
    (searchGen.generate 0 d 0 0.3).2.1 = .fin (2 * upTime + tC + 2 * downTime) ∧
    (∀ n : Nat, n * 0.001 ≤ 2 * upTime + tC → ∃ j, (searchGen.generate 0 d 0 0.3).1.calculate (n * 0.001) =
      ⟨(rampAt upTime topSpeed n).1, (rampAt upTime topSpeed n).2.1, (rampAt upTime topSpeed n).2.2, j⟩) ∧
    ∀ t, 2 * upTime + tC < t → t ≤ 2 * upTime + tC + 2 * downTime → ∃ x v a j, (searchGen.generate 0 d 0 0.3).1.calculate t = ⟨x, v, a, j⟩ ∧
      endSpeed ≤ v ∧ v ≤ topSpeed ∧ |a| ≤ 0.001 ∧ d - (topSpeed + endSpeed) * downTime ≤ x ∧ x ≤ d := by
  have e0 := endSpeed_lo
  have e1 := endSpeed_hi
  have e2 := topSpeed_hi
  have u0 := upTime_lo
  have u1 := upTime_hi
  have d0 := downTime_nonneg
  have d1 := downTime_hi
  obtain ⟨rest, tC, P⟩ := first_plan hd
  have hpos : 0 < topSpeed := by linarith
  have habs : |d| = d := abs_of_nonneg (by linarith)
  have hrest : rest = d - topSpeed * upTime - (topSpeed + endSpeed) * downTime := by rw [P.hrest, dist_up, dist_down, habs]
  have m1 : topSpeed * upTime ≤ 0.3 * 0.0548 := mul_le_mul e2 u1 (by linarith) (by norm_num)
  have m2 : (0.3 - 9e-9) * 0.0547 ≤ topSpeed * upTime := mul_le_mul (by linarith) u0 (by norm_num) hpos.le
  have m3 : (topSpeed + endSpeed) * downTime ≤ 0.6 * 0.0000095 := mul_le_mul (by linarith) d1 d0 (by norm_num)
  have m4 : 0 ≤ (topSpeed + endSpeed) * downTime := mul_nonneg (by linarith) d0
  have hr0 : 0.0285 ≤ rest := by rw [hrest]; norm_num at m1 m3 ⊢; linarith
  have hr1 : rest ≤ 0.039 := by rw [hrest]; norm_num at m2 ⊢; linarith
  have hC : tC = rest / topSpeed := by rw [P.htC, max_eq_right (div_nonneg (by linarith) hpos.le)]
  have hC' : topSpeed * tC = rest := by rw [hC]; field_simp
  have hC0 : 0.095 ≤ tC := by
    rw [hC, le_div_iff₀ hpos]
    linarith
  have hC1 : tC ≤ 0.1301 := by
    rw [hC, div_le_iff₀ hpos]
    norm_num at e0 e1 hr1 ⊢
    linarith
  obtain ⟨f1, f2⟩ := StraightP.finite P hpos 0
  have hdir : direction d = 1 := by unfold direction; rw [if_neg (by linarith)]
  have hcalc : ∀ t, (searchGen.generate 0 d 0 0.3).1.calculate t = U searchGen 0 0 |d| endSpeed topSpeed (2 * upTime) tC (2 * downTime) t := by
    intro t
    rw [calc_eq searchGen_req, f2, hdir]
    simp
  refine ⟨tC, ⟨by rw [hC', hrest]; ring, by linarith, by norm_num at d1 hC1 u1 ⊢; linarith⟩, by rw [f1], ?_, ?_⟩
  · intro n hn
    rw [hcalc]
    have hn0 : (0 : ℝ) ≤ n := n.cast_nonneg
    unfold U rampAt
    rw [if_neg (by linarith)]
    by_cases h1 : (n : ℝ) * 0.001 ≤ 2 * upTime
    · rw [if_pos h1]
      obtain ⟨j, hj⟩ := acc_up (n * 0.001) (by linarith) h1
      refine ⟨j, hj.trans ?_⟩
      have hk : n ≤ 109 := by
        by_contra h
        have : (110 : ℝ) ≤ n := by exact_mod_cast (by omega : 110 ≤ n)
        linarith
      rw [if_pos hk]
      by_cases h2 : n ≤ 54
      · have : (n : ℝ) ≤ 54 := by exact_mod_cast h2
        rw [if_pos h2, if_pos (by linarith)]
        simp only [Axis.mk.injEq, and_true]
        refine ⟨by norm_num; ring, by norm_num; ring, by norm_num; ring⟩
      · have : (55 : ℝ) ≤ n := by exact_mod_cast (by omega : 55 ≤ n)
        rw [if_neg h2, if_neg (by norm_num at u1 ⊢; linarith), show (n : ℝ) * 0.001 = n / 1000 by norm_num; ring]
    · rw [if_neg h1, if_pos hn, dist_up]
      have hk : 110 ≤ n := by
        by_contra h
        have : (n : ℝ) ≤ 109 := by exact_mod_cast (by omega : n ≤ 109)
        norm_num at u0 h1
        linarith
      rw [if_neg (by omega), if_neg (by omega)]
      refine ⟨0, ?_⟩
      rw [show (n : ℝ) * 0.001 = n / 1000 by norm_num; ring, zero_add]
  · intro t h1 h2
    have hfin : rampDist searchGen 0 (searchGen.generate 0 d 0 0.3).2.2 ≤ |d| := by
      rw [f1, habs]
      have := search_rampDist_up (x := endSpeed) (by linarith) (by linarith)
      linarith
    obtain ⟨g1, g2⟩ := C43_monotone searchGen_req 0 d hfin
    have g1 := g1 (2 * upTime + tC) t h1.le
    have g2 := (g2 t).2
    rw [hdir, one_mul, sub_zero, habs] at g2
    rw [hdir, one_mul, one_mul] at g1
    have hx : ((searchGen.generate 0 d 0 0.3).1.calculate (2 * upTime + tC)).x = d - (topSpeed + endSpeed) * downTime := by
      rw [hcalc]
      unfold U
      rw [if_neg (by linarith), if_neg (by linarith), if_pos le_rfl, dist_up]
      dsimp only
      rw [add_sub_cancel_left, hC', hrest]
      ring
    rw [hx] at g1
    have hc : (searchGen.generate 0 d 0 0.3).1.calculate t =
        (searchGen.acceleration (0 + |d| - rampDist searchGen topSpeed endSpeed) topSpeed endSpeed).1.calculate (t - (2 * upTime + tC)) := by
      rw [hcalc]
      unfold U
      rw [if_neg (by linarith), if_neg (by linarith), if_neg (by linarith), if_pos h2]
    obtain ⟨k, -, k3, k4, -⟩ := accD P (0 + |d| - rampDist searchGen topSpeed endSpeed)
    have kb := acc_bounds k (t - (2 * upTime + tC)) (lo := endSpeed) (hi := topSpeed) (by rw [k3]; exact e1) (by rw [k4]) (by rw [k3]) (by rw [k4]; exact e1)
    have ka := acc_down (0 + |d| - rampDist searchGen topSpeed endSpeed) (t - (2 * upTime + tC))
    rw [← hc] at ka kb
    generalize (searchGen.generate 0 d 0 0.3).1.calculate t = z at *
    exact ⟨z.x, z.v, z.a, z.j, rfl, kb.1.1, kb.1.2, ka, g1, g2⟩

/-! ## Driving along -/

/-- From a place `y0`, with speed `v0`, of the targets, and a deviation `o`, the targets `l` can be followed without a problem, up to the place `E`. -/
inductive Glide (x E : ℝ) : ℝ → ℝ → Off → List Target → Prop
  | nil {y0 v0 : ℝ} {o : Off} : E - 0.0003 ≤ y0 → y0 ≤ E → 0.3 - 1e-8 ≤ v0 → v0 ≤ 0.3 → o.size ≤ 3.2e-7 → Glide x E y0 v0 o []
  | cons {y0 v0 : ℝ} {o : Off} (fast : Bool) (y v a j : ℝ) {l : List Target} : SmoothRound o fast ⟨v, a, v - v0, y - y0 - 0.001 * v⟩ →
      Glide x E y v (o.next fast ⟨v, a, v - v0, y - y0 - 0.001 * v⟩) l → Glide x E y0 v0 o (onLane x y v a j :: l)

theorem fast_smooth {o : Off} {c : Change} (h : o.size ≤ 9e-7) (h' : (o.next true c).size ≤ 9e-7) (hv : 0.29 ≤ c.v) (hv' : c.v ≤ 0.31)
    (ha : |c.a| ≤ 0.002) (hd : |c.dv| ≤ 0.001) : SmoothRound o true c := by
  obtain ⟨h1, h2, h3, h4⟩ := close o c h h' hv hv' ha hd
  exact ⟨⟨h1, h2⟩, h3, h4⟩

/-! ## A move ahead -/

/-- The targets of a move ahead that starts at `Y`. -/
noncomputable def aheadAt (x Y : ℝ) (n : Nat) (jerk : ℝ) : Target := onLane x (Y + 0.3 * (n * 0.001)) 0.3 0 jerk

theorem ahead_rest (x Y : ℝ) (f : Nat → Target) (hf : ∀ n, n ≤ 300 → ∃ jerk, f n = aheadAt x Y n jerk) : ∀ (k j : Nat) (o : Off), j + k = 300 →
    o.size ≤ 0.9982 ^ (2 * j) * 9e-7 → Glide x (Y + 0.09) (Y + 0.3 * (j * 0.001)) 0.3 o ((List.range' (j + 1) k).map f)
  | 0, j, o, h, ho => by
    obtain rfl : j = 300 := by omega
    refine .nil (by norm_num) (by norm_num) (by norm_num) le_rfl (ho.trans ?_)
    have h1 : (0.9982 : ℝ) ^ 200 ≤ 0.7 := by norm_num
    have h2 : (0.9982 : ℝ) ^ (2 * 300) ≤ 0.7 ^ 3 := by
      rw [show 2 * 300 = 200 * 3 from rfl, pow_mul]
      exact pow_le_pow_left₀ (by positivity) h1 3
    exact (mul_le_mul_of_nonneg_right h2 (by norm_num)).trans (by norm_num)
  | k + 1, j, o, h, ho => by
    rw [List.range'_succ, List.map_cons]
    have hsm : o.size ≤ 9e-7 := ho.trans (by
      have : (0.9982 : ℝ) ^ (2 * j) ≤ 1 := pow_le_one₀ (by norm_num) (by norm_num)
      linarith)
    have ec : (⟨0.3, 0, 0.3 - 0.3, Y + 0.3 * ((j + 1 : Nat) * 0.001) - (Y + 0.3 * (j * 0.001)) - 0.001 * 0.3⟩ : Change) = .steady 0.3 := by
      simp only [Change.steady, Change.mk.injEq, true_and]
      push_cast
      exact ⟨by ring, by ring⟩
    have hnx : (o.next true (.steady 0.3)).size ≤ 0.9982 ^ (2 * (j + 1)) * 9e-7 := by
      refine (size_steady o 0.3).trans ?_
      rw [show 2 * (j + 1) = 2 + 2 * j by ring, pow_add, mul_assoc]
      exact mul_le_mul_of_nonneg_left ho (by positivity)
    obtain ⟨jerk, hj⟩ := hf (j + 1) (by omega)
    rw [hj]
    refine .cons true _ 0.3 0 jerk ?_ ?_
    · rw [ec]
      refine fast_smooth hsm (hnx.trans ?_) (by norm_num [Change.steady]) (by norm_num [Change.steady]) (by norm_num [Change.steady]) (by norm_num [Change.steady])
      have : (0.9982 : ℝ) ^ (2 * (j + 1)) ≤ 1 := pow_le_one₀ (by norm_num) (by norm_num)
      linarith
    · rw [ec]
      exact ahead_rest x Y f hf k (j + 1) _ (by omega) hnx

/-- A move ahead can be followed after what ends at its start. -/
theorem ahead_glide (x : ℝ) {Y y0 v0 : ℝ} {o : Off} (f : Nat → Target) (hf : ∀ n, n ≤ 300 → ∃ jerk, f n = aheadAt x Y n jerk) (h1 : Y - 0.0003 ≤ y0) (h2 : y0 ≤ Y) (h3 : 0.3 - 1e-8 ≤ v0) (h4 : v0 ≤ 0.3) (ho : o.size ≤ 3.2e-7) :
    Glide x (Y + 0.09) y0 v0 o ((List.range 301).map f) := by
  rw [List.range_eq_range', List.range'_succ, List.map_cons]
  obtain ⟨jerk, hj⟩ := hf 0 (by omega)
  rw [hj]
  have h0 := size_nonneg o
  have hn : (o.next true ⟨0.3, 0, 0.3 - v0, Y + 0.3 * ((0 : Nat) * 0.001) - y0 - 0.001 * 0.3⟩).size ≤ 9e-7 := by
    refine (size_next o _ (s := 0.6) (by norm_num)).trans ?_
    dsimp only
    have e1 : (Y + 0.3 * ((0 : Nat) * 0.001) - y0 - 0.001 * 0.3) ^ 2 ≤ 0.0003 ^ 2 := by
      refine sq_le_sq' ?_ ?_ <;> norm_num at * <;> linarith
    have e2 : (0.3 - v0) ^ 2 ≤ (1e-8) ^ 2 := by
      refine sq_le_sq' ?_ ?_ <;> norm_num at * <;> linarith
    norm_num at e1 e2 ho ⊢
    linarith
  refine .cons true _ 0.3 0 jerk (fast_smooth (ho.trans (by norm_num)) hn (by norm_num) (by norm_num) (by norm_num) ?_) ?_
  · rw [abs_le]; constructor <;> norm_num at * <;> linarith
  · exact ahead_rest x Y f hf 300 0 _ rfl (by simpa using hn)

/-! ## The first trajectory can be followed -/

/-- A target of the first trajectory that starts at `Y`. -/
noncomputable def firstAt (x Y : ℝ) (n : Nat) (j : ℝ) : Target :=
  onLane x (Y + (rampAt upTime topSpeed n).1) (rampAt upTime topSpeed n).2.1 (rampAt upTime topSpeed n).2.2 j

theorem first_small : ∀ n, 201 ≤ n → (rampOff upTime topSpeed n).size ≤ 1e-7 := by
  intro n hn
  induction n, hn using Nat.le_induction with
  | base => exact (ramp_good topSpeed_has upTime_has).2
  | succ n hn ih =>
    rw [rampOff, ramp_steady _ _ (by omega), decide_eq_true (by omega)]
    refine (size_steady _ _).trans ?_
    have := size_nonneg (rampOff upTime topSpeed n)
    norm_num at ih ⊢
    linarith

theorem first_smooth (n : Nat) : SmoothRound (rampOff upTime topSpeed n) (decide (65 ≤ n)) (rampChange upTime topSpeed n) := by
  by_cases h : n < 201
  · exact (ramp_good topSpeed_has upTime_has).1 n h
  · have e0 := endSpeed_lo
    have e1 := endSpeed_hi
    have e2 := topSpeed_hi
    have h1 := first_small n (by omega)
    have h2 := first_small (n + 1) (by omega)
    rw [rampOff, ramp_steady _ _ (by omega), decide_eq_true (by omega)] at h2
    rw [ramp_steady _ _ (by omega), decide_eq_true (by omega)]
    exact fast_smooth (h1.trans (by norm_num)) (h2.trans (by norm_num)) (by unfold Change.steady; linarith) (by unfold Change.steady; linarith)
      (by norm_num [Change.steady]) (by norm_num [Change.steady])

theorem first_go {x E Y : ℝ} {l : List Target} (f : Nat → Target) : ∀ (k n : Nat), (∀ i, n ≤ i → i < n + k → ∃ j, f i = firstAt x Y i j) →
    Glide x E (Y + (rampAt upTime topSpeed (n + k - 1)).1) (rampAt upTime topSpeed (n + k - 1)).2.1 (rampOff upTime topSpeed (n + k)) l →
    Glide x E (Y + (rampAt upTime topSpeed (n - 1)).1) (rampAt upTime topSpeed (n - 1)).2.1 (rampOff upTime topSpeed n) ((List.range' n k).map f ++ l)
  | 0, n, _, h => h
  | k + 1, n, hf, h => by
    rw [List.range'_succ, List.map_cons, List.cons_append]
    obtain ⟨j, hj⟩ := hf n le_rfl (by omega)
    rw [hj]
    have ec : (⟨(rampAt upTime topSpeed n).2.1, (rampAt upTime topSpeed n).2.2, (rampAt upTime topSpeed n).2.1 - (rampAt upTime topSpeed (n - 1)).2.1,
        Y + (rampAt upTime topSpeed n).1 - (Y + (rampAt upTime topSpeed (n - 1)).1) - 0.001 * (rampAt upTime topSpeed n).2.1⟩ : Change) =
        rampChange upTime topSpeed n := by
      unfold rampChange
      simp only [Change.mk.injEq, true_and]
      ring
    refine .cons (decide (65 ≤ n)) _ _ _ j ?_ ?_
    · rw [ec]; exact first_smooth n
    · rw [ec]
      exact first_go f k (n + 1) (fun i h1 h2 => hf i (by omega) (by omega)) (by rwa [show n + 1 + k = n + (k + 1) by omega])

theorem rampAt_late {n : Nat} (h : 110 ≤ n) : rampAt upTime topSpeed n = (topSpeed * upTime + topSpeed * (n / 1000 - 2 * upTime), topSpeed, 0) := by
  unfold rampAt
  rw [if_neg (by omega), if_neg (by omega)]

/-- The first trajectory can be followed from rest. -/
theorem first_glide (x Y : ℝ) {d : ℝ} (hd : 0.045 ≤ d) (hd' : d ≤ 0.055) {r : ℝ} (hr : (searchGen.generate 0 d 0 0.3).2.1 = .fin r) (f : Nat → Target)
    (hf : ∀ n : Nat, let s := (searchGen.generate 0 d 0 0.3).1.calculate (n * 0.001); f n = onLane x (Y + s.x) s.v s.a s.j) :
    Glide x (Y + d) Y 0 ⟨0, 0, 0, 0, 0⟩ ((List.range (⌊r / 0.001⌋₊ + 1)).map f) := by
  have e0 := endSpeed_lo
  have e1 := endSpeed_hi
  have e2 := topSpeed_hi
  have u0 := upTime_lo
  have u1 := upTime_hi
  have d0 := downTime_nonneg
  have d1 := downTime_hi
  obtain ⟨tC, ⟨w1, w2, w3⟩, k1, k2, k3⟩ := first_samples hd hd'
  rw [hr] at k1
  obtain rfl : r = 2 * upTime + tC + 2 * downTime := by simpa using k1
  set r := 2 * upTime + tC + 2 * downTime with hrr
  have hN : (⌊r / 0.001⌋₊ : ℝ) * 0.001 ≤ r := by
    rw [← le_div_iff₀ (by norm_num)]
    exact Nat.floor_le (div_nonneg (by linarith) (by norm_num))
  have hN' : r < (⌊r / 0.001⌋₊ + 1 : ℝ) * 0.001 := by
    rw [← div_lt_iff₀ (by norm_num)]
    exact Nat.lt_floor_add_one _
  generalize ⌊r / 0.001⌋₊ = N at *
  have m3 : (topSpeed + endSpeed) * downTime ≤ 0.6 * 0.0000095 := mul_le_mul (by linarith) d1 d0 (by norm_num)
  have m4 : 0 ≤ (topSpeed + endSpeed) * downTime := mul_nonneg (by linarith) d0
  have m5 : (topSpeed + endSpeed) * downTime ≤ topSpeed * (2 * downTime) := by nlinarith
  have hbig : 203 ≤ N := by
    by_contra h
    have : (N : ℝ) ≤ 202 := by exact_mod_cast (by omega : N ≤ 202)
    norm_num at hN' w2
    linarith
  have hz : ∀ t, (rampAt upTime topSpeed 0).1 = 0 ∧ (rampAt upTime topSpeed 0).2.1 = t * 0 := by
    intro t; unfold rampAt; simp
  have samples : ∀ n : Nat, (n : ℝ) * 0.001 ≤ 2 * upTime + tC → ∃ j, f n = firstAt x Y n j := by
    intro n hn
    obtain ⟨j, hj⟩ := k2 n hn
    have := hf n
    dsimp only at this
    rw [hj] at this
    exact ⟨j, this⟩
  rw [List.range_eq_range']
  by_cases hlast : (N : ℝ) * 0.001 ≤ 2 * upTime + tC
  · have := first_go (x := x) (E := Y + d) (Y := Y) (l := []) f (N + 1) 0 (fun i _ hi => samples i (by
      have : (i : ℝ) ≤ N := by exact_mod_cast (by omega : i ≤ N)
      linarith)) (by
        rw [show 0 + (N + 1) - 1 = N by omega, rampAt_late (by omega)]
        dsimp only
        have hm : topSpeed * (r - N / 1000) ≤ 0.3 * 0.001 := by
          refine mul_le_mul e2 ?_ ?_ (by norm_num) <;> norm_num at hN hN' ⊢ <;> linarith
        refine .nil ?_ ?_ (by linarith) e2 ((first_small _ (by omega)).trans (by norm_num))
        · rw [← w1]
          have : topSpeed * (r - N / 1000) = topSpeed * (2 * upTime) + topSpeed * tC + topSpeed * (2 * downTime) - topSpeed * (N / 1000) := by rw [hrr]; ring
          norm_num at this hm ⊢
          linarith
        · rw [← w1]
          have : topSpeed * (N / 1000) ≤ topSpeed * (2 * upTime + tC) := mul_le_mul_of_nonneg_left (by norm_num at hlast ⊢; linarith) (by linarith)
          linarith)
    simpa [hz 0, rampOff] using this
  · have hprev : ((N - 1 : Nat) : ℝ) * 0.001 ≤ 2 * upTime + tC := by
      rw [Nat.cast_sub (by omega)]
      norm_num at hN d1 ⊢
      linarith
    obtain ⟨xx, v, a, j, q1, q2, q3, q4, q5, q6⟩ := k3 (N * 0.001) (by linarith) hN
    have hfN : f N = onLane x (Y + xx) v a j := by
      have := hf N
      dsimp only at this
      rwa [q1] at this
    have hl : (List.range' 0 (N + 1)).map f = (List.range' 0 N).map f ++ [f N] := by
      rw [List.range'_concat, List.map_append]; simp
    rw [hl]
    have hNr : ((N - 1 : Nat) : ℝ) = N - 1 := by rw [Nat.cast_sub (by omega)]; simp
    have := first_go (x := x) (E := Y + d) (Y := Y) (l := [f N]) f N 0 (fun i _ hi => samples i (by
      have : (i : ℝ) ≤ (N - 1 : Nat) := by exact_mod_cast (by omega : i ≤ N - 1)
      linarith)) (by
        rw [zero_add, rampAt_late (by omega), hfN]
        dsimp only
        have hfar : |Y + xx - (Y + (topSpeed * upTime + topSpeed * (((N - 1 : Nat) : ℝ) / 1000 - 2 * upTime))) - 0.001 * v| ≤ 0.00001 := by
          have p1 : topSpeed * (N / 1000 - 2 * upTime - tC) ≤ 0.3 * (2 * 0.0000095) := by
            refine mul_le_mul e2 ?_ ?_ (by norm_num) <;> norm_num at hN hlast d1 ⊢ <;> linarith
          have p2 : 0 ≤ topSpeed * (N / 1000 - 2 * upTime - tC) := mul_nonneg (by linarith) (by norm_num at hlast ⊢; linarith)
          have : Y + xx - (Y + (topSpeed * upTime + topSpeed * (((N - 1 : Nat) : ℝ) / 1000 - 2 * upTime))) - 0.001 * v =
              (xx - (d - (topSpeed + endSpeed) * downTime)) - topSpeed * (N / 1000 - 2 * upTime - tC) + 0.001 * (topSpeed - v) := by
            rw [hNr, ← w1]; ring
          rw [this, abs_le]
          norm_num at p1 m3 e0 ⊢
          constructor <;> linarith
        have hdv : |v - topSpeed| ≤ 1e-8 := by rw [abs_le]; constructor <;> norm_num at e0 ⊢ <;> linarith
        have hsm := first_small N (by omega)
        have hnx : ((rampOff upTime topSpeed N).next true ⟨v, a, v - topSpeed,
            Y + xx - (Y + (topSpeed * upTime + topSpeed * (((N - 1 : Nat) : ℝ) / 1000 - 2 * upTime))) - 0.001 * v⟩).size ≤ 3.2e-7 := by
          refine (size_next _ _ (s := 0.01) (by norm_num)).trans ?_
          dsimp only
          have s1 := pow_le_pow_left₀ (abs_nonneg _) hfar 2
          have s2 := pow_le_pow_left₀ (abs_nonneg _) hdv 2
          have s3 := pow_le_pow_left₀ (abs_nonneg _) q4 2
          rw [sq_abs] at s1 s2 s3
          generalize (Y + xx - (Y + (topSpeed * upTime + topSpeed * (((N - 1 : Nat) : ℝ) / 1000 - 2 * upTime))) - 0.001 * v) ^ 2 = z1 at s1 ⊢
          generalize (v - topSpeed) ^ 2 = z2 at s2 ⊢
          generalize a ^ 2 = z3 at s3 ⊢
          norm_num at s1 s2 s3 hsm ⊢
          linarith
        refine .cons true _ v a j (fast_smooth (hsm.trans (by norm_num)) (hnx.trans (by norm_num)) (by dsimp only; linarith) (by dsimp only; linarith)
          (by dsimp only; linarith) (by dsimp only; linarith)) ?_
        refine .nil ?_ ?_ (by linarith) (by linarith) hnx
        · norm_num at m3 ⊢; linarith
        · linarith)
    simpa [hz 0, rampOff] using this

/-! ## What the iterators return -/

/-- A sample of a straight, shifted to a pose that faces north. -/
theorem shift_north (x Y : ℝ) (s : Axis) : shift .real ⟨x, Y, Real.pi / 2⟩ ⟨s, .zero, .zero⟩ = onLane x (Y + s.x) s.v s.a s.j := by
  unfold shift onLane Axis.zero
  simp [Trig.real, add_comm]

theorem straight_produces {vs ve : ℝ} (h : Spec.Request searchGen vs ve) {d r x Y : ℝ} (hr : (searchGen.generate 0 d vs ve).2.1 = .fin r) :
    Produces (shiftNext .real ⟨x, Y, Real.pi / 2⟩ (Move.next .real)) (.straight (straightGenerate searchGen 0.001 d vs ve).1)
      ((List.range (⌊r / 0.001⌋₊ + 1)).map fun n : Nat =>
        let s := (searchGen.generate 0 d vs ve).1.calculate (n * 0.001)
        onLane x (Y + s.x) s.v s.a s.j) := by
  have h1 : Produces Straight.next (straightGenerate searchGen 0.001 d vs ve).1
      ((List.range (⌊r / 0.001⌋₊ + 1)).map fun n : Nat => ⟨(searchGen.generate 0 d vs ve).1.calculate (n * 0.001), .zero, .zero⟩) := by
    intro n
    rw [(C44_generated h d r 0.001 (by norm_num) hr n).1]
    refine List.map_congr_left fun k _ => ?_
    by_cases hk : k < ⌊r / 0.001⌋₊ + 1
    · rw [if_pos hk]; simp [hk]
    · rw [if_neg hk]; simp; omega
  have h2 := produces_shift (fun n => (move_straight .real n _).trans (h1 n)) ⟨x, Y, Real.pi / 2⟩
  rw [List.map_map] at h2
  have e : (shift .real ⟨x, Y, Real.pi / 2⟩ ∘ fun n : Nat => (⟨(searchGen.generate 0 d vs ve).1.calculate (n * 0.001), .zero, .zero⟩ : Target)) =
      fun n : Nat => let s := (searchGen.generate 0 d vs ve).1.calculate (n * 0.001); onLane x (Y + s.x) s.v s.a s.j := by
    funext n
    exact shift_north x Y _
  rwa [e] at h2

/-- The last target but one is not far from the end. -/
def Ends (E : ℝ) (l : List Target) : Prop := ∀ l0 t t2, l = l0 ++ [t, t2] → E - 0.00061 ≤ t.y.x ∧ t.y.x ≤ E

theorem Ends.tail {E : ℝ} {t : Target} {l : List Target} (h : Ends E (t :: l)) : Ends E l := fun l0 u u2 e => h (t :: l0) u u2 (by rw [e]; rfl)

theorem ends_range {E : ℝ} (f : Nat → Target) {n : Nat} (hn : 2 ≤ n) (h : E - 0.00061 ≤ (f (n - 2)).y.x ∧ (f (n - 2)).y.x ≤ E) :
    Ends E ((List.range n).map f) := by
  intro l0 t t2 e
  obtain ⟨m, rfl⟩ : ∃ m, n = m + 2 := ⟨n - 2, by omega⟩
  rw [List.range_succ, List.range_succ, List.map_append, List.map_append, List.append_assoc] at e
  have := (List.append_inj' e (by simp)).2
  simp only [List.map_cons, List.map_nil, List.cons_append, List.nil_append, List.cons.injEq] at this
  rw [← this.1]
  exact h

theorem first_leg (x Y : ℝ) {d : ℝ} (hd : 0.045 ≤ d) (hd' : d ≤ 0.055) : ∃ l,
    Produces (shiftNext .real ⟨x, Y, Real.pi / 2⟩ (Move.next .real)) (.straight (straightGenerate searchGen 0.001 d 0 0.3).1) l ∧
    Glide x (Y + d) Y 0 ⟨0, 0, 0, 0, 0⟩ l ∧ Ends (Y + d) l ∧ 2 ≤ l.length := by
  have e0 := endSpeed_lo
  have e1 := endSpeed_hi
  have e2 := topSpeed_hi
  have d0 := downTime_nonneg
  have d1 := downTime_hi
  obtain ⟨tC, ⟨w1, w2, w3⟩, hr, hs, -⟩ := first_samples hd hd'
  refine ⟨_, straight_produces searchGen_req hr, first_glide x Y hd hd' hr _ fun n => rfl, ?_⟩
  set r := 2 * upTime + tC + 2 * downTime with hrr
  have hN : (⌊r / 0.001⌋₊ : ℝ) * 0.001 ≤ r := by
    rw [← le_div_iff₀ (by norm_num)]
    exact Nat.floor_le (div_nonneg (by linarith) (by norm_num))
  have hN' : r < (⌊r / 0.001⌋₊ + 1 : ℝ) * 0.001 := by
    rw [← div_lt_iff₀ (by norm_num)]
    exact Nat.lt_floor_add_one _
  generalize ⌊r / 0.001⌋₊ = N at *
  have hbig : 203 ≤ N := by
    by_contra h
    have : (N : ℝ) ≤ 202 := by exact_mod_cast (by omega : N ≤ 202)
    norm_num at hN' w2
    linarith
  refine ⟨ends_range _ (by omega) ?_, by simp; omega⟩
  have hNr : ((N + 1 - 2 : Nat) : ℝ) = N - 1 := by rw [Nat.cast_sub (by omega)]; push_cast; ring
  obtain ⟨j, hj⟩ := hs (N + 1 - 2) (by rw [hNr]; norm_num at hN d1 ⊢; linarith)
  dsimp only
  rw [hj, rampAt_late (by omega)]
  simp only [onLane]
  rw [hNr, ← w1]
  have m4 : 0 ≤ (topSpeed + endSpeed) * downTime := mul_nonneg (by linarith) d0
  have m5 : (topSpeed + endSpeed) * downTime ≤ topSpeed * (2 * downTime) := by nlinarith
  have p1 : 0 ≤ topSpeed * (2 * upTime + tC - (N - 1) / 1000) := mul_nonneg (by linarith) (by norm_num at hN d1 ⊢; linarith)
  have p2 : topSpeed * (r - (N - 1) / 1000) ≤ 0.3 * 0.002 := by
    refine mul_le_mul e2 ?_ ?_ (by norm_num) <;> norm_num at hN hN' d1 ⊢ <;> linarith
  have p3 : topSpeed * (r - (N - 1) / 1000) = topSpeed * (2 * upTime + tC - (N - 1) / 1000) + topSpeed * (2 * downTime) := by rw [hrr]; ring
  norm_num at p1 p2 p3 ⊢
  constructor <;> nlinarith

theorem searchGen_req' : Spec.Request searchGen 0.3 0.3 := by
  constructor <;> norm_num [searchGen]

theorem ahead_samples : (searchGen.generate 0 0.09 0.3 0.3).2.1 = .fin 0.3 ∧
    ∀ n : Nat, n ≤ 300 → ∃ j, (searchGen.generate 0 0.09 0.3 0.3).1.calculate (n * 0.001) = ⟨0.3 * (n * 0.001), 0.3, 0, j⟩ := by
  obtain ⟨v, p, rest, tA, tC, tD, P⟩ := StraightP.plan searchGen_req' 0.09
  have hv : v = 0.3 := by
    obtain ⟨h1, h2, -⟩ := aim_down searchGen_req' le_rfl (d := |0.09|)
    rw [P.hv]
    linarith
  have hp : p = 0.3 := le_antisymm P.pm P.vsp
  have h0 : rampDist searchGen 0.3 0.3 = 0 := rampDist_self searchGen_req'.a searchGen_req'.j _
  have ht : rampTime searchGen.aMax searchGen.jMax |0.3 - 0.3| = 0 := by
    rw [sub_self, abs_zero, rampTime_zero searchGen_req'.a searchGen_req'.j]
  have habs : |(0.09 : ℝ)| = 0.09 := abs_of_nonneg (by norm_num)
  have hA : tA = 0 := by rw [P.htA, hp, ht]
  have hD : tD = 0 := by rw [P.htD, hp, hv, ht]
  have hR : rest = 0.09 := by rw [P.hrest, hp, hv, h0, habs]; ring
  have hC : tC = 0.3 := by rw [P.htC, hR, hp]; norm_num
  rw [hv, hp, hA, hD, hC] at P
  obtain ⟨f1, f2⟩ := StraightP.finite P (by norm_num) 0
  have hdir : direction 0.09 = 1 := by unfold direction; rw [if_neg (by norm_num)]
  refine ⟨by rw [f1]; simp, fun n hn => ?_⟩
  have hn0 : (0 : ℝ) ≤ n := n.cast_nonneg
  have hn1 : (n : ℝ) ≤ 300 := by exact_mod_cast hn
  rw [calc_eq searchGen_req', f2, hdir]
  unfold U
  rw [if_neg (by linarith)]
  by_cases hz : (n : ℝ) * 0.001 ≤ 0
  · rw [if_pos hz]
    have hz' : (n : ℝ) * 0.001 = 0 := le_antisymm hz (by linarith)
    obtain ⟨k, -, k3, k4, k5, -⟩ := accA P 0
    obtain ⟨z1, z2, z3⟩ := acc_zero k
    refine ⟨((searchGen.acceleration 0 0.3 0.3).1.calculate 0).j * 1, ?_⟩
    simp only [Axis.mk.injEq]
    rw [hz', z1, z2, z3, k3, k5]
    refine ⟨by ring, by ring, by ring, rfl⟩
  · rw [if_neg hz, if_pos (by linarith), h0]
    refine ⟨0, ?_⟩
    simp

theorem ahead_leg (x Y : ℝ) : ∃ l,
    Produces (shiftNext .real ⟨x, Y, Real.pi / 2⟩ (Move.next .real)) (.straight (straightGenerate searchGen 0.001 0.09 0.3 0.3).1) l ∧
    (∀ {y0 v0 : ℝ} {o : Off}, Y - 0.0003 ≤ y0 → y0 ≤ Y → 0.3 - 1e-8 ≤ v0 → v0 ≤ 0.3 → o.size ≤ 3.2e-7 → Glide x (Y + 0.09) y0 v0 o l) ∧
    Ends (Y + 0.09) l ∧ l.length = 301 := by
  obtain ⟨hr, hs⟩ := ahead_samples
  have e : ⌊(0.3 : ℝ) / 0.001⌋₊ + 1 = 301 := by
    rw [show (0.3 : ℝ) / 0.001 = (300 : Nat) by norm_num, Nat.floor_natCast]
  refine ⟨_, straight_produces searchGen_req' hr, fun h1 h2 h3 h4 ho => ?_, ?_, by rw [e]; simp⟩
  rotate_left
  · rw [e]
    refine ends_range _ (by norm_num) ?_
    obtain ⟨j, hj⟩ := hs 299 (by norm_num)
    dsimp only
    rw [show 301 - 2 = 299 from rfl, hj]
    norm_num [onLane]
    linarith
  rw [e]
  refine ahead_glide x _ (fun n hn => ?_) h1 h2 h3 h4 ho
  obtain ⟨j, hj⟩ := hs n hn
  refine ⟨j, ?_⟩
  dsimp only
  rw [hj]
  rfl

end Verif.Props
