import Verif.Props.LaneLegs
import Verif.Props.RunTrial
/-!
# C119: the targets of a straight fast run
-/
namespace Verif.Props
open Verif Verif.Control Verif.Straight Verif.Spec Verif.StraightP Verif.RunTrial

theorem bisect_eq {up : ℝ → Prop} (n : Nat) : ∀ {low w : ℝ} {m : Nat}, 0 ≤ w → m < 2 ^ n → (∀ x, low ≤ x → x ≤ low + m * (w / 2 ^ n) → up x) →
    (∀ x, low + (m + 1) * (w / 2 ^ n) ≤ x → x ≤ low + w → ¬ up x) → (bisect up n low (low + w)).1 = low + m * (w / 2 ^ n) := by
  induction n with
  | zero =>
    intro low w m hw hm h1 h2
    obtain rfl : m = 0 := by simpa using hm
    simp [bisect]
  | succ n ih =>
    intro low w m hw hm h1 h2
    have hp : (0 : ℝ) < 2 ^ n := by positivity
    have e : w / 2 ^ (n + 1) = w / 2 / 2 ^ n := by rw [pow_succ]; field_simp
    have hd : 0 ≤ w / 2 / 2 ^ n := by positivity
    have hh : 2 ^ n * (w / 2 / 2 ^ n) = w / 2 := by field_simp
    rw [e] at h1 h2 ⊢
    unfold bisect
    dsimp only
    rw [show (low + (low + w)) / 2 = low + w / 2 by ring]
    by_cases hm' : m < 2 ^ n
    · have hm1 : (m : ℝ) + 1 ≤ 2 ^ n := by exact_mod_cast hm'
      have : (m + 1) * (w / 2 / 2 ^ n) ≤ w / 2 := (mul_le_mul_of_nonneg_right hm1 hd).trans hh.le
      rw [if_neg (h2 _ (by linarith) (by linarith))]
      exact ih (by linarith) hm' h1 fun x k1 k2 => h2 x k1 (by linarith)
    · obtain ⟨i, rfl⟩ : ∃ i, m = 2 ^ n + i := ⟨m - 2 ^ n, by omega⟩
      have hi : i < 2 ^ n := by rw [pow_succ] at hm; omega
      have ec : ((2 ^ n + i : Nat) : ℝ) * (w / 2 / 2 ^ n) = w / 2 + i * (w / 2 / 2 ^ n) := by push_cast; rw [add_mul, hh]
      have ec' : (((2 ^ n + i : Nat) : ℝ) + 1) * (w / 2 / 2 ^ n) = w / 2 + (i + 1) * (w / 2 / 2 ^ n) := by push_cast; rw [add_assoc, add_mul, hh]
      rw [ec] at h1
      rw [ec'] at h2
      have hi0 : 0 ≤ i * (w / 2 / 2 ^ n) := by positivity
      rw [if_pos (h1 _ (by linarith) (by linarith)), ec, show low + w = low + w / 2 + w / 2 by ring]
      rw [ih (by linarith) hi (fun x k1 k2 => h1 x (by linarith) (by linarith)) fun x k1 k2 => h2 x (by linarith) (by linarith)]
      ring

/-- The limits of the run. -/
noncomputable def runGen : Gen := ⟨1, 10, 100⟩

theorem runGen_req : Spec.Request runGen 0 0.5 := by constructor <;> norm_num [runGen]

theorem run_rampTime {x : ℝ} (h : x ≤ 1) : rampTime runGen.aMax runGen.jMax x = 2 * Real.sqrt (x / 100) := by
  unfold rampTime runGen
  dsimp only
  split
  · rename_i h'
    have : x = 1 := le_antisymm h (by norm_num at h'; exact h')
    rw [this, show (1 / 100 : ℝ) = 0.1 ^ 2 by norm_num, Real.sqrt_sq (by norm_num)]
    norm_num
  · rfl

theorem run_up {x : ℝ} (h0 : 0 ≤ x) (h1 : x ≤ 1) : rampDist runGen 0 x = x * Real.sqrt (x / 100) := by
  unfold rampDist
  rw [sub_zero, abs_of_nonneg h0, run_rampTime h1]
  ring

theorem run_down {x : ℝ} (h0 : 0.5 ≤ x) (h1 : x ≤ 1) : rampDist runGen x 0.5 = (x + 0.5) * Real.sqrt ((x - 0.5) / 100) := by
  unfold rampDist
  rw [abs_of_nonpos (by linarith), run_rampTime (by linarith), neg_sub]
  ring

/-- The way for getting to a speed and from it to the speed at the end. -/
noncomputable def reachDist (x : ℝ) : ℝ := x * Real.sqrt (x / 100) + (x + 0.5) * Real.sqrt ((x - 0.5) / 100)

theorem reachDist_mono {x y : ℝ} (h0 : 0.5 ≤ x) (h : x ≤ y) : reachDist x ≤ reachDist y := by
  unfold reachDist
  refine add_le_add (mul_le_mul h (Real.sqrt_le_sqrt (by linarith)) (Real.sqrt_nonneg _) (by linarith))
    (mul_le_mul (by linarith) (Real.sqrt_le_sqrt (by linarith)) (Real.sqrt_nonneg _) (by linarith))

theorem run_aim {d : ℝ} (hd : 0.04 ≤ d) : runGen.aim 0 0.5 d = 0.5 := by
  have hr : 0.5 ≤ runGen.reachable 0 0.5 d := by
    unfold Gen.reachable
    rw [if_pos (by norm_num)]
    unfold LOOP_COUNT bisect
    dsimp only
    have hs : Real.sqrt (0.5 / 100) ≤ 0.071 := by
      rw [Real.sqrt_le_left (by norm_num)]; norm_num
    rw [show (0 + runGen.vMax) / 2 = 0.5 by norm_num [runGen]]
    rw [if_pos (by rw [accDist_eq, run_up (by norm_num) (by norm_num)]; linarith)]
    exact (bisect_spec _ _ _ _ (by norm_num [runGen])).1
  unfold Gen.aim
  dsimp only
  rw [if_pos (by norm_num), if_neg (by linarith)]

theorem run_peak {d : ℝ} {m : Nat} (hm : m < 2 ^ 25) (h1 : reachDist (0.5 + m / 2 ^ 26) ≤ d) (h2 : d < reachDist (0.5 + (m + 1) / 2 ^ 26)) :
    runGen.peak 0 0.5 d = 0.5 + m / 2 ^ 26 := by
  unfold Gen.peak
  rw [if_pos (by norm_num), show runGen.vMax = 0.5 + 0.5 by norm_num [runGen]]
  have e : ∀ z : ℝ, z * (0.5 / 2 ^ LOOP_COUNT) = z / 2 ^ 26 := by intro z; unfold LOOP_COUNT; norm_num; ring
  have hk : ∀ x, 0.5 ≤ x → x ≤ 1 → runGen.accDist 0 x + runGen.accDist x 0.5 = reachDist x := by
    intro x k1 k2
    rw [accDist_eq, accDist_eq, run_up (by linarith) k2, run_down k1 k2]
    rfl
  have hm' : (m : ℝ) / 2 ^ 26 ≤ 0.5 := by
    have : (m : ℝ) ≤ 2 ^ 25 := by exact_mod_cast hm.le
    rw [div_le_iff₀ (by positivity)]
    norm_num at this ⊢
    linarith
  have hm0 : (0 : ℝ) ≤ m / 2 ^ 26 := by positivity
  rw [bisect_eq LOOP_COUNT (m := m) (by norm_num) hm ?_ ?_, e]
  · intro x k1 k2
    rw [e] at k2
    rw [hk x k1 (by linarith)]
    exact (reachDist_mono k1 k2).trans h1
  · intro x k1 k2
    rw [e] at k1
    have h0 : (0 : ℝ) ≤ (m + 1) / 2 ^ 26 := by positivity
    rw [hk x (by linarith) (by linarith), not_le]
    exact h2.trans_le (reachDist_mono (by linarith) k1)

theorem run_peak_long {d : ℝ} (hd : 0.207 ≤ d) : runGen.peak 0 0.5 d = 1 - 1 / 2 ^ 26 := by
  unfold Gen.peak
  rw [if_pos (by norm_num)]
  refine (bisect_up _ (by norm_num [runGen]) fun x h1 h2 => ?_).trans (by unfold LOOP_COUNT runGen; norm_num)
  have h2 : x ≤ 1 := h2
  rw [accDist_eq, accDist_eq, run_up (by linarith) h2, run_down h1 h2]
  have := reachDist_mono h1 h2
  unfold reachDist at this
  have e1 : Real.sqrt (1 / 100) ≤ 0.1 := by rw [Real.sqrt_le_left (by norm_num)]; norm_num
  have e2 : Real.sqrt ((1 - 0.5) / 100) ≤ 0.0711 := by rw [Real.sqrt_le_left (by norm_num)]; norm_num
  norm_num at e1 e2 this hd ⊢
  linarith

/-! ## The targets -/

/-- A way of driving: the largest speed, half the times of speeding up and of slowing down, the time at which slowing down begins; and the last rounds in the parts. -/
structure Pace where
  p : ℝ
  u : ℝ
  dn : ℝ
  t2 : ℝ
  n1 : Nat
  n2 : Nat
  n3 : Nat
  n4 : Nat

/-- Way, speed and acceleration of a target. -/
noncomputable def Pace.at (P : Pace) (n : Nat) : ℝ × ℝ × ℝ :=
  if n ≤ P.n1 then (n ^ 3 / 60000000, n ^ 2 / 20000, n / 10)
  else if n ≤ P.n2 then
    let r := 2 * P.u - n / 1000
    (P.p * P.u - P.p * r + 100 / 6 * (r * r * r), P.p - 50 * (r * r), 100 * r)
  else if n ≤ P.n3 then (P.p * P.u + P.p * (n / 1000 - 2 * P.u), P.p, 0)
  else if n ≤ P.n4 then
    let s := n / 1000 - P.t2
    (P.p * P.u + P.p * (P.t2 - 2 * P.u) + P.p * s - 100 / 6 * (s * s * s), P.p - 50 * (s * s), -100 * s)
  else
    let r := P.t2 + 2 * P.dn - n / 1000
    (P.p * P.u + P.p * (P.t2 - 2 * P.u) + (P.p + 1 / 2) * P.dn - 1 / 2 * r - 100 / 6 * (r * r * r), 1 / 2 + 50 * (r * r), -100 * r)

/-- The numbers fit the way `d`; the last target is number `N`. -/
structure Pace.Fit (P : Pace) (d : ℝ) (N : Nat) : Prop where
  d0 : 0.04 ≤ d
  peak : runGen.peak 0 0.5 d = P.p
  p0 : 0.5 < P.p
  p1 : P.p < 1
  way : reachDist P.p ≤ d
  u : P.u = Real.sqrt (P.p / 100)
  dn : P.dn = Real.sqrt ((P.p - 0.5) / 100)
  t2 : P.p * (P.t2 - 2 * P.u) = d - reachDist P.p
  n1 : P.n1 / 1000 ≤ P.u ∧ P.u < (P.n1 + 1) / 1000
  n2 : P.n2 / 1000 ≤ 2 * P.u ∧ 2 * P.u < (P.n2 + 1) / 1000
  n3 : P.n3 / 1000 ≤ P.t2 ∧ P.t2 < (P.n3 + 1) / 1000
  n4 : P.n4 / 1000 ≤ P.t2 + P.dn ∧ P.t2 + P.dn < (P.n4 + 1) / 1000
  n5 : N / 1000 ≤ P.t2 + 2 * P.dn ∧ P.t2 + 2 * P.dn < (N + 1) / 1000

section
variable {P : Pace} {d : ℝ} {N : Nat}

theorem Pace.Fit.plan (h : P.Fit d N) : ∃ rest, Plan runGen 0 0.5 |d| 0.5 P.p rest (2 * P.u) (P.t2 - 2 * P.u) (2 * P.dn) := by
  have hp0 := h.p0
  have hp1 := h.p1
  have hd : |d| = d := abs_of_nonneg (by linarith [h.d0])
  obtain ⟨v, p, rest, tA, tC, tD, Q⟩ := StraightP.plan runGen_req d
  have hv : v = 0.5 := by rw [Q.hv, hd, run_aim h.d0]
  have hp : p = P.p := by rw [Q.hp, hv, hd, h.peak]
  have hA : tA = 2 * P.u := by rw [Q.htA, hp, sub_zero, abs_of_nonneg (by linarith), run_rampTime hp1.le, h.u]
  have hD : tD = 2 * P.dn := by rw [Q.htD, hp, hv, abs_of_nonpos (by linarith), neg_sub, run_rampTime (by linarith), h.dn]
  have hrest : rest = d - reachDist P.p := by
    rw [Q.hrest, hp, hv, hd, run_up (by linarith) hp1.le, run_down hp0.le hp1.le]
    unfold reachDist; ring
  have hC : tC = P.t2 - 2 * P.u := by
    rw [Q.htC, hrest, hp, max_eq_right (div_nonneg (by linarith [h.way]) (by linarith)), ← h.t2]
    have : P.p ≠ 0 := by linarith
    field_simp
  rw [hv, hp, hA, hD, hC] at Q
  exact ⟨rest, Q⟩

theorem pace_up (h : P.Fit d N) (t : ℝ) (h0 : 0 ≤ t) (h1 : t ≤ 2 * P.u) : ∃ j, (runGen.acceleration 0 0 P.p).1.calculate t =
    if t ≤ P.u then ⟨100 * t ^ 3 / 6, 50 * t ^ 2, 100 * t, j⟩ else
      ⟨P.p * P.u - P.p * (2 * P.u - t) + 100 / 6 * ((2 * P.u - t) * (2 * P.u - t) * (2 * P.u - t)),
        P.p - 50 * ((2 * P.u - t) * (2 * P.u - t)), 100 * (2 * P.u - t), j⟩ := by
  have e0 := h.p0
  have e1 := h.p1
  have hu : Real.sqrt (|P.p - 0| / runGen.jMax) = P.u := by
    rw [sub_zero, abs_of_nonneg (by linarith), h.u]; rfl
  have hacc : (runGen.acceleration 0 0 P.p).1 = ⟨0, 0, 0 + (0 + P.p) * (2 * P.u) / 2, P.p, 10, 100, P.u, P.u, 2 * P.u⟩ := by
    unfold Gen.acceleration
    dsimp only
    rw [if_neg (by rw [sub_zero, abs_of_nonneg (by linarith)]; unfold runGen; norm_num; linarith), hu, if_pos (by linarith)]
    rfl
  rw [hacc]
  unfold AccCalc.calculate
  dsimp only
  rw [if_neg (by linarith)]
  split
  · exact ⟨100, by simp only [Axis.mk.injEq]; refine ⟨by ring, by ring, ?_⟩; simp⟩
  · exact ⟨-100, by simp only [Axis.mk.injEq]; refine ⟨by ring, by ring, ?_⟩; simp⟩

theorem pace_down (h : P.Fit d N) (x s : ℝ) (h0 : 0 ≤ s) (h1 : s ≤ 2 * P.dn) : ∃ j, (runGen.acceleration x P.p 0.5).1.calculate s =
    if s ≤ P.dn then ⟨x + P.p * s - 100 / 6 * (s * s * s), P.p - 50 * (s * s), -100 * s, j⟩ else
      ⟨x + (P.p + 1 / 2) * P.dn - 1 / 2 * (2 * P.dn - s) - 100 / 6 * ((2 * P.dn - s) * (2 * P.dn - s) * (2 * P.dn - s)),
        1 / 2 + 50 * ((2 * P.dn - s) * (2 * P.dn - s)), -100 * (2 * P.dn - s), j⟩ := by
  have e0 := h.p0
  have e1 := h.p1
  have hu : Real.sqrt (|0.5 - P.p| / runGen.jMax) = P.dn := by
    rw [abs_of_nonpos (by linarith), neg_sub, h.dn]; rfl
  have hacc : (runGen.acceleration x P.p 0.5).1 = ⟨x, P.p, x + (P.p + 0.5) * (2 * P.dn) / 2, 0.5, -10, -100, P.dn, P.dn, 2 * P.dn⟩ := by
    unfold Gen.acceleration
    dsimp only
    rw [if_neg (by rw [abs_of_nonpos (by linarith)]; unfold runGen; norm_num; norm_num at e1; linarith), hu, if_neg (by linarith)]
    rfl
  rw [hacc]
  unfold AccCalc.calculate
  dsimp only
  rw [if_neg (by linarith)]
  split
  · exact ⟨-100, by simp only [Axis.mk.injEq]; refine ⟨by ring, by ring, ?_⟩; simp⟩
  · exact ⟨100, by simp only [Axis.mk.injEq]; refine ⟨by norm_num; ring, by norm_num; ring, ?_⟩; simp⟩

theorem pace_samples (h : P.Fit d N) : (runGen.generate 0 d 0 0.5).2.1 = .fin (P.t2 + 2 * P.dn) ∧
    ∀ n : Nat, n ≤ N → ∃ j, (runGen.generate 0 d 0 0.5).1.calculate (n * 0.001) = ⟨(P.at n).1, (P.at n).2.1, (P.at n).2.2, j⟩ := by
  have e0 := h.p0
  have e1 := h.p1
  have hd : |d| = d := abs_of_nonneg (by linarith [h.d0])
  obtain ⟨rest, Q⟩ := h.plan
  obtain ⟨f1, f2⟩ := StraightP.finite Q (by linarith) 0
  have hdir : direction d = 1 := by unfold direction; rw [if_neg (by linarith [h.d0])]
  have hd0 : 0 ≤ P.dn := by rw [h.dn]; exact Real.sqrt_nonneg _
  have hu0 : 0 ≤ P.u := by rw [h.u]; exact Real.sqrt_nonneg _
  have htc : 0 ≤ P.t2 - 2 * P.u := StraightP.tC0 Q
  have hcalc : ∀ t, (runGen.generate 0 d 0 0.5).1.calculate t = U runGen 0 0 d 0.5 P.p (2 * P.u) (P.t2 - 2 * P.u) (2 * P.dn) t := by
    intro t
    rw [calc_eq runGen_req, f2, hdir, hd]
    simp
  have hu : rampDist runGen 0 P.p = P.p * P.u := by rw [run_up (by linarith) e1.le, h.u]
  have hdn : rampDist runGen P.p 0.5 = (P.p + 1 / 2) * P.dn := by rw [run_down e0.le e1.le, h.dn]; norm_num
  have hX : 0 + d - (P.p + 1 / 2) * P.dn = P.p * P.u + P.p * (P.t2 - 2 * P.u) := by
    have h3 : reachDist P.p = P.p * P.u + (P.p + 1 / 2) * P.dn := by unfold reachDist; rw [h.u, h.dn]; norm_num
    have := h.t2
    rw [h3] at this
    linarith
  refine ⟨by rw [f1]; simp only [F.fin.injEq]; ring, fun n hn => ?_⟩
  have hn0 : (0 : ℝ) ≤ n := n.cast_nonneg
  have le : ∀ {m : Nat}, n ≤ m → (n : ℝ) / 1000 ≤ m / 1000 := fun {m} k => by
    have : (n : ℝ) ≤ m := by exact_mod_cast k
    linarith
  have ge : ∀ {m : Nat}, ¬ n ≤ m → ((m : ℝ) + 1) / 1000 ≤ n / 1000 := fun {m} k => by
    have : (m : ℝ) + 1 ≤ n := by exact_mod_cast (by omega : m + 1 ≤ n)
    linarith
  have h5 := le hn
  rw [hcalc, show (n : ℝ) * 0.001 = n / 1000 by norm_num; ring]
  unfold U Pace.at
  rw [if_neg (by linarith), hu, hdn, hX]
  by_cases c1 : n ≤ P.n1
  · have := le c1
    rw [if_pos (by linarith [h.n1.1]), if_pos c1]
    obtain ⟨j, hj⟩ := pace_up h (n / 1000) (by linarith) (by linarith [h.n1.1])
    rw [if_pos (by linarith [h.n1.1])] at hj
    exact ⟨j, hj.trans (by simp only [Axis.mk.injEq, and_true]; refine ⟨by ring, by ring, by ring⟩)⟩
  rw [if_neg c1]
  have c1' := ge c1
  by_cases c2 : n ≤ P.n2
  · have := le c2
    rw [if_pos (by linarith [h.n2.1]), if_pos c2]
    obtain ⟨j, hj⟩ := pace_up h (n / 1000) (by linarith) (by linarith [h.n2.1])
    rw [if_neg (by linarith [h.n1.2])] at hj
    exact ⟨j, hj⟩
  rw [if_neg c2]
  have c2' := ge c2
  rw [if_neg (by linarith [h.n2.2])]
  by_cases c3 : n ≤ P.n3
  · have := le c3
    rw [if_pos (by linarith [h.n3.1]), if_pos c3]
    exact ⟨0, by rw [zero_add]⟩
  rw [if_neg c3]
  have c3' := ge c3
  rw [if_neg (by linarith [h.n3.2]), if_pos (by linarith [h.n5.1]), show (n : ℝ) / 1000 - (2 * P.u + (P.t2 - 2 * P.u)) = n / 1000 - P.t2 by ring]
  obtain ⟨j, hj⟩ := pace_down h (P.p * P.u + P.p * (P.t2 - 2 * P.u)) (n / 1000 - P.t2) (by linarith [h.n3.2]) (by linarith [h.n5.1])
  rw [hj]
  by_cases c4 : n ≤ P.n4
  · have := le c4
    rw [if_pos (by linarith [h.n4.1]), if_pos c4]
    exact ⟨j, rfl⟩
  · have c4' := ge c4
    rw [if_neg (by linarith [h.n4.2]), if_neg c4, show 2 * P.dn - ((n : ℝ) / 1000 - P.t2) = P.t2 + 2 * P.dn - n / 1000 by ring]
    exact ⟨j, rfl⟩

/-- What the trajectory returns. -/
theorem pace_produces (h : P.Fit d N) (x Y : ℝ) : ∃ f : Nat → Target, (∀ n, n ≤ N → ∃ j, f n = onLane x (Y + (P.at n).1) (P.at n).2.1 (P.at n).2.2 j) ∧
    Produces (shiftNext .real ⟨x, Y, Real.pi / 2⟩ Straight.next) (straightGenerate runGen 0.001 d 0 0.5).1 ((List.range (N + 1)).map f) := by
  obtain ⟨hr, hs⟩ := pace_samples h
  set r := P.t2 + 2 * P.dn with hrr
  have hN : ⌊r / 0.001⌋₊ = N := by
    have h5 := h.n5
    rw [← hrr] at h5
    rw [Nat.floor_eq_iff (div_nonneg (le_trans (by positivity) h5.1) (by norm_num))]
    constructor
    · rw [le_div_iff₀ (by norm_num)]; norm_num; linarith [h5.1]
    · rw [div_lt_iff₀ (by norm_num)]; norm_num; linarith [h5.2]
  have h1 : Produces Straight.next (straightGenerate runGen 0.001 d 0 0.5).1
      ((List.range (N + 1)).map fun n : Nat => ⟨(runGen.generate 0 d 0 0.5).1.calculate (n * 0.001), .zero, .zero⟩) := by
    intro n
    rw [(C44_generated runGen_req d r 0.001 (by norm_num) hr n).1, hN]
    refine List.map_congr_left fun k _ => ?_
    by_cases hk : k < N + 1
    · rw [if_pos hk]; simp [hk]
    · rw [if_neg hk]; simp; omega
  have h2 := produces_shift h1 ⟨x, Y, Real.pi / 2⟩
  rw [List.map_map] at h2
  refine ⟨_, fun n hn => ?_, h2⟩
  obtain ⟨j, hj⟩ := hs n hn
  refine ⟨j, ?_⟩
  rw [Function.comp, hj, shift_north]

end

end Verif.Props
