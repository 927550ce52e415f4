import Verif.Props.Straight
import Mathlib.Algebra.Order.Floor.Semiring
/-!
# Properties of trajectories as iterators, and of shifted trajectories
-/
namespace Verif.Props
open Verif Verif.Control Verif.Straight Verif.Spec Verif.StraightP

/-! ## Iterators in general -/

theorem out_dead {σ α : Type} (next : σ → Option α × σ) (s : σ) (h : next s = (none, s)) :
    ∀ n, outputs next n s = List.replicate n none := by
  intro n
  induction n with
  | zero => rfl
  | succ n ih => rw [outputs, h, ih]; rfl

theorem out_finite {σ α : Type} (next : σ → Option α × σ) (S : Nat → σ) (o : Nat → α) (N : Nat)
    (h1 : ∀ k, k < N → next (S k) = (some (o k), S (k + 1))) (h2 : ∀ k, N ≤ k → next (S k) = (none, S k)) :
    ∀ n m, outputs next n (S m) = (List.range n).map fun k => if m + k < N then some (o (m + k)) else none := by
  intro n
  induction n with
  | zero => intro m; rfl
  | succ n ih =>
    intro m
    by_cases hm : m < N
    · rw [outputs, h1 m hm, ih (m + 1), List.range_succ_eq_map, List.map_cons, List.map_map]
      rw [if_pos (by simpa using hm)]
      refine congrArg₂ List.cons rfl (List.map_congr_left fun k _ => ?_)
      simp only [Function.comp, Nat.succ_eq_add_one, show m + 1 + k = m + (k + 1) by omega]
    · rw [out_dead next (S m) (h2 m (by omega))]
      symm
      rw [List.eq_replicate_iff]
      refine ⟨by simp, fun b hb => ?_⟩
      obtain ⟨k, -, rfl⟩ := List.mem_map.1 hb
      rw [if_neg (by omega)]

theorem out_infinite {σ α : Type} (next : σ → Option α × σ) (S : Nat → σ) (o : Nat → α)
    (h1 : ∀ k, next (S k) = (some (o k), S (k + 1))) :
    ∀ n m, outputs next n (S m) = (List.range n).map fun k => some (o (m + k)) := by
  intro n
  induction n with
  | zero => intro m; rfl
  | succ n ih =>
    intro m
    rw [outputs, h1 m, ih (m + 1), List.range_succ_eq_map, List.map_cons, List.map_map]
    refine congrArg₂ List.cons rfl (List.map_congr_left fun k _ => ?_)
    simp only [Function.comp, Nat.succ_eq_add_one, show m + 1 + k = m + (k + 1) by omega]

theorem floor_iff {r period : ℝ} (hr : 0 ≤ r) (hp : 0 < period) (k : Nat) :
    ¬ r < k * period ↔ k < ⌊r / period⌋₊ + 1 := by
  rw [not_lt, Nat.lt_succ_iff, Nat.le_floor_iff (div_nonneg hr hp.le), le_div_iff₀ hp]

/-! ## C44: number and times of the samples -/

/-- C44: a straight trajectory of duration `r` yields its targets at all multiples of the period up to `r`, that is
`⌊r / period⌋ + 1` of them, and then nothing. -/
theorem C44_straight (c : StraightCalc) {r period : ℝ} (hr : 0 ≤ r) (hp : 0 < period) (n : Nat) :
    outputs Straight.next n ⟨c, 0, .fin r, period⟩ = (List.range n).map fun k : Nat =>
      if k < ⌊r / period⌋₊ + 1 then some ⟨c.calculate (k * period), .zero, .zero⟩ else none := by
  have key := out_finite Straight.next (fun k => ⟨c, k * period, .fin r, period⟩)
    (fun k => ⟨c.calculate (k * period), .zero, .zero⟩) (⌊r / period⌋₊ + 1) (fun k hk => ?_) (fun k hk => ?_) n 0
  · simpa using key
  · unfold Straight.next
    dsimp only
    rw [if_neg (show ¬ (F.fin r).lt (.fin (k * period)) from (floor_iff hr hp k).2 hk)]
    simp only [Nat.cast_add, Nat.cast_one, add_mul, one_mul]
  · unfold Straight.next
    dsimp only
    rw [if_pos (show (F.fin r).lt (.fin (k * period)) by
      by_contra hn
      have := (floor_iff hr hp k).1 hn
      omega)]

/-- C44: the same for a spin. -/
theorem C44_spin (c : Overall) {r period : ℝ} (hr : 0 ≤ r) (hp : 0 < period) (n : Nat) :
    outputs Spin.next n ⟨c, 0, .fin r, period⟩ = (List.range n).map fun k : Nat =>
      if k < ⌊r / period⌋₊ + 1 then some ⟨.zero, .zero, c.calculate (k * period)⟩ else none := by
  have key := out_finite Spin.next (fun k => ⟨c, k * period, .fin r, period⟩)
    (fun k => ⟨.zero, .zero, c.calculate (k * period)⟩) (⌊r / period⌋₊ + 1) (fun k hk => ?_) (fun k hk => ?_) n 0
  · simpa using key
  · unfold Spin.next
    dsimp only
    rw [if_neg (show ¬ (F.fin r).lt (.fin (k * period)) from (floor_iff hr hp k).2 hk)]
    simp only [Nat.cast_add, Nat.cast_one, add_mul, one_mul]
  · unfold Spin.next
    dsimp only
    rw [if_pos (show (F.fin r).lt (.fin (k * period)) by
      by_contra hn
      have := (floor_iff hr hp k).1 hn
      omega)]

/-- C44: a stop yields its pose, at rest, `⌈r / period⌉` times. -/
theorem C44_stop (pose : Detect.Pose) {r period : ℝ} (hp : 0 < period) (n : Nat) :
    outputs Stop.next n ⟨0, pose, period, r⟩ = (List.range n).map fun k =>
      if k < ⌈r / period⌉₊ then some ⟨⟨pose.x, 0, 0, 0⟩, ⟨pose.y, 0, 0, 0⟩, ⟨pose.theta, 0, 0, 0⟩⟩ else none := by
  have hc : ∀ k : Nat, (k:ℝ) * period < r ↔ k < ⌈r / period⌉₊ := fun k => by rw [Nat.lt_ceil, lt_div_iff₀ hp]
  have key := out_finite Stop.next (fun k => ⟨k * period, pose, period, r⟩)
    (fun _ => ⟨⟨pose.x, 0, 0, 0⟩, ⟨pose.y, 0, 0, 0⟩, ⟨pose.theta, 0, 0, 0⟩⟩) ⌈r / period⌉₊ (fun k hk => ?_) (fun k hk => ?_) n 0
  · simpa using key
  · unfold Stop.next
    rw [if_pos ((hc k).2 hk)]
    simp only [Nat.cast_add, Nat.cast_one, add_mul, one_mul]
  · unfold Stop.next
    rw [if_neg (fun h => absurd ((hc k).1 h) (not_lt.2 hk))]

/-- C44: shifting changes no count and no time, it shifts every sample. -/
theorem C44_shift (T : Trig) (pose : Detect.Pose) {σ : Type} (next : σ → Option Target × σ) :
    ∀ (n : Nat) (s : σ), outputs (shiftNext T pose next) n s = (outputs next n s).map (Option.map (shift T pose)) := by
  intro n
  induction n with
  | zero => intro s; rfl
  | succ n ih => intro s; rw [outputs, outputs, List.map_cons, ← ih]; rfl

theorem finite_start {g : Gen} {vs ve : ℝ} (h : Request g vs ve) (xs dist r : ℝ)
    (hr : (g.generate xs dist vs ve).2.1 = .fin r) : 0 ≤ r := by
  obtain ⟨v, p, rest, tA, tC, tD, P⟩ := plan h dist
  rcases (P.req.start0.trans P.vsp).lt_or_eq with hp | hp
  · rw [(finite P hp xs).1] at hr
    injection hr with hr
    have := tA0 P; have := tC0 P; have := tD0 P
    linarith
  · obtain ⟨-, -, -, he, -⟩ := stuck P hp.symm xs
    rw [he] at hr
    dsimp only [F.infOf] at hr
    rw [if_neg (not_lt.2 (abs_nonneg _) : ¬ |dist| < 0)] at hr
    split at hr <;> cases hr

/-- C44: the samples of a generated straight: the first is the start, the last is less than a period before the end. -/
theorem C44_generated {g : Gen} {vs ve : ℝ} (h : Request g vs ve) (dist r period : ℝ) (hp : 0 < period)
    (hr : (g.generate 0 dist vs ve).2.1 = .fin r) (n : Nat) :
    outputs Straight.next n (straightGenerate g period dist vs ve).1 = ((List.range n).map fun k : Nat =>
      if k < ⌊r / period⌋₊ + 1 then some ⟨(g.generate 0 dist vs ve).1.calculate (k * period), .zero, .zero⟩ else none) ∧
    ⌊r / period⌋₊ * period ≤ r ∧ r < ⌊r / period⌋₊ * period + period := by
  have h0 := finite_start h 0 dist r hr
  refine ⟨?_, ?_, ?_⟩
  · refine Eq.trans ?_ (C44_straight (.accel (g.generate 0 dist vs ve).1) h0 hp n)
    unfold straightGenerate
    rw [← hr]
  · rw [← le_div_iff₀ hp]
    exact Nat.floor_le (div_nonneg h0 hp.le)
  · have := Nat.lt_floor_add_one (r / period)
    rw [div_lt_iff₀ hp, add_mul, one_mul] at this
    exact this

/-- C44: a straight driven at constant speed: `v k period` at sample `k`, until the distance is covered. -/
theorem C44_constant {distance v period : ℝ} (hd : 0 ≤ distance) (hv : 0 < v) (hp : 0 < period) (n : Nat) :
    outputs Straight.next n (straightConstant distance v period) = (List.range n).map fun k : Nat =>
      if k < ⌊distance / v / period⌋₊ + 1 then some ⟨⟨v * (k * period), v, 0, 0⟩, .zero, .zero⟩ else none := by
  have hq : 0 ≤ distance / v := div_nonneg hd hv.le
  unfold straightConstant
  rw [constant_eq hv, max_eq_right hq]
  dsimp only
  rw [C44_straight _ hq hp]
  refine List.map_congr_left fun k _ => ?_
  split
  · rename_i hk
    have hk := (floor_iff hq hp k).2 hk
    have h0 : (0:ℝ) ≤ k * period := mul_nonneg (Nat.cast_nonneg _) hp.le
    show some (⟨ConstCalc.calculate ⟨.fin (distance / v), 0, v⟩ (k * period), .zero, .zero⟩ : Target) = _
    unfold ConstCalc.calculate
    rw [if_neg]
    · simp
    · rintro (h | h)
      · exact hk h
      · linarith
  · rfl

example : outputs Straight.next 4 (straightConstant 3 2 (1 / 2)) = [some ⟨⟨0, 2, 0, 0⟩, .zero, .zero⟩,
    some ⟨⟨1, 2, 0, 0⟩, .zero, .zero⟩, some ⟨⟨2, 2, 0, 0⟩, .zero, .zero⟩, some ⟨⟨3, 2, 0, 0⟩, .zero, .zero⟩] := by
  rw [C44_constant (by norm_num) (by norm_num) (by norm_num)]
  have : ⌊(3:ℝ) / 2 / (1 / 2)⌋₊ = 3 := by rw [show (3:ℝ) / 2 / (1 / 2) = ((3:ℕ):ℝ) by norm_num, Nat.floor_natCast]
  rw [this]
  norm_num [List.range_succ]

/-! ## C45: iterators that never end -/

/-- C45: a straight whose end time is not finite yields the start for ever, however often it is asked. -/
theorem C45_straight {g : Gen} {vs ve : ℝ} (h : Request g vs ve) (dist period : ℝ)
    (hn : ¬ ∃ r, (g.generate 0 dist vs ve).2.1 = .fin r) (n : Nat) :
    ∀ o ∈ outputs Straight.next n (straightGenerate g period dist vs ve).1, ∃ t, o = some t ∧ t.x.x = 0 ∧ t.x.v = 0 := by
  obtain ⟨h1, h2⟩ := C45_stuck h 0 dist hn
  have hT : ∀ t, ¬ (g.generate 0 dist vs ve).2.1.lt (.fin t) := by
    intro t
    rw [h1]
    split <;> exact id
  have key := out_infinite Straight.next (fun k => ⟨.accel (g.generate 0 dist vs ve).1, k * period, (g.generate 0 dist vs ve).2.1, period⟩)
    (fun k => ⟨(g.generate 0 dist vs ve).1.calculate (k * period), .zero, .zero⟩) (fun k => by
      unfold Straight.next
      rw [if_neg (hT _)]
      simp only [Nat.cast_add, Nat.cast_one, add_mul, one_mul]; rfl) n 0
  simp only [Nat.cast_zero, zero_mul] at key
  intro o ho
  have ho : o ∈ outputs Straight.next n ⟨.accel (g.generate 0 dist vs ve).1, 0, (g.generate 0 dist vs ve).2.1, period⟩ := ho
  rw [key] at ho
  obtain ⟨k, -, rfl⟩ := List.mem_map.1 ho
  exact ⟨_, rfl, h2 _⟩

/-- C45: turning by an angle smaller than what the search can resolve never ends either; in particular turning by nothing. -/
theorem C45_spin {g : Gen} (h : Request g 0 0) (angle period : ℝ)
    (hs : |angle| < 2 * rampDist g 0 (resolution g.vMax)) (n : Nat) :
    ∀ o ∈ outputs Spin.next n (spinGenerate g period angle), ∃ t, o = some t ∧ t.theta.x = 0 ∧ t.theta.v = 0 := by
  have hn : ¬ ∃ r, (g.generate 0 angle 0 0).2.1 = .fin r := by
    rw [C45_ends_iff h]
    rintro (h | ⟨h, -⟩ | h)
    · exact lt_irrefl _ h
    · exact lt_irrefl _ h
    · linarith
  obtain ⟨h1, h2⟩ := C45_stuck h 0 angle hn
  have hT : ∀ t, ¬ (g.generate 0 angle 0 0).2.1.lt (.fin t) := by
    intro t
    rw [h1]
    split <;> exact id
  have key := out_infinite Spin.next (fun k => ⟨(g.generate 0 angle 0 0).1, k * period, (g.generate 0 angle 0 0).2.1, period⟩)
    (fun k => ⟨.zero, .zero, (g.generate 0 angle 0 0).1.calculate (k * period)⟩) (fun k => by
      unfold Spin.next
      rw [if_neg (hT _)]
      simp only [Nat.cast_add, Nat.cast_one, add_mul, one_mul]) n 0
  simp only [Nat.cast_zero, zero_mul] at key
  intro o ho
  have ho : o ∈ outputs Spin.next n ⟨(g.generate 0 angle 0 0).1, 0, (g.generate 0 angle 0 0).2.1, period⟩ := ho
  rw [key] at ho
  obtain ⟨k, -, rfl⟩ := List.mem_map.1 ho
  exact ⟨_, rfl, h2 _⟩

/-- C45: every spin by a larger angle ends after finitely many samples, having been asked for the angle. -/
theorem C45_spin_ends {g : Gen} (h : Request g 0 0) (angle period : ℝ) (hp : 0 < period)
    (hs : 2 * rampDist g 0 (resolution g.vMax) ≤ |angle|) :
    ∃ N, ∀ n, outputs Spin.next n (spinGenerate g period angle) = (List.range n).map fun k : Nat =>
      if k < N then some ⟨.zero, .zero, (g.generate 0 angle 0 0).1.calculate (k * period)⟩ else none := by
  obtain ⟨r, hr⟩ := (C45_ends_iff h 0 angle).2 (.inr (.inr hs))
  refine ⟨⌊r / period⌋₊ + 1, fun n => ?_⟩
  rw [← C44_spin (g.generate 0 angle 0 0).1 (finite_start h 0 angle r hr) hp n]
  unfold spinGenerate
  rw [← hr]

example (n : Nat) : ∀ o ∈ outputs Spin.next n (spinGenerate ⟨1, 10, 100⟩ (1 / 1000) 0), ∃ t, o = some t ∧ t.theta.x = 0 ∧ t.theta.v = 0 := by
  have hq : Request ⟨1, 10, 100⟩ 0 0 := by constructor <;> norm_num
  refine C45_spin hq 0 (1 / 1000) ?_ n
  rw [abs_zero]
  have hw : 0 < resolution (1:ℝ) := div_pos one_pos (by positivity)
  have : 0 < rampDist ⟨1, 10, 100⟩ 0 (resolution 1) := by
    unfold rampDist
    rw [sub_zero, abs_of_pos hw]
    exact mul_pos (by linarith) (rampTime_pos (by norm_num) (by norm_num) hw)
  exact mul_pos two_pos this

/-! ## C46: shifting -/

/-- C46: positions are mapped by the rigid motion of the pose; velocities, accelerations and jerks by its rotation; the heading
gains the heading of the pose and its derivatives stay. -/
theorem C46_shift (q : Detect.Pose) (t : Target) :
    ((shift .real q t).x.x, (shift .real q t).y.x) = place q (t.x.x, t.y.x) ∧
    ((shift .real q t).x.v, (shift .real q t).y.v) = rotate q.theta (t.x.v, t.y.v) ∧
    ((shift .real q t).x.a, (shift .real q t).y.a) = rotate q.theta (t.x.a, t.y.a) ∧
    ((shift .real q t).x.j, (shift .real q t).y.j) = rotate q.theta (t.x.j, t.y.j) ∧
    (shift .real q t).theta = ⟨t.theta.x + q.theta, t.theta.v, t.theta.a, t.theta.j⟩ := ⟨rfl, rfl, rfl, rfl, rfl⟩

/-- C46: distances between samples are preserved. -/
theorem C46_distance (q : Detect.Pose) (t t' : Target) :
    ((shift .real q t).x.x - (shift .real q t').x.x) ^ 2 + ((shift .real q t).y.x - (shift .real q t').y.x) ^ 2 =
      (t.x.x - t'.x.x) ^ 2 + (t.y.x - t'.y.x) ^ 2 := by
  have h := Real.sin_sq_add_cos_sq q.theta
  simp only [shift, Trig.real]
  linear_combination ((t.x.x - t'.x.x) ^ 2 + (t.y.x - t'.y.x) ^ 2) * h

/-- C46: speed, and size of acceleration and jerk, are preserved. -/
theorem C46_speed (q : Detect.Pose) (t : Target) :
    (shift .real q t).x.v ^ 2 + (shift .real q t).y.v ^ 2 = t.x.v ^ 2 + t.y.v ^ 2 ∧
    (shift .real q t).x.a ^ 2 + (shift .real q t).y.a ^ 2 = t.x.a ^ 2 + t.y.a ^ 2 ∧
    (shift .real q t).x.j ^ 2 + (shift .real q t).y.j ^ 2 = t.x.j ^ 2 + t.y.j ^ 2 := by
  have h := Real.sin_sq_add_cos_sq q.theta
  simp only [shift, Trig.real]
  exact ⟨by linear_combination (t.x.v ^ 2 + t.y.v ^ 2) * h, by linear_combination (t.x.a ^ 2 + t.y.a ^ 2) * h,
    by linear_combination (t.x.j ^ 2 + t.y.j ^ 2) * h⟩

/-- C46: the velocity in the frame of the robot is the same before and after. -/
theorem C46_body (q : Detect.Pose) (t : Target) :
    rotate (-(shift .real q t).theta.x) ((shift .real q t).x.v, (shift .real q t).y.v) = rotate (-t.theta.x) (t.x.v, t.y.v) := by
  have h := Real.sin_sq_add_cos_sq q.theta
  simp only [rotate, shift, Trig.real, Real.cos_neg, Real.sin_neg, Real.cos_add, Real.sin_add]
  refine Prod.ext ?_ ?_
  · linear_combination (t.x.v * Real.cos t.theta.x + t.y.v * Real.sin t.theta.x) * h
  · linear_combination (-t.x.v * Real.sin t.theta.x + t.y.v * Real.cos t.theta.x) * h

/-- C46: shifting twice is shifting by the composed pose. -/
theorem C46_compose (q r : Detect.Pose) (t : Target) : shift .real q (shift .real r t) = shift .real (compose q r) t := by
  simp only [shift, compose, place, rotate, Trig.real, Real.cos_add, Real.sin_add]
  refine congr (congr (congrArg Target.mk ?_) ?_) ?_
  · refine congr (congr (congr (congrArg Axis.mk ?_) ?_) ?_) ?_ <;> ring
  · refine congr (congr (congr (congrArg Axis.mk ?_) ?_) ?_) ?_ <;> ring
  · refine congr (congr (congr (congrArg Axis.mk ?_) rfl) rfl) rfl
    ring

/-- C46: shifting a sample whose position is the origin and heading zero gives the pose. -/
theorem C46_origin (q : Detect.Pose) (t : Target) (hx : t.x.x = 0) (hy : t.y.x = 0) (ht : t.theta.x = 0) :
    (shift .real q t).x.x = q.x ∧ (shift .real q t).y.x = q.y ∧ (shift .real q t).theta.x = q.theta := by
  simp only [shift, Trig.real, hx, hy, ht]
  simp

/-- C46: a family of targets whose velocity is the derivative of the position is mapped to one with the same property. -/
theorem C46_derivative (q : Detect.Pose) (f : ℝ → Target) (s : ℝ)
    (hx : HasDerivAt (fun s => (f s).x.x) (f s).x.v s) (hy : HasDerivAt (fun s => (f s).y.x) (f s).y.v s) :
    HasDerivAt (fun s => (shift .real q (f s)).x.x) (shift .real q (f s)).x.v s ∧
    HasDerivAt (fun s => (shift .real q (f s)).y.x) (shift .real q (f s)).y.v s :=
  ⟨((hx.mul_const _).sub (hy.mul_const _)).add_const _, ((hx.mul_const _).add (hy.mul_const _)).add_const _⟩

example : (shift .real ⟨1, 2, Real.pi / 2⟩ ⟨⟨3, 1, 0, 0⟩, ⟨4, 0, 0, 0⟩, ⟨0, 0, 0, 0⟩⟩).x.x = -3 ∧
    (shift .real ⟨1, 2, Real.pi / 2⟩ ⟨⟨3, 1, 0, 0⟩, ⟨4, 0, 0, 0⟩, ⟨0, 0, 0, 0⟩⟩).y.x = 5 := by
  simp only [shift, Trig.real, Real.cos_pi_div_two, Real.sin_pi_div_two]
  norm_num

end Verif.Props
