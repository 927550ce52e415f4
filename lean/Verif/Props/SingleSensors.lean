import Verif.Proof.Outline
import Verif.Proof.SingleRun
import Verif.Spec.SingleSensors
/-!
# C128: sensors and motors in single precision
-/
namespace Verif.Props
open Verif Verif.Single Verif.Spec Verif.Binary32 Verif.Proof

variable {exp : F → F}

/-! ## Encoder -/

theorem asI16_raw {n : Nat} (h : n < 2 ^ 16) : Raw (Encoder.asI16 n) := by
  unfold Encoder.asI16 Raw
  split_ifs <;> omega

theorem lowerBits_lt (n : Nat) : Encoder.lowerBits n < 2 ^ 16 := by
  unfold Encoder.lowerBits
  exact Nat.and_lt_two_pow n (by norm_num)

/-- What `relative` returns. -/
theorem relative_small {before count after : Nat} {rel : Int} (hb : before < 2 ^ 16) (h : Encoder.relative before count = .ok (after, rel)) : |rel| ≤ 2 ^ 15 := by
  unfold Encoder.relative at h
  have hl := lowerBits_lt count
  by_cases hc : before < Encoder.lowerBits count
  · simp only [hc, if_true, pure, Except.pure, bind, Except.bind, Except.ok.injEq, Prod.mk.injEq] at h
    obtain ⟨h1, h2⟩ := asI16_raw (n := Encoder.lowerBits count - before) (by omega)
    rw [← h.2, abs_le]
    constructor <;> linarith
  · obtain ⟨h1, h2⟩ := asI16_raw (n := before - Encoder.lowerBits count) (by omega)
    simp only [hc, if_false, pure, Except.pure, bind, Except.bind] at h
    unfold Encoder.negI16 at h
    split_ifs at h with h0
    simp only [Except.ok.injEq, Prod.mk.injEq] at h
    rw [← h.2, abs_neg, abs_le]
    constructor <;> linarith

/-- The angle of a count. -/
theorem revolutions_ok {rel : Int} (h : |rel| ≤ 2 ^ 15) :
    ∃ a : ℝ, revolutions (arith exp) rel = .fin a ∧ |a - 2 * Real.pi * (rel / 1024)| ≤ 3 / 10000000 * |2 * Real.pi * ((rel : ℝ) / 1024)| := by
  have hpi := Real.pi_pos
  have p1 := Real.pi_gt_three
  have p2 := Real.pi_lt_d2
  have hr : |(rel : ℝ)| ≤ 2 ^ 15 := by exact_mod_cast h
  have e1 : (arith exp).div (.fin (rel : ℝ)) (.fin 1024) = .fin ((rel : ℝ) / 1024) := by
    rw [div_rnd (by norm_num)]
    refine rnd_same ?_ ?_
    · have := round24_fix (m := rel) (e := -10) (h.trans (by norm_num)) (by norm_num)
      have e : (rel : ℝ) * 2 ^ (-10 : ℤ) = rel / 1024 := by norm_num [div_eq_mul_inv]
      rwa [e] at this
    · rw [abs_div, abs_of_pos (show (0:ℝ) < 1024 by norm_num), div_le_iff₀ (by norm_num)]
      exact hr.trans (by norm_num)
  obtain ⟨c, ec, c0, bc⟩ := Proof.rnd_up (z := 2 * Real.pi) (by positivity) (by linarith)
  unfold revolutions
  rw [e1, show (arith exp).rnd (2 * Real.pi) = .fin c from ec]
  obtain ⟨b1, b2⟩ := abs_le.1 bc
  have hx : |(rel : ℝ) / 1024| ≤ 32 := by
    rw [abs_div, abs_of_pos (show (0:ℝ) < 1024 by norm_num), div_le_iff₀ (by norm_num)]
    linarith
  have hc : c ≤ 7 := by linarith
  obtain ⟨a, ea, ba⟩ := rnd_tiny (z := (rel : ℝ) / 1024 * c) (by
    rw [abs_mul, abs_of_nonneg c0]
    exact (mul_le_mul hx hc c0 (by norm_num)).trans (by norm_num))
  refine ⟨a, ea, ?_⟩
  by_cases h0 : rel = 0
  · subst h0
    have e : rnd (((0 : ℤ) : ℝ) / 1024 * c) = .fin 0 := by
      rw [Int.cast_zero, zero_div, zero_mul]
      exact rnd_same round24_zero (by norm_num)
    rw [e] at ea
    cases ea
    simp
  · have h1 : (1:ℝ) ≤ |(rel : ℝ)| := by exact_mod_cast Int.one_le_abs h0
    have hx0 : 1 / 1024 ≤ |(rel : ℝ) / 1024| := by
      rw [abs_div, abs_of_pos (show (0:ℝ) < 1024 by norm_num)]
      linarith
    have t1 := abs_add_le (a - (rel : ℝ) / 1024 * c) ((rel : ℝ) / 1024 * (c - 2 * Real.pi))
    have e1 : (a - (rel : ℝ) / 1024 * c) + (rel : ℝ) / 1024 * (c - 2 * Real.pi) = a - 2 * Real.pi * ((rel : ℝ) / 1024) := by ring
    rw [e1, abs_mul] at t1
    rw [abs_mul, abs_of_nonneg c0] at ba
    have t2 := mul_le_mul_of_nonneg_left bc (abs_nonneg ((rel : ℝ) / 1024))
    have t3 := mul_le_mul_of_nonneg_left b2 (abs_nonneg ((rel : ℝ) / 1024))
    rw [abs_mul (2 * Real.pi), abs_of_pos (show 0 < 2 * Real.pi by positivity)]
    have t4 : |(rel : ℝ) / 1024| * 6 ≤ |(rel : ℝ) / 1024| * (2 * Real.pi) := mul_le_mul_of_nonneg_left (by linarith) (abs_nonneg _)
    generalize |(rel : ℝ) / 1024| = X at *
    have e2 : X * (c - 2 * Real.pi) = X * c - X * (2 * Real.pi) := by ring
    have e3 : X * (2 * Real.pi / 10000000 + 1 / 10 ^ 20) = X * (2 * Real.pi) / 10000000 + X / 10 ^ 20 := by ring
    rw [e2] at t3
    rw [e3] at t2 t3
    have e4 : 3 / 10000000 * (2 * Real.pi * X) = X * (2 * Real.pi) * 3 / 10000000 := by ring
    rw [e4]
    norm_num at hx0 ba t2 t3 t1 ⊢
    linarith

/-- C128: the encoder in single precision: it panics when the one in real numbers does, keeps the same count, and its angle is a number, right up to three
ten-millionths of itself; so it is zero only when the wheel has not turned. -/
theorem C128_encoder {before : Nat} (hb : before < 2 ^ 16) (count : Nat) :
    (∀ e, Encoder.angle before count = .error e → encoderAngle (arith exp) before count = .error e) ∧
    ∀ after (rev : ℝ), Encoder.angle before count = .ok (after, rev) → ∃ a : ℝ, encoderAngle (arith exp) before count = .ok (after, .fin a) ∧
      |a - 2 * Real.pi * rev| ≤ 3 / 10000000 * |2 * Real.pi * rev| ∧ |rev| ≤ 32 := by
  unfold Encoder.angle encoderAngle
  cases h : Encoder.relative before count with
  | error e =>
    refine ⟨fun e' he => ?_, fun after rev he => ?_⟩
    · cases he
      rfl
    · cases he
  | ok x =>
    obtain ⟨after, rel⟩ := x
    have hs := relative_small hb h
    refine ⟨fun e he => (by cases he), fun after' rev he => ?_⟩
    cases he
    obtain ⟨a, ea, ba⟩ := revolutions_ok (exp := exp) hs
    refine ⟨a, ?_, ba, ?_⟩
    · show Except.ok (after, revolutions (arith exp) rel) = _
      rw [ea]
    · have hr : |(rel : ℝ)| ≤ 2 ^ 15 := by exact_mod_cast hs
      unfold Encoder.revolutions
      rw [abs_div, abs_of_pos (show (0:ℝ) < 1024 by norm_num), div_le_iff₀ (by norm_num)]
      linarith

/-- The wheel has turned back by one count, of 1024: 0.0061 rad. -/
example (exp : F → F) : ∃ a : ℝ, encoderAngle (arith exp) 0 65535 = .ok (65535, .fin a) ∧ |a + 2 * Real.pi / 1024| ≤ 1 / 100000000 := by
  have e : Encoder.relative 0 65535 = .ok (65535, -1) := by decide
  have e' : Encoder.angle 0 65535 = .ok (65535, Encoder.revolutions (-1)) := by unfold Encoder.angle; rw [e]; rfl
  obtain ⟨a, h1, h2, -⟩ := (C128_encoder (exp := exp) (before := 0) (by norm_num) 65535).2 _ _ e'
  refine ⟨a, h1, ?_⟩
  have p := Real.pi_lt_d2
  have p0 := Real.pi_pos
  have e3 : 2 * Real.pi * Encoder.revolutions (-1) = -(2 * Real.pi / 1024) := by unfold Encoder.revolutions; push_cast; ring
  rw [e3, sub_neg_eq_add, abs_neg, abs_of_pos (a := 2 * Real.pi / 1024) (by positivity)] at h2
  refine h2.trans ?_
  linarith

/-! ## Distance sensor -/

theorem metres_ok {d : Nat} (h : d < 256) : ∃ m : ℝ, metres (arith exp) d = .fin m ∧ 0 ≤ m ∧ |m - d / 1000| ≤ 3 / 100000000 := by
  have hd : (d : ℝ) ≤ 255 := by exact_mod_cast Nat.lt_succ_iff.1 h
  have h0 : (0:ℝ) ≤ d / 1000 := by positivity
  obtain ⟨m, em, m0, bm⟩ := Proof.rnd_up (z := (d : ℝ) / 1000) h0 (by linarith)
  refine ⟨m, by unfold metres; rw [div_rnd (by norm_num)]; exact em, m0, bm.trans ?_⟩
  norm_num
  linarith

/-- C128: the distance sensor in single precision: for each byte a number of metres, right up to thirty nanometres, larger for a larger byte. -/
theorem C128_distance {d : Nat} (h : d < 256) : ∃ m : ℝ, metres (arith exp) d = .fin m ∧ |m - d / 1000| ≤ 3 / 100000000 ∧
    ∀ d' m', d < d' → d' < 256 → metres (arith exp) d' = .fin m' → m < m' := by
  obtain ⟨m, em, -, bm⟩ := metres_ok (exp := exp) h
  refine ⟨m, em, bm, fun d' m' hd h' e' => ?_⟩
  obtain ⟨m2, em2, -, bm2⟩ := metres_ok (exp := exp) h'
  rw [e'] at em2
  cases em2
  have h1 : (d : ℝ) + 1 ≤ d' := by exact_mod_cast hd
  have := (abs_le.1 bm).2
  have := (abs_le.1 bm2).1
  linarith

/-! ## Motor -/

theorem asU16_le {x : F} {m : Nat} (hm : m ≤ 65535) (h : ∀ r : ℝ, x = .fin r → r ≤ m) (hp : x ≠ .pinf) : asU16 x ≤ m := by
  cases x with
  | nan => exact Nat.zero_le _
  | ninf => exact Nat.zero_le _
  | pinf => exact absurd rfl hp
  | fin r =>
    show min 65535 ⌊r⌋₊ ≤ m
    refine (min_le_right _ _).trans ?_
    have := Nat.floor_le_floor (h r rfl)
    rwa [Nat.floor_natCast] at this

theorem nat_fix {m : Nat} (hm : m ≤ 65535) : round24 (m : ℝ) = m := by
  have := round24_fix (m := m) (e := 0) (by rw [abs_of_nonneg (by omega)]; omega) (by norm_num)
  simpa using this

/-- The duty of the other pin. -/
theorem duty_ok {m : Nat} (hm : m ≤ 65535) {q : ℝ} (q0 : 0 ≤ q) (q1 : q ≤ 1) :
    asU16 ((arith exp).mul ((arith exp).sub (.fin 1) (.fin q)) (.fin m)) ≤ m ∧
      |(asU16 ((arith exp).mul ((arith exp).sub (.fin 1) (.fin q)) (.fin m)) : ℝ) - (1 - q) * m| ≤ 1 + 1 / 50 := by
  have hm' : (m : ℝ) ≤ 65535 := by exact_mod_cast hm
  have m0 : (0:ℝ) ≤ m := by positivity
  have f1 := nat_fix hm
  have one : round24 1 = (1:ℝ) := by simpa using nat_fix (m := 1) (by norm_num)
  obtain ⟨x, ex, x0, bx⟩ := Proof.rnd_up (z := 1 - q) (by linarith) (by linarith)
  have x1 : x ≤ 1 := rnd_le_fix one (by linarith) ex
  have e1 : (arith exp).sub (.fin 1) (.fin q) = .fin x := by
    show rnd (1 + -q) = _
    rw [← sub_eq_add_neg, ex]
  have p0 : 0 ≤ x * m := mul_nonneg x0 m0
  have p1 : x * m ≤ m := mul_le_of_le_one_left m0 x1
  obtain ⟨y, ey, y0, b2⟩ := Proof.rnd_up (z := x * m) p0 (by linarith)
  have y1 : y ≤ m := rnd_le_fix f1 p1 ey
  rw [e1, show (arith exp).mul (.fin x) (.fin (m : ℝ)) = .fin y from ey]
  have hle : asU16 (.fin y) ≤ m := asU16_le hm (fun r hr => by cases hr; exact y1) (by simp)
  refine ⟨hle, ?_⟩
  have e2 : asU16 (.fin y) = ⌊y⌋₊ := by
    show min 65535 ⌊y⌋₊ = _
    refine min_eq_right ?_
    have := Nat.floor_le_floor y1
    rw [Nat.floor_natCast] at this
    omega
  rw [e2]
  have g1 := Nat.floor_le y0
  have g2 := (Nat.lt_floor_add_one y).le
  have t1 : |x * m - (1 - q) * m| ≤ ((1 - q) / 10000000 + 1 / 10 ^ 20) * m := by
    rw [← sub_mul, abs_mul, abs_of_nonneg m0]
    exact mul_le_mul_of_nonneg_right bx m0
  have t2 : ((1 - q) / 10000000 + 1 / 10 ^ 20) * m ≤ (1 / 10000000 + 1 / 10 ^ 20) * m :=
    mul_le_mul_of_nonneg_right (by linarith) m0
  obtain ⟨a1, a2⟩ := abs_le.1 b2
  obtain ⟨a3, a4⟩ := abs_le.1 (t1.trans t2)
  norm_num at a1 a2 a3 a4 ⊢
  rw [abs_le]
  constructor <;> linarith

/-- The part of the battery voltage that is used. -/
theorem part_ok {v b : ℝ} (hb : 0 < b) (hv : 0 ≤ v) :
    ∃ q : ℝ, (open Classical in if (F.fin 1).lt ((arith exp).div (.fin v) (.fin b)) then F.fin 1 else (arith exp).div (.fin v) (.fin b)) = .fin q ∧ 0 ≤ q ∧ q ≤ 1 ∧
      |q - min 1 (v / b)| ≤ 1 / 5000000 := by
  have one : round24 1 = (1:ℝ) := by simpa using nat_fix (m := 1) (by norm_num)
  have h0 : 0 ≤ v / b := by positivity
  rw [div_rnd hb.ne']
  rcases le_or_gt (v / b) 1 with h | h
  · obtain ⟨x, ex, x0, bx⟩ := Proof.rnd_up (z := v / b) h0 (by linarith)
    have x1 : x ≤ 1 := rnd_le_fix one h ex
    rw [ex, if_neg (show ¬ (F.fin 1).lt (.fin x) from not_lt.2 x1)]
    refine ⟨x, rfl, x0, x1, ?_⟩
    rw [min_eq_right h]
    refine bx.trans ?_
    norm_num
    linarith
  · have hr : 1 ≤ round24 (v / b) := by
      rw [← one]
      exact round24_mono h.le
    refine ⟨1, ?_, by norm_num, le_rfl, by rw [min_eq_left h.le]; norm_num⟩
    rcases le_or_gt (2 ^ 128) (round24 (v / b)) with c | c
    · have e : rnd (v / b) = .pinf := by
        unfold rnd
        rw [if_pos c]
      rw [e, if_pos (show (F.fin 1).lt .pinf from trivial)]
    · have e : rnd (v / b) = .fin (round24 (v / b)) := by
        unfold rnd
        rw [if_neg (not_le.2 c), if_neg (by
          have : (0:ℝ) < 2 ^ 128 := by positivity
          linarith)]
      rw [e]
      by_cases c1 : 1 < round24 (v / b)
      · rw [if_pos (show (F.fin 1).lt (.fin _) from c1)]
      · rw [if_neg (show ¬ (F.fin 1).lt (.fin _) from c1), le_antisymm (not_lt.1 c1) hr]

theorem duty_near {m : Nat} (hm : m ≤ 65535) {v b q : ℝ} (q0 : 0 ≤ q) (q1 : q ≤ 1) (hq : |q - min 1 (|v| / b)| ≤ 1 / 5000000) :
    asU16 ((arith exp).mul ((arith exp).sub (.fin 1) (.fin q)) (.fin m)) ≤ m ∧
      |(asU16 ((arith exp).mul ((arith exp).sub (.fin 1) (.fin q)) (.fin m)) : ℝ) - idealDuty m v b| ≤ 1 + 1 / 25 := by
  obtain ⟨h1, h2⟩ := duty_ok (exp := exp) hm q0 q1
  refine ⟨h1, ?_⟩
  have hm' : (m : ℝ) ≤ 65535 := by exact_mod_cast hm
  have m0 : (0:ℝ) ≤ m := by positivity
  unfold idealDuty
  have t : |(1 - q) * (m : ℝ) - (1 - min 1 (|v| / b)) * m| ≤ 1 / 5000000 * 65535 := by
    rw [← sub_mul, abs_mul, abs_of_nonneg m0, show (1 - q) - (1 - min 1 (|v| / b)) = -(q - min 1 (|v| / b)) by ring, abs_neg]
    exact mul_le_mul hq hm' m0 (by norm_num)
  obtain ⟨a1, a2⟩ := abs_le.1 h2
  obtain ⟨a3, a4⟩ := abs_le.1 t
  norm_num at a1 a2 a3 a4 ⊢
  rw [abs_le]
  constructor <;> linarith

/-- C128: the motor in single precision, with a battery that is a positive number: for a voltage that is a number one pin gets its maximum, the other within 1.04 of the
part of its maximum that the voltage leaves over, and never more than it; infinite voltages drive at full speed in their direction. -/
theorem C128_motor {max1 max2 : Nat} (h1 : max1 ≤ 65535) (h2 : max2 ≤ 65535) {b : ℝ} (hb : 0 < b) :
    (∀ v : ℝ, 0 < v → (motorDuties (arith exp) max1 max2 (.fin v) (.fin b)).2 = max2 ∧ (motorDuties (arith exp) max1 max2 (.fin v) (.fin b)).1 ≤ max1 ∧
      |((motorDuties (arith exp) max1 max2 (.fin v) (.fin b)).1 : ℝ) - idealDuty max1 v b| ≤ 1 + 1 / 25) ∧
    (∀ v : ℝ, v ≤ 0 → (motorDuties (arith exp) max1 max2 (.fin v) (.fin b)).1 = max1 ∧ (motorDuties (arith exp) max1 max2 (.fin v) (.fin b)).2 ≤ max2 ∧
      |((motorDuties (arith exp) max1 max2 (.fin v) (.fin b)).2 : ℝ) - idealDuty max2 v b| ≤ 1 + 1 / 25) ∧
    motorDuties (arith exp) max1 max2 .pinf (.fin b) = (0, max2) ∧ motorDuties (arith exp) max1 max2 .ninf (.fin b) = (max1, 0) := by
  have one : round24 1 = (1:ℝ) := by simpa using nat_fix (m := 1) (by norm_num)
  have z : ∀ m : Nat, asU16 ((arith exp).mul ((arith exp).sub (.fin 1) (.fin 1)) (.fin m)) = 0 := by
    intro m
    have e1 : (arith exp).sub (.fin 1) (.fin 1) = .fin 0 := by
      show rnd (1 + -1) = _
      rw [add_neg_cancel]
      exact rnd_same round24_zero (by norm_num)
    have e2 : (arith exp).mul (.fin 0) (.fin (m : ℝ)) = .fin 0 := by
      show rnd (0 * (m : ℝ)) = _
      rw [zero_mul]
      exact rnd_same round24_zero (by norm_num)
    rw [e1, e2]
    show min 65535 ⌊(0:ℝ)⌋₊ = 0
    simp
  refine ⟨fun v hv => ?_, fun v hv => ?_, ?_, ?_⟩
  · obtain ⟨q, eq, q0, q1, bq⟩ := part_ok (exp := exp) hb hv.le
    unfold motorDuties
    rw [if_pos (show (F.fin 0).lt (.fin v) from hv)]
    dsimp only
    rw [eq]
    obtain ⟨a1, a2⟩ := duty_near (exp := exp) (v := v) (b := b) h1 q0 q1 (by rwa [abs_of_pos hv])
    exact ⟨rfl, a1, a2⟩
  · obtain ⟨q, eq, q0, q1, bq⟩ := part_ok (exp := exp) (v := -v) hb (by linarith)
    unfold motorDuties
    rw [if_neg (show ¬ (F.fin 0).lt (.fin v) from not_lt.2 hv)]
    dsimp only
    have e : ((arith exp).div (.fin v) (.fin b)).neg = (arith exp).div (.fin (-v)) (.fin b) := by
      rw [div_rnd hb.ne', div_rnd hb.ne', ← rnd_neg, neg_div]
    rw [e, eq]
    obtain ⟨a1, a2⟩ := duty_near (exp := exp) (v := v) (b := b) h2 q0 q1 (by rwa [abs_of_nonpos hv])
    exact ⟨rfl, a1, a2⟩
  · unfold motorDuties
    rw [if_pos (show (F.fin 0).lt .pinf from trivial)]
    dsimp only
    have e : (arith exp).div .pinf (.fin b) = .pinf := if_neg (not_lt.2 hb.le)
    rw [e, if_pos (show (F.fin 1).lt .pinf from trivial), z]
  · unfold motorDuties
    rw [if_neg (show ¬ (F.fin 0).lt .ninf from id)]
    dsimp only
    have e : (arith exp).div .ninf (.fin b) = .ninf := if_neg (not_lt.2 hb.le)
    rw [e, if_pos (show (F.fin 1).lt F.ninf.neg from trivial), z]

/-- C128: what is not a number: a voltage, or a battery, that is NaN drives the motor backwards with all the battery has, and so does no voltage with a battery of 0. -/
theorem C128_motor_nan (max1 max2 : Nat) : (∀ b, motorDuties (arith exp) max1 max2 .nan b = (max1, 0)) ∧
    (∀ v : ℝ, v ≤ 0 → motorDuties (arith exp) max1 max2 (.fin v) .nan = (max1, 0)) ∧ motorDuties (arith exp) max1 max2 (.fin 0) (.fin 0) = (max1, 0) := by
  refine ⟨fun b => ?_, fun v hv => ?_, ?_⟩
  · unfold motorDuties
    rw [if_neg (show ¬ (F.fin 0).lt .nan from id)]
    dsimp only
    have e : (arith exp).div .nan b = .nan := rfl
    rw [e, if_neg (show ¬ (F.fin 1).lt F.nan.neg from id)]
    rfl
  · unfold motorDuties
    rw [if_neg (show ¬ (F.fin 0).lt (.fin v) from not_lt.2 hv)]
    dsimp only
    have e : (arith exp).div (.fin v) .nan = .nan := rfl
    rw [e, if_neg (show ¬ (F.fin 1).lt F.nan.neg from id)]
    rfl
  · unfold motorDuties
    rw [if_neg (show ¬ (F.fin 0).lt (.fin 0) from lt_irrefl (0:ℝ))]
    dsimp only
    have e : (arith exp).div (.fin 0) (.fin 0) = .nan := by
      show (if (0:ℝ) = 0 then F.infOf 0 else _) = _
      rw [if_pos rfl]
      unfold F.infOf
      rw [if_neg (lt_irrefl _), if_neg (lt_irrefl _)]
    rw [e, if_neg (show ¬ (F.fin 1).lt F.nan.neg from id)]
    rfl

/-- Half the battery voltage: half the maximum, or one or two less or more. -/
example (exp : F → F) : (motorDuties (arith exp) 1000 1000 (.fin 2) (.fin 4)).2 = 1000 ∧ |((motorDuties (arith exp) 1000 1000 (.fin 2) (.fin 4)).1 : ℝ) - 500| ≤ 1 + 1 / 25 := by
  obtain ⟨a, -, c⟩ := (C128_motor (exp := exp) (max1 := 1000) (max2 := 1000) (by norm_num) (by norm_num) (b := 4) (by norm_num)).1 2 (by norm_num)
  refine ⟨a, ?_⟩
  have e : idealDuty 1000 2 4 = 500 := by
    unfold idealDuty
    rw [abs_of_pos (by norm_num), min_eq_right (by norm_num)]
    norm_num
  rwa [e] at c

/-! ## Voltmeter -/

/-- Rounding as a factor. -/
theorem rnd_factor {z : ℝ} (h : 1 / 10 ^ 9 ≤ z) (h' : z ≤ 1000000) : ∃ d : ℝ, rnd z = .fin (z * (1 + d)) ∧ |d| ≤ 101 / 1000000000 := by
  have z0 : 0 < z := lt_of_lt_of_le (by norm_num) h
  obtain ⟨x, ex, x0, bx⟩ := Proof.rnd_up z0.le h'
  refine ⟨(x - z) / z, ?_, ?_⟩
  · rw [ex]
    congr 1
    field_simp
    ring
  · rw [abs_div, abs_of_pos z0, div_le_iff₀ z0]
    refine bx.trans ?_
    norm_num at h ⊢
    linarith

theorem factor_mul {d d' a a' : ℝ} (h : |d| ≤ a) (h' : |d'| ≤ a') : |(1 + d) * (1 + d') - 1| ≤ a + a' + a * a' := by
  have e : (1 + d) * (1 + d') - 1 = d + d' + d * d' := by ring
  rw [e]
  have t1 := abs_add_le (d + d') (d * d')
  have t2 := abs_add_le d d'
  have t3 : |d * d'| ≤ a * a' := by
    rw [abs_mul]
    exact mul_le_mul h h' (abs_nonneg _) ((abs_nonneg _).trans h)
  linarith

/-- The weight of the old voltage. -/
theorem alpha_ok {p f : ℝ} (h1 : 1 / 10000 ≤ p * f) (h2 : p * f ≤ 1000) : ∃ a : ℝ,
    (arith exp).div (.fin 1) ((arith exp).add ((arith exp).mul ((arith exp).mul (.fin 2) ((arith exp).rnd Real.pi)) ((arith exp).mul (.fin p) (.fin f))) (.fin 1)) = .fin a ∧
      0 ≤ a ∧ a ≤ 1 ∧ |a - 1 / (2 * Real.pi * (p * f) + 1)| ≤ 8 / 10000000 := by
  have one : round24 1 = (1:ℝ) := by simpa using nat_fix (m := 1) (by norm_num)
  have p1 := Real.pi_gt_three
  have p2 := Real.pi_lt_d2
  norm_num at p2
  obtain ⟨d1, e1, b1⟩ := rnd_factor (z := Real.pi) (by norm_num; linarith) (by linarith)
  have l1 := abs_le.1 b1
  have c1 : (3:ℝ) * (1 - 1 / 1000000) ≤ Real.pi * (1 + d1) := mul_le_mul p1.le (by linarith [l1.1]) (by norm_num) (by linarith)
  have c2 : Real.pi * (1 + d1) ≤ 3.15 * (1 + 1 / 1000000) := mul_le_mul (by linarith) (by linarith [l1.2]) (by linarith [l1.1]) (by norm_num)
  norm_num at c1 c2
  obtain ⟨d2, e2, b2⟩ := rnd_factor (z := 2 * (Real.pi * (1 + d1))) (by norm_num; linarith) (by linarith)
  obtain ⟨d3, e3, b3⟩ := rnd_factor (z := p * f) (by norm_num at h1 ⊢; linarith) (by linarith)
  have f1 := factor_mul b1 b2
  have f2 := factor_mul f1 b3
  obtain ⟨D, hD⟩ : ∃ D, D = (1 + d1) * (1 + d2) * (1 + d3) - 1 := ⟨_, rfl⟩
  have f3 : |D| ≤ 31 / 100000000 := by
    have e : D = (1 + ((1 + d1) * (1 + d2) - 1)) * (1 + d3) - 1 := by rw [hD]; ring
    rw [e]
    refine f2.trans ?_
    norm_num
  have eZ : 2 * (Real.pi * (1 + d1)) * (1 + d2) * (p * f * (1 + d3)) = 2 * Real.pi * (p * f) * (1 + D) := by rw [hD]; ring
  obtain ⟨Z, hZ⟩ : ∃ Z, Z = 2 * Real.pi * (p * f) := ⟨_, rfl⟩
  have Z1 : 6 / 10000 ≤ Z := by
    rw [hZ]
    have := mul_le_mul (show (6:ℝ) ≤ 2 * Real.pi by linarith) h1 (by norm_num) (by linarith)
    linarith
  have Z2 : Z ≤ 6300 := by
    rw [hZ]
    have := mul_le_mul (show 2 * Real.pi ≤ (6.3:ℝ) by linarith) h2 (by linarith) (by norm_num)
    linarith
  have l3 := abs_le.1 f3
  have z1 : 6 / 10000 * (1 / 2) ≤ Z * (1 + D) := mul_le_mul Z1 (by linarith [l3.1]) (by norm_num) (by linarith)
  have z2 : Z * (1 + D) ≤ 6300 * 2 := mul_le_mul Z2 (by linarith [l3.2]) (by linarith [l3.1]) (by norm_num)
  obtain ⟨d4, e4, b4⟩ := rnd_factor (z := Z * (1 + D)) (by norm_num at z1 ⊢; linarith) (by linarith)
  have f4 := factor_mul f3 b4
  obtain ⟨D', hD'⟩ : ∃ D', D' = (1 + D) * (1 + d4) - 1 := ⟨_, rfl⟩
  rw [← hD'] at f4
  norm_num at f4
  have e5 : Z * (1 + D) * (1 + d4) = Z * (1 + D') := by rw [hD']; ring
  rw [e5] at e4
  have l4 := abs_le.1 f4
  have z3 : 0 ≤ Z * (1 + D') := mul_nonneg (by linarith) (by linarith [l4.1])
  have z4 : Z * (1 + D') ≤ 6300 * 2 := mul_le_mul Z2 (by linarith [l4.2]) (by linarith [l4.1]) (by norm_num)
  obtain ⟨w, ew, w0, bw⟩ := Proof.rnd_up (z := Z * (1 + D') + 1) (by linarith) (by linarith)
  have w1 : 1 ≤ w := by
    have := round24_mono (show (1:ℝ) ≤ Z * (1 + D') + 1 by linarith)
    rwa [one, ← (rnd_fin ew).1] at this
  have hw : |w - (Z + 1)| ≤ 6 / 10000000 * (Z + 1) := by
    have t1 := abs_add_le (w - (Z * (1 + D') + 1)) (Z * D')
    have e : w - (Z * (1 + D') + 1) + Z * D' = w - (Z + 1) := by ring
    rw [e, abs_mul, abs_of_pos (show 0 < Z by linarith)] at t1
    have t2 := mul_le_mul_of_nonneg_left f4 (show 0 ≤ Z by linarith)
    have t3 := mul_le_mul_of_nonneg_left ((le_abs_self D').trans f4) (show 0 ≤ Z by linarith)
    norm_num at bw t1 ⊢
    linarith
  have q0 : 0 ≤ 1 / w := by positivity
  have q1 : 1 / w ≤ 1 := by rw [div_le_one (by linarith)]; exact w1
  obtain ⟨a, ea, a0, ba⟩ := Proof.rnd_up q0 (by linarith)
  have a1 : a ≤ 1 := rnd_le_fix one q1 ea
  refine ⟨a, ?_, a0, a1, ?_⟩
  · have x1 : (arith exp).mul (.fin 2) ((arith exp).rnd Real.pi) = .fin (2 * (Real.pi * (1 + d1)) * (1 + d2)) := by
      rw [show (arith exp).rnd Real.pi = _ from e1]
      exact e2
    have x2 : (arith exp).mul (.fin p) (.fin f) = .fin (p * f * (1 + d3)) := e3
    rw [x1, x2]
    have x3 : (arith exp).mul (.fin (2 * (Real.pi * (1 + d1)) * (1 + d2))) (.fin (p * f * (1 + d3))) = .fin (Z * (1 + D')) := by
      show rnd (2 * (Real.pi * (1 + d1)) * (1 + d2) * (p * f * (1 + d3))) = _
      rw [eZ, ← hZ, e4]
    rw [x3, show (arith exp).add (.fin (Z * (1 + D'))) (.fin 1) = .fin w from ew, div_rnd (by linarith), ea]
  · rw [← hZ]
    have hq : |1 / w - 1 / (Z + 1)| ≤ 6 / 10000000 := by
      have e : 1 / w - 1 / (Z + 1) = -(w - (Z + 1)) / (w * (Z + 1)) := by
        have : Z + 1 ≠ 0 := by linarith
        field_simp
        ring
      rw [e, abs_div, abs_neg, abs_of_pos (show 0 < w * (Z + 1) by apply mul_pos <;> linarith), div_le_iff₀ (by apply mul_pos <;> linarith)]
      refine hw.trans ?_
      have := mul_le_mul_of_nonneg_right w1 (show 0 ≤ Z + 1 by linarith)
      linarith
    have t := abs_add_le (a - 1 / w) (1 / w - 1 / (Z + 1))
    rw [sub_add_sub_cancel] at t
    generalize 1 / w = Q at *
    generalize 1 / (Z + 1) = P at *
    norm_num at ba t hq ⊢
    linarith

/-- One reading of at most `N`. -/
theorem reading_ok {N n : Nat} {r : ℝ} (hN : 1 ≤ N) (hn : n ≤ N) (hr : 1 / 1000 ≤ r) (hNr : N * r ≤ 250000) (hN' : N ≤ 65535) : ∃ u : ℝ,
    currentVoltage (arith exp) (.fin r) (some n) = .ok (.fin u) ∧ 0 ≤ u ∧ |u - n * 3.3 * r / 4096| ≤ 5 / 10000000 * (N * 3.3 * r / 4096) := by
  have hN1 : (1:ℝ) ≤ N := by exact_mod_cast hN
  have hn' : (n:ℝ) ≤ N := by exact_mod_cast hn
  have hN2 : (N:ℝ) ≤ 65535 := by exact_mod_cast hN'
  have n0 : (0:ℝ) ≤ n := by positivity
  have r0 : 0 ≤ r := by linarith
  have W1 : r ≤ N * r := le_mul_of_one_le_left r0 hN1
  obtain ⟨c, ec, c0, bc⟩ := Proof.rnd_up (z := (3.3:ℝ)) (by norm_num) (by norm_num)
  norm_num at bc
  have lc := abs_le.1 bc
  have k1 : n * c ≤ N * 3.31 := mul_le_mul hn' (by linarith [lc.2]) c0 (by linarith)
  obtain ⟨x, ex, x0, bx⟩ := Proof.rnd_up (z := (n:ℝ) * c) (mul_nonneg n0 c0) (by linarith)
  have bx' : |x - n * 3.3| ≤ N * (7 / 10000000) := by
    have t := abs_add_le (x - n * c) (n * (c - 3.3))
    have e : x - n * c + n * (c - 3.3) = x - n * 3.3 := by ring
    rw [e, abs_mul, abs_of_nonneg n0] at t
    have t2 : (n:ℝ) * |c - 3.3| ≤ N * (34 / 100000000) := mul_le_mul hn' (by norm_num at bc ⊢; linarith) (abs_nonneg _) (by linarith)
    norm_num at t bx t2 ⊢
    linarith
  have lx := abs_le.1 bx'
  have k2 : x ≤ N * 3.31 := by linarith [lx.2]
  have k3 : x * r ≤ N * r * 3.31 := by
    have := mul_le_mul_of_nonneg_right k2 r0
    linarith
  obtain ⟨y, ey, y0, b2⟩ := Proof.rnd_up (z := x * r) (mul_nonneg x0 r0) (by linarith)
  have b2' : |y - n * 3.3 * r| ≤ N * r * (11 / 10000000) := by
    have t := abs_add_le (y - x * r) ((x - n * 3.3) * r)
    have e : y - x * r + (x - n * 3.3) * r = y - n * 3.3 * r := by ring
    rw [e, abs_mul, abs_of_nonneg r0] at t
    have t2 := mul_le_mul_of_nonneg_right bx' r0
    have e2 : (N:ℝ) * (7 / 10000000) * r = N * r * (7 / 10000000) := by ring
    rw [e2] at t2
    norm_num at t b2 ⊢
    norm_num at hr
    linarith
  have ly := abs_le.1 b2'
  have k4 : (n:ℝ) * 3.3 * r ≤ N * r * 3.3 := by
    have := mul_le_mul_of_nonneg_right (mul_le_mul_of_nonneg_right hn' (show (0:ℝ) ≤ 3.3 by norm_num)) r0
    linarith
  obtain ⟨u, eu, u0, b3⟩ := Proof.rnd_up (z := y / 4096) (by positivity) (by linarith [ly.2])
  refine ⟨u, ?_, u0, ?_⟩
  · show Except.ok ((arith exp).div ((arith exp).mul ((arith exp).mul (.fin (n:ℝ)) ((arith exp).rnd 3.3)) (.fin r)) (.fin 4096)) = _
    rw [show (arith exp).rnd 3.3 = .fin c from ec, show (arith exp).mul (.fin (n:ℝ)) (.fin c) = .fin x from ex, show (arith exp).mul (.fin x) (.fin r) = .fin y from ey,
      div_rnd (by norm_num), eu]
  · obtain ⟨a1, a2⟩ := abs_le.1 b3
    obtain ⟨a3, a4⟩ := ly
    have e2 : (N:ℝ) * 3.3 * r = N * r * 3.3 := by ring
    rw [e2]
    generalize (N:ℝ) * r = W at *
    generalize (n:ℝ) * 3.3 * r = V at *
    norm_num at *
    rw [abs_le]
    constructor <;> linarith

/-- The sum of readings. -/
theorem voltageSum_ok {N : Nat} {r : ℝ} (hN : 1 ≤ N) (hr : 1 / 1000 ≤ r) (hNr : N * r ≤ 250000) (hN' : N ≤ 65535) {adc : Nat → Option Nat}
    (ha : ∀ k n, adc k = some n → n ≤ N) : ∀ (n k : Nat) (i : ℝ) (s t : ℝ), i + n ≤ 100 → 0 ≤ i → 0 ≤ s → 0 ≤ t → t ≤ i * (N * 3.3 * r / 4096) →
      |s - t| ≤ i * (12 / 1000000 * (N * 3.3 * r / 4096)) →
    (∀ e, Voltmeter.sumLoop r adc n k t = .error e → voltageSum (arith exp) (.fin r) adc n k (.fin s) = .error e) ∧
      ∀ t', Voltmeter.sumLoop r adc n k t = .ok t' → ∃ s' : ℝ, voltageSum (arith exp) (.fin r) adc n k (.fin s) = .ok (.fin s') ∧ 0 ≤ s' ∧ 0 ≤ t' ∧
        t' ≤ (i + n) * (N * 3.3 * r / 4096) ∧ |s' - t'| ≤ (i + n) * (12 / 1000000 * (N * 3.3 * r / 4096)) := by
  have hN1 : (1:ℝ) ≤ N := by exact_mod_cast hN
  have r0 : 0 ≤ r := by linarith
  have W1 : r ≤ N * r := le_mul_of_one_le_left r0 hN1
  have eM : (N:ℝ) * 3.3 * r / 4096 = N * r * (3.3 / 4096) := by ring
  have M1 : 7 / 10000000 ≤ (N:ℝ) * 3.3 * r / 4096 := by
    rw [eM]
    norm_num at hr ⊢
    linarith
  have M2 : (N:ℝ) * 3.3 * r / 4096 ≤ 210 := by
    rw [eM]
    norm_num at hr ⊢
    linarith
  intro n
  induction n with
  | zero =>
    intro k i s t hi i0 s0 t0 ht h
    refine ⟨fun e he => (by cases he), fun t' he => ?_⟩
    cases he
    refine ⟨s, rfl, s0, t0, ?_, ?_⟩ <;> simpa using by assumption
  | succ n ih =>
    intro k i s t hi i0 s0 t0 ht h
    push_cast at hi
    have hn : (0:ℝ) ≤ n := by positivity
    unfold Voltmeter.sumLoop voltageSum
    cases hk : adc k with
    | none =>
      refine ⟨fun e he => ?_, fun t' he => ?_⟩
      · cases he
        rfl
      · cases he
    | some v =>
      have hv := ha k v hk
      obtain ⟨u, eu, u0, bu⟩ := reading_ok (exp := exp) hN hv hr hNr hN'
      rw [eu]
      show (∀ e, Voltmeter.sumLoop r adc n (k + 1) (t + v * 3.3 * r / 4096) = .error e → voltageSum (arith exp) (.fin r) adc n (k + 1) ((arith exp).add (.fin s) (.fin u)) = .error e) ∧
        ∀ t', Voltmeter.sumLoop r adc n (k + 1) (t + v * 3.3 * r / 4096) = .ok t' → ∃ s' : ℝ, voltageSum (arith exp) (.fin r) adc n (k + 1) ((arith exp).add (.fin s) (.fin u)) = .ok (.fin s') ∧ _
      have hV : (v : ℝ) * 3.3 * r / 4096 ≤ N * 3.3 * r / 4096 := by
        have hv' : (v:ℝ) ≤ N := by exact_mod_cast hv
        have := mul_le_mul_of_nonneg_right (mul_le_mul_of_nonneg_right hv' (show (0:ℝ) ≤ 3.3 by norm_num)) r0
        linarith
      have V0 : 0 ≤ (v : ℝ) * 3.3 * r / 4096 := by positivity
      generalize (v : ℝ) * 3.3 * r / 4096 = V at *
      generalize (N : ℝ) * 3.3 * r / 4096 = M at *
      have i1 : i * M ≤ 99 * M := mul_le_mul_of_nonneg_right (by linarith) (by linarith)
      have i2 : i * (12 / 1000000 * M) ≤ 99 * (12 / 1000000 * M) := mul_le_mul_of_nonneg_right (by linarith) (by linarith)
      obtain ⟨a1, a2⟩ := abs_le.1 h
      obtain ⟨a3, a4⟩ := abs_le.1 bu
      obtain ⟨s', es, s0', bs⟩ := Proof.rnd_up (z := s + u) (by linarith) (by linarith)
      rw [show (arith exp).add (.fin s) (.fin u) = .fin s' from es]
      have step : |s' - (t + V)| ≤ (i + 1) * (12 / 1000000 * M) := by
        obtain ⟨a5, a6⟩ := abs_le.1 bs
        have e : (i + 1) * (12 / 1000000 * M) = i * (12 / 1000000 * M) + 12 / 1000000 * M := by ring
        rw [e, abs_le]
        norm_num at a5 a6 M1
        constructor <;> linarith
      have := ih (k + 1) (i + 1) s' (t + V) (by linarith) (by linarith) s0' (by linarith) (by linarith) step
      push_cast
      rwa [show i + (n + 1 : ℝ) = i + 1 + n by ring]

/-- The bound of the error of the voltage. -/
noncomputable def slack (M α : ℝ) : ℝ := (13 / 1000000 + 26 / 10000000 / (1 - α)) * M

/-- One update. -/
theorem blend_ok {M α a v y u V : ℝ} (M1 : 7 / 10000000 ≤ M) (M2 : M ≤ 210) (al1 : α ≤ 1 - 6 / 10000) (a0 : 0 ≤ a) (a1 : a ≤ 1)
    (ha : |a - α| ≤ 8 / 10000000) (v0 : 0 ≤ v) (y0 : 0 ≤ y) (y1 : y ≤ M) (hv : |v - y| ≤ slack M α) (u0 : 0 ≤ u) (V0 : 0 ≤ V) (V1 : V ≤ M) (hu : |u - V| ≤ 5 / 10000000 * M) :
    ∃ w : ℝ, (arith exp).add ((arith exp).mul (.fin a) (.fin v)) ((arith exp).mul ((arith exp).sub (.fin 1) (.fin a)) (.fin u)) = .fin w ∧ 0 ≤ w ∧
      |w - (α * y + (1 - α) * V)| ≤ slack M α := by
  have M0 : 0 ≤ M := by linarith
  obtain ⟨E, hE⟩ : ∃ E, E = slack M α := ⟨_, rfl⟩
  rw [← hE] at hv ⊢
  have E1 : (1 - α) * E = (1 - α) * (13 / 1000000 * M) + 26 / 10000000 * M := by
    rw [hE]
    unfold slack
    have : 1 - α ≠ 0 := by linarith
    field_simp
  have E2 : E ≤ 1 / 200 * M := by
    rw [hE]
    unfold slack
    refine mul_le_mul_of_nonneg_right ?_ M0
    have : 26 / 10000000 / (1 - α) ≤ 26 / 10000000 / (6 / 10000) := div_le_div_of_nonneg_left (by norm_num) (by norm_num) (by linarith)
    norm_num at this ⊢
    linarith
  have E3 : 0 ≤ (1 - α) * (13 / 1000000 * M) := mul_nonneg (by linarith) (by linarith)
  obtain ⟨v1, v2⟩ := abs_le.1 hv
  obtain ⟨u1, u2⟩ := abs_le.1 hu
  obtain ⟨l1, l2⟩ := abs_le.1 ha
  have E0 : 0 ≤ E := (abs_nonneg _).trans hv
  -- the old part
  have o0 : 0 ≤ a * v := mul_nonneg a0 v0
  have o1 : a * v ≤ 1 * (1.01 * M) := mul_le_mul a1 (by linarith) v0 (by norm_num)
  have o2 : |a * v - α * y| ≤ α * E + 81 / 100000000 * M := by
    have t := abs_add_le (a * (v - y)) ((a - α) * y)
    have e : a * (v - y) + (a - α) * y = a * v - α * y := by ring
    rw [e, abs_mul, abs_mul, abs_of_nonneg a0, abs_of_nonneg y0] at t
    have t1 : a * |v - y| ≤ (α + 8 / 10000000) * E := mul_le_mul (by linarith) hv (abs_nonneg _) (by linarith)
    have t2 : |a - α| * y ≤ 8 / 10000000 * M := mul_le_mul ha y1 y0 (by norm_num)
    linarith
  obtain ⟨x, ex, x0, bx⟩ := Proof.rnd_up (z := a * v) o0 (by linarith)
  -- the new part
  obtain ⟨b, eb, b0, bb⟩ := Proof.rnd_up (z := 1 - a) (by linarith) (by linarith)
  obtain ⟨m1, m2⟩ := abs_le.1 bb
  norm_num at m1 m2
  have b1 : b ≤ 1.01 := by linarith
  have n0 : 0 ≤ b * u := mul_nonneg b0 u0
  have n1 : b * u ≤ 1.01 * (1.01 * M) := mul_le_mul b1 (by linarith) u0 (by norm_num)
  have n2 : |b * u - (1 - α) * V| ≤ 142 / 100000000 * M := by
    have t := abs_add_le (b * (u - V)) ((b - (1 - α)) * V)
    have e : b * (u - V) + (b - (1 - α)) * V = b * u - (1 - α) * V := by ring
    rw [e, abs_mul, abs_mul, abs_of_nonneg b0, abs_of_nonneg V0] at t
    have t1 : b * |u - V| ≤ 1.01 * (5 / 10000000 * M) := mul_le_mul b1 hu (abs_nonneg _) (by norm_num)
    have t2 : |b - (1 - α)| * V ≤ 91 / 100000000 * M := mul_le_mul (by rw [abs_le]; constructor <;> linarith) V1 V0 (by norm_num)
    linarith
  obtain ⟨z, ez, z0, bz⟩ := Proof.rnd_up (z := b * u) n0 (by linarith)
  -- the weights are about one in sum, so the sum is small
  have s1 : a * v + b * u ≤ 1.02 * M := by
    have t1 : a * v ≤ a * (1.01 * M) := mul_le_mul_of_nonneg_left (by linarith) a0
    have t2 : b * u ≤ b * (1.01 * M) := mul_le_mul_of_nonneg_left (by linarith) b0
    have t3 : (a + b) * (1.01 * M) ≤ 1.001 * (1.01 * M) := mul_le_mul_of_nonneg_right (by linarith) (by linarith)
    linarith
  obtain ⟨x1, x2⟩ := abs_le.1 bx
  obtain ⟨z1, z2⟩ := abs_le.1 bz
  norm_num at x1 x2 z1 z2 s1
  obtain ⟨w, ew, w0, bw⟩ := Proof.rnd_up (z := x + z) (by linarith) (by linarith)
  refine ⟨w, ?_, w0, ?_⟩
  · have e1 : (arith exp).sub (.fin 1) (.fin a) = .fin b := by
      show rnd (1 + -a) = _
      rw [← sub_eq_add_neg, eb]
    rw [e1, show (arith exp).mul (.fin a) (.fin v) = .fin x from ex, show (arith exp).mul (.fin b) (.fin u) = .fin z from ez]
    exact ew
  · obtain ⟨w1, w2⟩ := abs_le.1 bw
    obtain ⟨o3, o4⟩ := abs_le.1 o2
    obtain ⟨n3, n4⟩ := abs_le.1 n2
    norm_num at w1 w2
    have e : (1 - α) * E = E - α * E := by ring
    rw [e] at E1
    rw [abs_le]
    constructor <;> linarith

/-- What stays true: the voltmeter in single precision shows that of the one in real numbers, within bounds. -/
structure MeterTracks (M α r : ℝ) (x : Single.Voltmeter) (y : Voltmeter.Voltmeter) : Prop where
  shows : MeterShows (slack M α) x y
  ratio : y.ratio = r
  weight : y.alpha = α
  real0 : 0 ≤ y.voltage
  real1 : y.voltage ≤ M
  alpha : ∃ a : ℝ, x.alpha = .fin a ∧ 0 ≤ a ∧ a ≤ 1 ∧ |a - α| ≤ 8 / 10000000

theorem updates_ok {N : Nat} {r α : ℝ} (hN : 1 ≤ N) (hr : 1 / 1000 ≤ r) (hNr : N * r ≤ 250000) (hN' : N ≤ 65535) (al0 : 0 ≤ α) (al1 : α ≤ 1 - 6 / 10000)
    {adc : Nat → Option Nat} (ha : ∀ k n, adc k = some n → n ≤ N) : ∀ (n k : Nat) (x : Single.Voltmeter) (y : Voltmeter.Voltmeter),
      MeterTracks (N * 3.3 * r / 4096) α r x y →
    (∀ e, meterRun adc n k y = .error e → singleMeterRun (arith exp) adc n k x = .error e) ∧
      ∀ y', meterRun adc n k y = .ok y' → ∃ x', singleMeterRun (arith exp) adc n k x = .ok x' ∧ MeterTracks (N * 3.3 * r / 4096) α r x' y' := by
  have hN1 : (1:ℝ) ≤ N := by exact_mod_cast hN
  have r0 : 0 ≤ r := by linarith
  have W1 : r ≤ N * r := le_mul_of_one_le_left r0 hN1
  have eM : (N:ℝ) * 3.3 * r / 4096 = N * r * (3.3 / 4096) := by ring
  have M1 : 7 / 10000000 ≤ (N:ℝ) * 3.3 * r / 4096 := by
    rw [eM]
    norm_num at hr ⊢
    linarith
  have M2 : (N:ℝ) * 3.3 * r / 4096 ≤ 210 := by
    rw [eM]
    norm_num at hr ⊢
    linarith
  intro n
  induction n with
  | zero =>
    intro k x y h
    refine ⟨fun e he => (by cases he), fun y' he => ?_⟩
    cases he
    exact ⟨x, rfl, h⟩
  | succ n ih =>
    intro k x y h
    unfold meterRun singleMeterRun
    obtain ⟨v, ev, v0, bv⟩ := h.shows.voltage
    obtain ⟨a, ea, a0, a1, ba⟩ := h.alpha
    have er : x.ratio = .fin r := by rw [h.shows.ratio, h.ratio]
    have y0 := h.real0
    have y1 := h.real1
    have hw := h.weight
    have hrr := h.ratio
    obtain ⟨xv, xa, xr⟩ := x
    obtain ⟨yv, ya, yr⟩ := y
    dsimp only at *
    subst ev ea er hw hrr
    cases hk : adc k with
    | none =>
      refine ⟨fun e he => ?_, fun y' he => ?_⟩
      · cases he
        rfl
      · cases he
    | some m =>
      have hm := ha k m hk
      obtain ⟨u, eu, u0, bu⟩ := reading_ok (exp := exp) hN hm hr hNr hN'
      have hV : (m : ℝ) * 3.3 * yr / 4096 ≤ N * 3.3 * yr / 4096 := by
        have hv' : (m:ℝ) ≤ N := by exact_mod_cast hm
        have := mul_le_mul_of_nonneg_right (mul_le_mul_of_nonneg_right hv' (show (0:ℝ) ≤ 3.3 by norm_num)) r0
        linarith
      have V0 : 0 ≤ (m : ℝ) * 3.3 * yr / 4096 := by positivity
      obtain ⟨w, ew, w0, bw⟩ := blend_ok (exp := exp) M1 M2 al1 a0 a1 ba v0 y0 y1 bv u0 V0 hV bu
      unfold Voltmeter.updateVoltage Voltmeter.update
      rw [eu]
      refine ih (k + 1) ⟨(arith exp).add ((arith exp).mul (.fin a) (.fin v)) ((arith exp).mul ((arith exp).sub (.fin 1) (.fin a)) (.fin u)), .fin a, .fin yr⟩
        ⟨ya * yv + (1 - ya) * (m * 3.3 * yr / 4096), ya, yr⟩ ⟨⟨⟨w, ew, w0, bw⟩, rfl⟩, rfl, rfl, ?_, ?_, ⟨a, rfl, a0, a1, ba⟩⟩
      · exact add_nonneg (mul_nonneg al0 y0) (mul_nonneg (by linarith) V0)
      · have t1 := mul_le_mul_of_nonneg_left y1 al0
        have t2 := mul_le_mul_of_nonneg_left hV (show 0 ≤ 1 - ya by linarith)
        dsimp only
        linarith

/-- C128: the voltmeter in single precision: with readings of at most `N`, which stand for the voltage `M`, it panics when the one in real numbers does; otherwise, after any number
of updates, its voltage is a number, not negative, and off by at most (13 + 2.6 / (1 - α)) millionths of `M`, where `α` is the weight of the old voltage: the errors do not add up. -/
theorem C128_voltmeter {N : Nat} {r p f : ℝ} (hN : 1 ≤ N) (hN' : N ≤ 65535) (hr : 1 / 1000 ≤ r) (hNr : N * r ≤ 250000) (h1 : 1 / 10000 ≤ p * f) (h2 : p * f ≤ 1000)
    {adc : Nat → Option Nat} (ha : ∀ k n, adc k = some n → n ≤ N) (n : Nat) :
    (∀ e, (Voltmeter.new adc p f r >>= meterRun adc n 100) = .error e →
      (Single.Voltmeter.new (arith exp) adc (.fin p) (.fin f) (.fin r) >>= singleMeterRun (arith exp) adc n 100) = .error e) ∧
    ∀ y, (Voltmeter.new adc p f r >>= meterRun adc n 100) = .ok y → ∃ x,
      (Single.Voltmeter.new (arith exp) adc (.fin p) (.fin f) (.fin r) >>= singleMeterRun (arith exp) adc n 100) = .ok x ∧
      MeterShows ((13 / 1000000 + 26 / 10000000 / (1 - y.alpha)) * (N * 3.3 * r / 4096)) x y := by
  have hN1 : (1:ℝ) ≤ N := by exact_mod_cast hN
  have r0 : 0 ≤ r := by linarith
  have W1 : r ≤ N * r := le_mul_of_one_le_left r0 hN1
  have eM : (N:ℝ) * 3.3 * r / 4096 = N * r * (3.3 / 4096) := by ring
  have M1 : 7 / 10000000 ≤ (N:ℝ) * 3.3 * r / 4096 := by
    rw [eM]
    norm_num at hr ⊢
    linarith
  have M2 : (N:ℝ) * 3.3 * r / 4096 ≤ 210 := by
    rw [eM]
    norm_num at hr ⊢
    linarith
  obtain ⟨a, ea, a0, a1, ba⟩ := alpha_ok (exp := exp) h1 h2
  have p1 := Real.pi_gt_three
  obtain ⟨Z, hZ⟩ : ∃ Z, Z = 2 * Real.pi * (p * f) := ⟨_, rfl⟩
  have Z1 : 62 / 100000 ≤ Z := by
    rw [hZ]
    have := mul_le_mul (show (6.2:ℝ) ≤ 2 * Real.pi by have := Real.pi_gt_d2; norm_num at this ⊢; linarith) h1 (by norm_num) (by linarith)
    norm_num at this ⊢
    linarith
  rw [← hZ] at ba
  have q0 : 0 ≤ 1 / (Z + 1) := by apply div_nonneg <;> linarith
  have q1 : 1 / (Z + 1) ≤ 1 - 6 / 10000 := by
    rw [div_le_iff₀ (by linarith)]
    norm_num at Z1 ⊢
    linarith
  have hs := voltageSum_ok (exp := exp) hN hr hNr hN' ha 100 0 0 0 0 (by norm_num) le_rfl le_rfl le_rfl (by rw [zero_mul]) (by rw [sub_self, abs_zero, zero_mul])
  unfold Voltmeter.new Single.Voltmeter.new
  rw [ea, ← hZ]
  cases hl : Voltmeter.sumLoop r adc 100 0 0 with
  | error e =>
    rw [hs.1 e hl]
    refine ⟨fun e' he => ?_, fun y he => ?_⟩
    · cases he
      rfl
    · cases he
  | ok t =>
    obtain ⟨s, es, s0, t0, t1, bs⟩ := hs.2 t hl
    rw [es]
    push_cast at t1 bs
    rw [zero_add] at t1 bs
    obtain ⟨c1, c2⟩ := abs_le.1 bs
    obtain ⟨M, hM⟩ : ∃ M, M = (N:ℝ) * 3.3 * r / 4096 := ⟨_, rfl⟩
    rw [← hM] at M1 M2 t1 bs c1 c2
    have k0 : 0 ≤ 26 / 10000000 / (1 - 1 / (Z + 1)) * M := mul_nonneg (div_nonneg (by norm_num) (by linarith)) (by linarith)
    obtain ⟨v, ev, v0, bv⟩ := Proof.rnd_up (z := s / 100) (by linarith) (by linarith)
    obtain ⟨c3, c4⟩ := abs_le.1 bv
    have tr : MeterTracks (N * 3.3 * r / 4096) (1 / (Z + 1)) r ⟨(arith exp).div (.fin s) (.fin 100), .fin a, .fin r⟩ ⟨t / 100, 1 / (Z + 1), r⟩ := by
      rw [← hM]
      refine ⟨⟨⟨v, by dsimp only; rw [div_rnd (by norm_num), ev], v0, ?_⟩, rfl⟩, rfl, rfl, by dsimp only; linarith, by dsimp only; linarith, ⟨a, rfl, a0, a1, ba⟩⟩
      unfold slack
      rw [add_mul]
      dsimp only
      norm_num at c3 c4 M1
      rw [abs_le]
      constructor <;> linarith
    obtain ⟨g1, g2⟩ := updates_ok (exp := exp) hN hr hNr hN' q0 q1 ha n 100 _ _ tr
    refine ⟨g1, fun y hy => ?_⟩
    obtain ⟨x, hx, tx⟩ := g2 y hy
    refine ⟨x, hx, ?_⟩
    have := tx.shows
    rwa [← tx.weight] at this

/-- A twelve bit converter (at most 4095), a battery of three times the voltage at the converter, a reading per millisecond and a filter of 10 Hz: 0.6 mV at most. -/
example (exp : F → F) {adc : Nat → Option Nat} (ha : ∀ k, ∃ m, adc k = some m ∧ m ≤ 4095) (n : Nat) (y : Voltmeter.Voltmeter)
    (hy : (Voltmeter.new adc (1 / 1000) 10 3 >>= meterRun adc n 100) = .ok y) : ∃ x,
      (Single.Voltmeter.new (arith exp) adc (.fin (1 / 1000)) (.fin 10) (.fin 3) >>= singleMeterRun (arith exp) adc n 100) = .ok x ∧
      MeterShows ((13 / 1000000 + 26 / 10000000 / (1 - y.alpha)) * ((4095 : Nat) * 3.3 * 3 / 4096)) x y := by
  refine (C128_voltmeter (exp := exp) (N := 4095) (r := 3) (p := 1 / 1000) (f := 10) (by norm_num) (by norm_num) (by norm_num) (by norm_num) (by norm_num) (by norm_num) ?_ n).2 y hy
  intro k m hm
  obtain ⟨m', e', h'⟩ := ha k
  rw [hm] at e'
  cases e'
  exact h'

end Verif.Props
