import Verif.Spec.OldSensors
import Verif.Props.Encoder
import Verif.Props.Imu
import Verif.Props.ImuInit
/-!
# C108, C110: the former encoder, voltmeter, motors and inertial sensor
-/
namespace Verif.Props
open Verif Verif.Spec Verif.Old.Sensors

/-! ## C108 -/

theorem old_relative (e : Encoder) (c : Nat) :
    e.getRelativeDistance c = (Verif.Encoder.relative e.beforeCount c).bind fun x => .ok (-((x.2 : ℝ) / 1024 * (2 * Real.pi)) * e.wheelRadius, ⟨e.wheelRadius, x.1⟩) := by
  unfold Encoder.getRelativeDistance Verif.Encoder.relative
  dsimp only
  by_cases h : e.beforeCount < Verif.Encoder.lowerBits c
  · simp only [if_pos h]; rfl
  · simp only [if_neg h]
    cases Verif.Encoder.negI16 (Verif.Encoder.asI16 (e.beforeCount - Verif.Encoder.lowerBits c)) <;> rfl

/-- **C108, encoder.** Over any sequence of calls, with movements of less than half the range of the counter between them, each call reports the distance rolled by a wheel of the given radius,
`2 π r` for every 1024 counts, counted backwards; the counter may wrap around any number of times. So the distances add up to the whole movement. -/
theorem C108_distance (moves : List Int) (counts : List Nat) (pos : Int) (e : Encoder) (hb : (e.beforeCount : Int) = pos % 2 ^ 16)
    (hm : ∀ m ∈ moves, -2 ^ 15 < m ∧ m < 2 ^ 15) (hlen : counts.length = moves.length)
    (hc : ∀ k (h : k < counts.length), Shows counts[k] (pos + (moves.take (k + 1)).sum)) :
    ∃ ds e', distances counts e = .ok (ds, e') ∧ ds = moves.map (fun m : Int => -(2 * Real.pi * e.wheelRadius) * (m : ℝ) / 1024) ∧
      ds.sum = -(2 * Real.pi * e.wheelRadius) * ((moves.sum : Int) : ℝ) / 1024 ∧
      e'.wheelRadius = e.wheelRadius ∧ (e'.beforeCount : Int) = (pos + moves.sum) % 2 ^ 16 := by
  induction moves generalizing counts pos e with
  | nil =>
    rw [List.length_eq_zero_iff.mp hlen]
    exact ⟨[], e, rfl, rfl, by simp, rfl, by simpa using hb⟩
  | cons m l ih =>
    match counts, hlen with
    | c :: cs, hlen =>
      obtain ⟨b1, h1, h2⟩ := C58_step pos m e.beforeCount c hb
        (by have h := hc 0 (by simp); simp only [List.take_succ_cons, List.take_zero, List.sum_cons, List.sum_nil, add_zero] at h; exact h) (hm m (by simp))
      obtain ⟨ds, e2, h3, h4, h5, h6, h7⟩ := ih cs (pos + m) ⟨e.wheelRadius, b1⟩ h2 (fun x hx => hm x (by simp [hx])) (by simpa using hlen) (by
        intro k hk
        have := hc (k + 1) (by simpa using hk)
        simpa [add_assoc] using this)
      have hd : e.getRelativeDistance c = .ok (-((m : ℝ) / 1024 * (2 * Real.pi)) * e.wheelRadius, ⟨e.wheelRadius, b1⟩) := by
        rw [old_relative, h1]; rfl
      refine ⟨(-((m : ℝ) / 1024 * (2 * Real.pi)) * e.wheelRadius) :: ds, e2, ?_, ?_, ?_, h6, by rw [h7, List.sum_cons, add_assoc]⟩
      · simp only [distances, hd, h3, bind, Except.bind, pure, Except.pure]
      · rw [List.map_cons, ← h4]
        congr 1
        ring
      · rw [List.sum_cons, h5, List.sum_cons]
        push_cast
        ring

/-- A wheel of radius 0.01 that turns forwards by three quarters of a revolution and back through zero by one. -/
example : ∃ ds e', distances [768, 65280] (Old.Sensors.Encoder.new 0.01) = .ok (ds, e') ∧ ds.sum = 2 * Real.pi * 0.01 / 4 := by
  obtain ⟨ds, e', h1, -, h2, -⟩ := C108_distance [768, -1024] [768, 65280] 0 (Old.Sensors.Encoder.new 0.01) rfl (by decide) rfl (by
    intro k hk
    match k, hk with
    | 0, _ => show Shows 768 _; unfold Shows; decide
    | 1, _ => show Shows 65280 _; unfold Shows; decide)
  refine ⟨ds, e', h1, ?_⟩
  rw [h2]
  norm_num [Old.Sensors.Encoder.new]
  ring

/-- **C108, half the range.** A movement of exactly half the range panics when the new counter value is the smaller one, and is taken for one in the other direction otherwise. -/
theorem C108_half (e : Encoder) (c : Nat) (hb : e.beforeCount < 2 ^ 16) (h : Shows c (e.beforeCount + 2 ^ 15)) :
    (2 ^ 15 ≤ e.beforeCount → e.getRelativeDistance c = .error .overflow) ∧
    (e.beforeCount < 2 ^ 15 → ∃ e', e.getRelativeDistance c = .ok (2 * Real.pi * e.wheelRadius * 2 ^ 15 / 1024, e')) := by
  obtain ⟨h1, h2⟩ := C58_half e.beforeCount c hb h
  refine ⟨fun hh => ?_, fun hh => ?_⟩
  · rw [old_relative, h1 hh]; rfl
  · refine ⟨⟨e.wheelRadius, e.beforeCount + 2 ^ 15⟩, ?_⟩
    rw [old_relative, h2 hh]
    refine congrArg Except.ok (Prod.ext ?_ rfl)
    norm_num
    ring

example : (⟨0.01, 40000⟩ : Encoder).getRelativeDistance 7232 = .error .overflow :=
  (C108_half ⟨0.01, 40000⟩ 7232 (by decide) (by unfold Shows; decide)).1 (by decide)

theorem old_sumLoop (adc : Nat → Option Nat) (n k : Nat) (sum : ℝ) (h : ∀ i, k ≤ i → i < k + n → (adc i).isSome) :
    Old.Sensors.sumLoop adc n k sum = .ok (sum + ((List.range n).map fun i => readingVoltage 1.9 ((adc (k + i)).getD 0)).sum) := by
  induction n generalizing k sum with
  | zero => simp [Old.Sensors.sumLoop]
  | succ n ih =>
    obtain ⟨v, hv⟩ := Option.isSome_iff_exists.1 (h k le_rfl (by omega))
    unfold Old.Sensors.sumLoop
    rw [hv]
    simp only [Old.Sensors.currentVoltage, bind, Except.bind]
    rw [ih (k + 1) _ (fun i a b => h i (by omega) (by omega)), List.range_succ_eq_map, List.map_cons, List.sum_cons, List.map_map]
    congr 1
    have : (fun i => readingVoltage 1.9 ((adc (k + i)).getD 0)) ∘ Nat.succ = fun i => readingVoltage 1.9 ((adc (k + 1 + i)).getD 0) := by
      funext i
      simp only [Function.comp_apply]
      rw [show k + i.succ = k + 1 + i by omega]
    rw [this, add_zero, hv, Option.getD_some]
    unfold readingVoltage
    ring

theorem old_sumLoop_none (adc : Nat → Option Nat) (n k : Nat) (sum : ℝ) (h : ∃ i, k ≤ i ∧ i < k + n ∧ adc i = none) :
    Old.Sensors.sumLoop adc n k sum = .error .unwrapNone := by
  induction n generalizing k sum with
  | zero => obtain ⟨i, h1, h2, -⟩ := h; omega
  | succ n ih =>
    unfold Old.Sensors.sumLoop
    cases hk : adc k with
    | none => rfl
    | some v =>
      simp only [Old.Sensors.currentVoltage, bind, Except.bind]
      obtain ⟨i, h1, h2, h3⟩ := h
      have hki : k ≠ i := by intro e; rw [← e, hk] at h3; cases h3
      exact ih (k + 1) _ ⟨i, by omega, by omega, h3⟩

/-- **C108, voltmeter.** `new` panics if one of the first 100 readings fails, and otherwise stores their mean, through a divider by 1.9; whatever is asked of the voltmeter and of the motors
afterwards, the voltage reported stays this mean: the battery is not measured again. -/
theorem C108_voltmeter (adc : Nat → Option Nat) (period cutOff : ℝ) :
    ((∃ i < 100, adc i = none) → Old.Sensors.Voltmeter.new adc period cutOff = .error .unwrapNone) ∧
    ((∀ i < 100, (adc i).isSome) → ∃ v, Old.Sensors.Voltmeter.new adc period cutOff = .ok v ∧
      v.voltage = ((List.range 100).map fun i => readingVoltage 1.9 ((adc i).getD 0)).sum / 100 ∧
      ∀ l, (duties l v).2.getVoltage.1 = v.voltage) := by
  refine ⟨fun ⟨i, h1, h2⟩ => ?_, fun h => ?_⟩
  · unfold Old.Sensors.Voltmeter.new
    dsimp only
    rw [old_sumLoop_none adc 100 0 0 ⟨i, by omega, by omega, h2⟩]
    rfl
  · unfold Old.Sensors.Voltmeter.new
    dsimp only
    rw [old_sumLoop adc 100 0 0 (fun i _ b => h i (by omega))]
    refine ⟨_, rfl, ?_, ?_⟩
    · simp only [zero_add]
    · intro l
      have key : ∀ (l : List (Nat × ℝ)) (v : Voltmeter), (duties l v).2 = v := by
        intro l
        induction l with
        | nil => intro v; rfl
        | cons c l ih =>
          intro v
          obtain ⟨m, u⟩ := c
          unfold duties
          have : (apply m m v u).2 = v := by
            unfold apply
            dsimp only [Voltmeter.getVoltage]
            split <;> rfl
          show (duties l (apply m m v u).2).2 = v
          rw [this, ih]
      rw [key]
      rfl

/-- A converter that reads 2000 at first, and less and less. -/
example : (∀ i < 100, ((fun i => some (2000 - i)) i : Option Nat).isSome) ∧ ∃ i < 100, ((fun i => if i = 7 then none else some 2000) i : Option Nat) = none :=
  ⟨fun _ _ => rfl, 7, by norm_num, rfl⟩

/-- **C108, motors.** Of any sequence of voltages applied to motors that share a voltmeter, with maximum duties of 1 to 65535: a motor gets, at a battery voltage `now`, the voltage asked for times
`now` over the voltage measured at the start, cut off where the whole battery voltage is reached, up to one step of the duty. -/
theorem C108_motors (l : List (Nat × ℝ)) (v : Voltmeter) (hv : 0 < v.voltage) (hl : ∀ c ∈ l, 0 < c.1 ∧ c.1 ≤ 65535) (k : Nat) (max : Nat) (u : ℝ) (hk : l[k]? = some (max, u))
    (now : ℝ) (hn : 0 ≤ now) :
    ∃ d, (duties l v).1[k]? = some d ∧ d.1 ≤ max ∧ d.2 ≤ max ∧
      |u| * now / v.voltage ⊓ now ≤ |bridge max now d| ∧ |bridge max now d| ≤ |u| * now / v.voltage ⊓ now + now / max ∧
      (0 < u → 0 ≤ bridge max now d) ∧ (u ≤ 0 → bridge max now d ≤ 0) ∧ (u = 0 → bridge max now d = 0) := by
  have hone : ∀ (m : Nat) (u : ℝ), apply m m v u = (Verif.Motor.apply m m u v.voltage, v) := by
    intro m u
    unfold apply Verif.Motor.apply
    dsimp only [Voltmeter.getVoltage]
    split <;> rfl
  have hnth : ∀ (l : List (Nat × ℝ)) (k : Nat), l[k]? = some (max, u) → (duties l v).1[k]? = some (Verif.Motor.apply max max u v.voltage) := by
    intro l
    induction l with
    | nil => intro k h; cases h
    | cons c l ih =>
      intro k h
      obtain ⟨m, x⟩ := c
      unfold duties
      show ((apply m m v x).1 :: (duties l (apply m m v x).2).1)[k]? = _
      rw [hone]
      cases k with
      | zero => simp only [List.getElem?_cons_zero, Option.some.injEq, Prod.mk.injEq] at h ⊢; rw [h.1, h.2]
      | succ k => exact ih k h
  refine ⟨_, hnth l k hk, ?_⟩
  obtain ⟨m0, m1⟩ := hl _ (List.mem_of_getElem? hk)
  dsimp only at m0 m1
  obtain ⟨c1, c2, c3, c4, c5⟩ := C63_motor max max m1 m1 u v.voltage hv
  have hm : (0 : ℝ) < max := by exact_mod_cast m0
  refine ⟨c1, c2, ?_⟩
  have hr0 : 0 ≤ |u| / v.voltage := by positivity
  have hmin : |u| * now / v.voltage ⊓ now = (1 ⊓ |u| / v.voltage) * now := by
    rw [min_mul_of_nonneg _ _ hn, one_mul, min_comm]
    congr 1
    ring
  rw [hmin]
  obtain ⟨r, hr⟩ : ∃ r, r = 1 ⊓ |u| / v.voltage := ⟨_, rfl⟩
  have hrn : 0 ≤ r := by rw [hr]; exact le_min zero_le_one hr0
  have hlow : ∀ x : Nat, (x : ℝ) ≤ (1 - r) * max → (1 - r) * max < x + 1 → r ≤ (max - x) / max ∧ (max - x : ℝ) / max ≤ r + 1 / max := by
    intro x h1 h2
    refine ⟨by rw [le_div_iff₀ hm]; linarith, ?_⟩
    rw [div_le_iff₀ hm, add_mul, div_mul_cancel₀ _ hm.ne']
    linarith
  have fin : ∀ y : ℝ, r ≤ y → y ≤ r + 1 / max → r * now ≤ y * now ∧ y * now ≤ r * now + now / max := by
    intro y h1 h2
    refine ⟨mul_le_mul_of_nonneg_right h1 hn, ?_⟩
    have := mul_le_mul_of_nonneg_right h2 hn
    rw [add_mul, one_div_mul_eq_div] at this
    exact this
  rw [← hr] at c3 c4 ⊢
  unfold bridge
  rcases lt_trichotomy u 0 with hu | hu | hu
  · obtain ⟨e1, e2, e3⟩ := c4 hu
    obtain ⟨f1, f2⟩ := hlow _ e2 e3
    obtain ⟨g1, g2⟩ := fin _ f1 f2
    have hneg : (((Verif.Motor.apply max max u v.voltage).2 : ℝ) - (Verif.Motor.apply max max u v.voltage).1) / max * now =
        -((max - ((Verif.Motor.apply max max u v.voltage).2 : ℝ)) / max * now) := by rw [e1]; ring
    have hpos : 0 ≤ (max - ((Verif.Motor.apply max max u v.voltage).2 : ℝ)) / max * now := mul_nonneg (hrn.trans f1) hn
    rw [hneg, abs_neg, abs_of_nonneg hpos]
    exact ⟨g1, g2, fun h => by linarith, fun _ => by linarith, fun h => by linarith⟩
  · rw [c5 hu]
    have : r = 0 := by rw [hr, hu, abs_zero, zero_div]; exact min_eq_right zero_le_one
    rw [this]
    simp only [sub_self, zero_div, zero_mul, abs_zero]
    exact ⟨le_rfl, by positivity, fun _ => le_rfl, fun _ => le_rfl, fun _ => trivial⟩
  · obtain ⟨e1, e2, e3⟩ := c3 hu
    obtain ⟨f1, f2⟩ := hlow _ e2 e3
    obtain ⟨g1, g2⟩ := fin _ f1 f2
    have hpos : 0 ≤ (max - ((Verif.Motor.apply max max u v.voltage).1 : ℝ)) / max * now := mul_nonneg (hrn.trans f1) hn
    rw [e1, abs_of_nonneg hpos]
    exact ⟨g1, g2, fun _ => hpos, fun h => by linarith, fun h => by linarith⟩

/-- A battery that had 4 V at the start and has 3 V now: a motor asked for 2 V gets 1.5 V. -/
example : ∃ d, (duties [(1000, 2)] ⟨4, 0⟩).1[0]? = some d ∧ 1.5 ≤ |bridge 1000 3 d| ∧ |bridge 1000 3 d| ≤ 1.503 := by
  obtain ⟨d, h1, -, -, h2, h3, -⟩ := C108_motors [(1000, 2)] ⟨4, 0⟩ (by norm_num) (by simp) 0 1000 2 rfl 3 (by norm_num)
  refine ⟨d, h1, ?_, ?_⟩
  · refine le_trans ?_ h2
    rw [abs_of_pos (by norm_num : (0 : ℝ) < 2)]
    exact le_min (by norm_num) (by norm_num)
  · refine h3.trans ?_
    have : |(2 : ℝ)| * 3 / 4 ⊓ 3 ≤ |(2 : ℝ)| * 3 / 4 := min_le_left _ _
    rw [abs_of_pos (by norm_num : (0 : ℝ) < 2)] at this ⊢
    norm_num at this ⊢

/-! ## C110 -/

section Imu
open Verif.Imu

/-- The offsets matter neither for what is done nor for whether it succeeds, and are not changed. -/
def Blank {α : Type} (m : M α) : Prop := ∀ (w : World) (log : Log), ∃ o l, ∀ j, m w (j, log) = (o, j, l)

theorem blank_pure {α : Type} (a : α) : Blank (pure a : M α) := fun _ log => ⟨.ok a, log, fun _ => rfl⟩

theorem blank_bind {α β : Type} {m : M α} {f : α → M β} (hm : Blank m) (hf : ∀ a, Blank (f a)) : Blank (m >>= f) := by
  intro w log
  obtain ⟨o, l, h⟩ := hm w log
  cases o with
  | ok a =>
    obtain ⟨o', l', h'⟩ := hf a w l
    refine ⟨o', l', fun j => ?_⟩
    show M.bind m f w (j, log) = _
    unfold M.bind
    rw [h j]
    exact h' j
  | err =>
    refine ⟨.err, l, fun j => ?_⟩
    show M.bind m f w (j, log) = _
    unfold M.bind
    rw [h j]
  | hang =>
    refine ⟨.hang, l, fun j => ?_⟩
    show M.bind m f w (j, log) = _
    unfold M.bind
    rw [h j]

theorem blank_note (op : Op) : Blank (note op) := fun w log => ⟨.ok (), log ++ [(op, w log op)], fun _ => rfl⟩

theorem blank_perform (op : Op) : Blank (perform op) := by
  intro w log
  unfold perform
  cases h : w log op with
  | none => exact ⟨.err, log ++ [(op, none)], fun j => by dsimp only; rw [h]⟩
  | some v => exact ⟨.ok v, log ++ [(op, some v)], fun j => by dsimp only; rw [h]⟩

theorem blank_access (bytes : List Nat) : Blank (access bytes) := by
  intro w log
  obtain ⟨o1, l1, h1⟩ := blank_perform (.cs false) w log
  obtain ⟨o2, l2, h2⟩ := blank_perform (.transfer bytes) w l1
  obtain ⟨o3, l3, h3⟩ := blank_perform (.cs true) w l2
  unfold access
  cases o1 with
  | err => exact ⟨.err, l1, fun j => by rw [h1 j]⟩
  | hang => exact ⟨.hang, l1, fun j => by rw [h1 j]⟩
  | ok v =>
    cases o3 with
    | err => exact ⟨.err, l3, fun j => by rw [h1 j]; dsimp only; rw [h2 j]; dsimp only; rw [h3 j]⟩
    | hang => exact ⟨.hang, l3, fun j => by rw [h1 j]; dsimp only; rw [h2 j]; dsimp only; rw [h3 j]⟩
    | ok v => exact ⟨o2, l3, fun j => by rw [h1 j]; dsimp only; rw [h2 j]; dsimp only; rw [h3 j]⟩

theorem blank_waitOk {α : Type} {m : M α} (hm : Blank m) (n : Nat) : Blank (waitOk m n) := by
  induction n with
  | zero => exact fun _ log => ⟨.hang, log, fun _ => rfl⟩
  | succ n ih =>
    intro w log
    obtain ⟨o, l, h⟩ := hm w log
    unfold waitOk
    cases o with
    | ok a => exact ⟨.ok a, l, fun j => by rw [h j]⟩
    | hang => exact ⟨.hang, l, fun j => by rw [h j]⟩
    | err =>
      obtain ⟨o', l', h'⟩ := ih w l
      exact ⟨o', l', fun j => by rw [h j]; exact h' j⟩

theorem blank_write (a d : Nat) : Blank (writeReg a d) := blank_bind (blank_access _) fun _ => blank_pure _
theorem blank_read (a n : Nat) : Blank (readReg a n) := blank_bind (blank_access _) fun _ => blank_pure _
theorem blank_writeWait (f r v : Nat) : Blank (writeWait f r v) := blank_bind (blank_note _) fun _ => blank_waitOk (blank_write _ _) _
theorem blank_who : Blank checkWhoAmI := by
  refine blank_bind (blank_read _ _) fun b => ?_
  split
  · exact blank_pure _
  · exact fun _ log => ⟨.err, log, fun _ => rfl⟩

/-- A measurement: the offset is subtracted from what does not depend on it. -/
def Shifted (m : M ℝ) (off : Imu → ℝ) : Prop :=
  ∀ (w : World) (log : Log), (∃ l, ∀ j, m w (j, log) = (.err, j, l)) ∨ (∃ l, ∀ j, m w (j, log) = (.hang, j, l)) ∨ ∃ x l, ∀ j, m w (j, log) = (.ok (x - off j), j, l)

theorem shifted_of {a : Nat} {g : List Nat → ℝ} {off : Imu → ℝ} {m : M ℝ} (hm : m = (readReg a 2 >>= fun b => get >>= fun self => pure (g b - off self))) : Shifted m off := by
  intro w log
  obtain ⟨o, l, h⟩ := blank_read a 2 w log
  have e : ∀ j, m w (j, log) = match (o, j, l) with
      | (.ok b, s) => (.ok (g b - off s.1), s)
      | (.err, s) => (.err, s)
      | (.hang, s) => (.hang, s) := by
    intro j
    rw [hm]
    show M.bind _ _ w (j, log) = _
    unfold M.bind
    rw [h j]
    cases o <;> rfl
  cases o with
  | ok b => exact .inr (.inr ⟨g b, l, fun j => e j⟩)
  | err => exact .inl ⟨l, fun j => e j⟩
  | hang => exact .inr (.inl ⟨l, fun j => e j⟩)

theorem shifted_accel : Shifted translationalAcceleration Imu.accelOffset :=
  shifted_of (g := fun buffer => -toAccel (connect (buffer.getD 0 0) (buffer.getD 1 0))) rfl

theorem shifted_gyro : Shifted angularVelocity Imu.gyroOffset :=
  shifted_of (g := fun buffer => toGyro (connect (buffer.getD 0 0) (buffer.getD 1 0))) rfl

theorem loop_uniform (n : Nat) (w : World) : ∀ log : Log, (∃ l, ∀ a g j, calibrateLoop n a g w (j, log) = (.err, j, l)) ∨ (∃ l, ∀ a g j, calibrateLoop n a g w (j, log) = (.hang, j, l)) ∨
    ∃ x y l, ∀ a g j, calibrateLoop n a g w (j, log) = (.ok (a + x - n * j.accelOffset, g + y - n * j.gyroOffset), j, l) := by
  induction n with
  | zero =>
    intro log
    refine .inr (.inr ⟨0, 0, log, fun a g j => ?_⟩)
    show (Out.ok (a, g), j, log) = _
    simp
  | succ n ih =>
    intro log
    have e : ∀ a g j, calibrateLoop (n + 1) a g w (j, log) = match translationalAcceleration w (j, log) with
        | (.ok x, s) => (match angularVelocity w s with
          | (.ok y, s) => calibrateLoop n (a + x) (g + y) w (s.1, s.2 ++ [(.timer, w s.2 .timer)])
          | (.err, s) => (.err, s)
          | (.hang, s) => (.hang, s))
        | (.err, s) => (.err, s)
        | (.hang, s) => (.hang, s) := by
      intro a g j
      show M.bind _ _ w (j, log) = _
      unfold M.bind
      rcases translationalAcceleration w (j, log) with ⟨r, s⟩
      cases r with
      | ok x =>
        dsimp only
        show M.bind _ _ w s = _
        unfold M.bind
        rcases angularVelocity w s with ⟨r, s⟩
        cases r <;> rfl
      | err => rfl
      | hang => rfl
    rcases shifted_accel w log with ⟨l, h⟩ | ⟨l, h⟩ | ⟨x, l, h⟩
    · exact .inl ⟨l, fun a g j => by rw [e, h]⟩
    · exact .inr (.inl ⟨l, fun a g j => by rw [e, h]⟩)
    · rcases shifted_gyro w l with ⟨l', h'⟩ | ⟨l', h'⟩ | ⟨y, l', h'⟩
      · exact .inl ⟨l', fun a g j => by rw [e, h]; dsimp only; rw [h']⟩
      · exact .inr (.inl ⟨l', fun a g j => by rw [e, h]; dsimp only; rw [h']⟩)
      · rcases ih (l' ++ [(.timer, w l' .timer)]) with ⟨k, hk⟩ | ⟨k, hk⟩ | ⟨x', y', k, hk⟩
        · exact .inl ⟨k, fun a g j => by rw [e, h]; dsimp only; rw [h']; exact hk _ _ j⟩
        · exact .inr (.inl ⟨k, fun a g j => by rw [e, h]; dsimp only; rw [h']; exact hk _ _ j⟩)
        · refine .inr (.inr ⟨x + x', y + y', k, fun a g j => ?_⟩)
          rw [e, h]; dsimp only; rw [h']; dsimp only; rw [hk]
          push_cast
          congr 3 <;> ring

/-- The offsets before do not matter, and those after depend on them only if it fails. -/
def Forgets (m : M Unit) : Prop :=
  ∀ (w : World) (log : Log), (∃ l, ∀ j, m w (j, log) = (.err, j, l)) ∨ (∃ l, ∀ j, m w (j, log) = (.hang, j, l)) ∨ ∃ i l, ∀ j, m w (j, log) = (.ok (), i, l)

theorem forgets_calibrate : Forgets calibrate := by
  intro w log
  rcases loop_uniform 1000 w log with ⟨l, h⟩ | ⟨l, h⟩ | ⟨x, y, l, h⟩
  · exact .inl ⟨l, fun j => by rw [calibrate_eq, h]⟩
  · exact .inr (.inl ⟨l, fun j => by rw [calibrate_eq, h]⟩)
  · refine .inr (.inr ⟨⟨x / 1000, y / 1000⟩, l, fun j => ?_⟩)
    rw [calibrate_eq, h]
    dsimp only
    push_cast
    congr 3 <;> ring

theorem forgets_waitOk {m : M Unit} (hm : Forgets m) (n : Nat) : Forgets (waitOk m n) := by
  induction n with
  | zero => exact fun _ log => .inr (.inl ⟨log, fun _ => rfl⟩)
  | succ n ih =>
    intro w log
    unfold waitOk
    rcases hm w log with ⟨l, h⟩ | ⟨l, h⟩ | ⟨i, l, h⟩
    · rcases ih w l with ⟨l', h'⟩ | ⟨l', h'⟩ | ⟨i, l', h'⟩
      · exact .inl ⟨l', fun j => by rw [h]; exact h' j⟩
      · exact .inr (.inl ⟨l', fun j => by rw [h]; exact h' j⟩)
      · exact .inr (.inr ⟨i, l', fun j => by rw [h]; exact h' j⟩)
    · exact .inr (.inl ⟨l, fun j => by rw [h]⟩)
    · exact .inr (.inr ⟨i, l, fun j => by rw [h]⟩)

/-- Two functions do the same from any offsets, and have the same offsets after success. -/
def Agree (m m' : M Unit) : Prop :=
  ∀ (w : World) (log : Log) (i j : Imu), (m w (i, log)).1 = (m' w (j, log)).1 ∧ (m w (i, log)).2.2 = (m' w (j, log)).2.2 ∧
    ((m w (i, log)).1 = .ok () → (m w (i, log)).2.1 = (m' w (j, log)).2.1)

theorem agree_bind {α : Type} {m : M α} {f f' : α → M Unit} (hm : Blank m) (hf : ∀ a, Agree (f a) (f' a)) : Agree (m >>= f) (m >>= f') := by
  intro w log i j
  obtain ⟨o, l, h⟩ := hm w log
  have e : ∀ (f : α → M Unit) j, (m >>= f) w (j, log) = match o with
      | .ok a => f a w (j, l)
      | .err => (.err, j, l)
      | .hang => (.hang, j, l) := by
    intro f j
    show M.bind m f w (j, log) = _
    unfold M.bind
    rw [h j]
    cases o <;> rfl
  rw [e, e]
  cases o with
  | ok a => exact hf a w l i j
  | err => exact ⟨rfl, rfl, fun h => by cases h⟩
  | hang => exact ⟨rfl, rfl, fun h => by cases h⟩

theorem agree_twice {m : M Unit} (hm : Forgets m) : Agree (m >>= fun _ => m) (Imu.set ⟨0, 0⟩ >>= fun _ => m >>= fun _ => m) := by
  intro w log i j
  have e : (Imu.set ⟨0, 0⟩ >>= fun _ => m >>= fun _ => m) w (j, log) = (m >>= fun _ => m) w (⟨0, 0⟩, log) := rfl
  rw [e]
  have e2 : ∀ j, (m >>= fun _ => m) w (j, log) = match m w (j, log) with
      | (.ok _, s) => m w s
      | (.err, s) => (.err, s)
      | (.hang, s) => (.hang, s) := by
    intro j
    show M.bind _ _ w (j, log) = _
    unfold M.bind
    rcases m w (j, log) with ⟨r, s⟩
    cases r <;> rfl
  rw [e2, e2]
  rcases hm w log with ⟨l, h⟩ | ⟨l, h⟩ | ⟨k, l, h⟩
  · rw [h, h]; exact ⟨rfl, rfl, fun h => by cases h⟩
  · rw [h, h]; exact ⟨rfl, rfl, fun h => by cases h⟩
  · rw [h, h]; exact ⟨rfl, rfl, fun _ => rfl⟩

/-- **C110.** The former `init`, which does not reset the offsets, does the same as the newer one, whatever fails and whatever the offsets of the two were before: the same
operations with the same answers, the same outcome, and, when they return, the same offsets (in real numbers). -/
theorem C110_init (fuel : Nat) (w : World) (log : Log) (i j : Imu) :
    let old := imuInit fuel w (i, log)
    let new := init fuel w (j, log)
    old.1 = new.1 ∧ old.2.2 = new.2.2 ∧ (old.1 = .ok () → old.2.1 = new.2.1) := by
  have : Agree (imuInit fuel) (init fuel) :=
    agree_bind (blank_waitOk (blank_write _ _) _) fun _ => agree_bind (blank_note _) fun _ => agree_bind (blank_waitOk blank_who _) fun _ =>
    agree_bind (blank_writeWait _ _ _) fun _ => agree_bind (blank_writeWait _ _ _) fun _ => agree_bind (blank_writeWait _ _ _) fun _ =>
    agree_bind (blank_writeWait _ _ _) fun _ => agree_bind (blank_writeWait _ _ _) fun _ => agree_bind (blank_writeWait _ _ _) fun _ =>
    agree_twice (forgets_waitOk forgets_calibrate _)
  exact this w log i j

/-- **C110, calibration.** When the former `init` returns, the offsets are the means of the last 1000 readings it made. -/
theorem C110_mean {w : World} (hw : BytesWorld w) {fuel : Nat} {s s' : Imu × Log} (h : imuInit fuel w s = (.ok (), s')) :
    ∃ pre t, s'.2 = pre ++ t ∧ (answers 0xAF t).length = 1000 ∧ (answers 0xB7 t).length = 1000 ∧
      s'.1.accelOffset = ((answers 0xAF t).map accelValue).sum / 1000 ∧ s'.1.gyroOffset = ((answers 0xB7 t).map gyroValue).sum / 1000 := by
  obtain ⟨i, log⟩ := s
  obtain ⟨h1, h2, h3⟩ := C110_init fuel w log i i
  rw [h] at h1 h2 h3
  refine C62_init hw (fuel := fuel) (s := (i, log)) (Prod.ext h1.symm (Prod.ext (h3 rfl).symm h2.symm))

/-- **C110, order.** When the former `init` returns, what C97 says of the newer one was done, in this order and nothing else. -/
theorem C110_order (w : World) (fuel : Nat) (s s' : Imu × Log) (h : imuInit fuel w s = (.ok (), s')) :
    ∃ reset d who conf rest, s'.2 = s.2 ++ reset ++ (.delay 10, d) :: who ++ conf ++ rest ∧
      Done [0x06, 0x80] (fun _ => True) reset ∧ Done [0x80, 0x00] (fun v => v.getD 1 0 = 0xE0) who ∧
      Configured [(0x06, 0x01), (0x05, 0x00), (0x7F, 0x20), (0x01, 0x06), (0x14, 0x00), (0x7F, 0x00)] conf ∧ OnlyMeasures rest := by
  obtain ⟨i, log⟩ := s
  obtain ⟨h1, h2, h3⟩ := C110_init fuel w log i i
  rw [h] at h1 h2 h3
  exact C97_init w fuel (i, log) s' (Prod.ext h1.symm (Prod.ext (h3 rfl).symm h2.symm))

/-- **C110, return.** If nothing fails and register 0 answers 0xE0, the former `new` returns at the first try of everything; if it never does, not at all. -/
theorem C110_returns (w : World) :
    ((∀ log op, (w log op).isSome) → (∀ log v, w log (.transfer [0x80, 0x00]) = some v → v.getD 1 0 = 0xE0) → ∀ n, ∃ s', imuNew (n + 1) w = (.ok (), s')) ∧
    ((∀ log v, w log (.transfer [0x80, 0x00]) = some v → v.getD 1 0 ≠ 0xE0) → ∀ n s', imuNew n w ≠ (.ok (), s')) := by
  refine ⟨fun h1 h2 n => ?_, fun h n s' hn => ?_⟩
  · obtain ⟨s', h⟩ := C97_returns w n (⟨0, 0⟩, []) h1 h2
    obtain ⟨k, -⟩ := C110_init (n + 1) w [] ⟨0, 0⟩ ⟨0, 0⟩
    rw [h] at k
    exact ⟨(imuNew (n + 1) w).2, Prod.ext k rfl⟩
  · obtain ⟨k, -⟩ := C110_init n w [] ⟨0, 0⟩ ⟨0, 0⟩
    have hn : imuInit n w (⟨0, 0⟩, []) = (.ok (), s') := hn
    rw [hn] at k
    exact C97_stranger w n (⟨0, 0⟩, []) (init n w (⟨0, 0⟩, [])).2 h (Prod.ext k.symm rfl)

/-- **C110, chip select.** In any sequence of public calls of the former driver, whatever fails, transfers are framed by chip select as C61 says. -/
theorem C110_chip_select (w : World) (calls : List ImuCall) (s : Imu × Log) :
    ∃ m, (oldImuRun w calls s).2 = s.2 ++ m ∧ TransfersFramed m ∧ Released m := by
  have ht : ∀ fuel, Tidy (imuInit fuel) := fun fuel =>
    tidy_bind (tidy_waitOk (tidy_writeReg _ _) _) fun _ => tidy_bind (tidy_note id (by simp)) fun _ =>
    tidy_bind (tidy_waitOk tidy_who _) fun _ => tidy_bind (tidy_writeWait _ _ _) fun _ =>
    tidy_bind (tidy_writeWait _ _ _) fun _ => tidy_bind (tidy_writeWait _ _ _) fun _ =>
    tidy_bind (tidy_writeWait _ _ _) fun _ => tidy_bind (tidy_writeWait _ _ _) fun _ =>
    tidy_bind (tidy_writeWait _ _ _) fun _ =>
    tidy_bind (tidy_waitOk tidy_calibrate _) fun _ => tidy_waitOk tidy_calibrate _
  have key : ∀ (calls : List ImuCall) (s : Imu × Log), ∃ m, (oldImuRun w calls s).2 = s.2 ++ m ∧ Chunks m := by
    intro calls
    induction calls with
    | nil => intro s; exact ⟨[], by simp [oldImuRun], .nil⟩
    | cons c l ih =>
      intro s
      have h1 : ∃ t, (oldImuStep w s c).2 = s.2 ++ t ∧ Chunks t := by
        cases c with
        | gyro => exact tidy_gyro w s
        | accel => exact tidy_accel w s
        | calibrate => exact tidy_calibrate w s
        | init fuel => exact ht fuel w s
      obtain ⟨t, e1, c1⟩ := h1
      obtain ⟨m, e2, c2⟩ := ih (oldImuStep w s c)
      exact ⟨t ++ m, by show (oldImuRun w l (oldImuStep w s c)).2 = _; rw [e2, e1, List.append_assoc], c1.append c2⟩
  obtain ⟨m, h1, h2⟩ := key calls s
  exact ⟨m, h1, h2.framed, h2.released⟩

/-- The sensor at rest of C62: `init` returns there, whatever the offsets were. -/
example (i : Imu) (n : Nat) : ∃ s', imuInit (n + 1) restWorld (i, []) = (.ok (), s') := by
  have h1 : ∀ log op, (restWorld log op).isSome := by intro log op; unfold restWorld; split <;> rfl
  have h2 : ∀ log v, restWorld log (.transfer [0x80, 0x00]) = some v → v.getD 1 0 = 0xE0 := by
    intro log v h
    have : restWorld log (.transfer [0x80, 0x00]) = some [0, 0xE0] := rfl
    rw [this] at h
    cases h
    rfl
  obtain ⟨s', h⟩ := C97_returns restWorld n (i, []) h1 h2
  obtain ⟨k, -⟩ := C110_init (n + 1) restWorld [] i i
  rw [h] at k
  rcases hr : imuInit (n + 1) restWorld (i, []) with ⟨o, s⟩
  rw [hr] at k
  exact ⟨s, by rw [show o = .ok () from k]⟩

end Imu

end Verif.Props
