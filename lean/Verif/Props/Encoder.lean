import Verif.Spec.Sensors
import Mathlib.Tactic.Linarith
import Mathlib.Tactic.NormNum
import Mathlib.Tactic.FieldSimp
import Mathlib.Tactic.Ring
import Mathlib.Tactic.Positivity
/-!
# C58, C63, C64: encoder, motor, voltmeter
-/
namespace Verif.Props
open Verif Verif.Spec

/-! ## C58 -/

theorem lowerBits_eq (c : Nat) : Encoder.lowerBits c = c % 2 ^ 16 := by
  unfold Encoder.lowerBits
  exact Nat.and_two_pow_sub_one_eq_mod c 16

/-- **C58**, one call: a movement of less than half the range is reported exactly, whatever the counter does. -/
theorem C58_step (pos m : Int) (b c : Nat) (hb : (b : Int) = pos % 2 ^ 16) (hc : Shows c (pos + m))
    (hm : -2 ^ 15 < m ∧ m < 2 ^ 15) :
    ∃ b', Encoder.relative b c = .ok (b', m) ∧ (b' : Int) = (pos + m) % 2 ^ 16 := by
  unfold Shows at hc
  have ha : (Encoder.lowerBits c : Int) = (pos + m) % 2 ^ 16 := by
    rw [lowerBits_eq]; push_cast; exact hc
  refine ⟨Encoder.lowerBits c, ?_, ha⟩
  unfold Encoder.relative
  obtain ⟨a, hae⟩ : ∃ a, Encoder.lowerBits c = a := ⟨_, rfl⟩
  rw [hae] at ha ⊢
  norm_num at hb ha hm
  by_cases h : b < a
  · have e : Encoder.asI16 (a - b) = m := by
      unfold Encoder.asI16
      split <;> omega
    simp only [if_pos h, e]
    rfl
  · have e : Encoder.asI16 (b - a) = -m := by
      unfold Encoder.asI16
      split <;> omega
    have e2 : Encoder.negI16 (-m) = .ok m := by
      unfold Encoder.negI16
      rw [if_neg (by norm_num; omega), neg_neg]
    simp only [if_neg h, e, e2]
    rfl

/-- **C58.** Over any sequence of calls, with movements of less than half the range between them, the reported counts are
the movements, so their sum is the total movement; the counter may wrap around any number of times. -/
theorem C58_history (moves : List Int) (counts : List Nat) (pos : Int) (b : Nat) (hb : (b : Int) = pos % 2 ^ 16)
    (hm : ∀ m ∈ moves, -2 ^ 15 < m ∧ m < 2 ^ 15) (hlen : counts.length = moves.length)
    (hc : ∀ k (h : k < counts.length), Shows counts[k] (pos + (moves.take (k + 1)).sum)) :
    ∃ b', encoderRun counts b = .ok (b', moves) ∧ (b' : Int) = (pos + moves.sum) % 2 ^ 16 := by
  induction moves generalizing counts pos b with
  | nil =>
    rw [List.length_eq_zero_iff.mp hlen]
    exact ⟨b, rfl, by simpa using hb⟩
  | cons m l ih =>
    match counts, hlen with
    | c :: cs, hlen =>
      obtain ⟨b1, h1, h2⟩ := C58_step pos m b c hb (by have h := hc 0 (by simp); simp only [List.take_succ_cons, List.take_zero, List.sum_cons, List.sum_nil, add_zero] at h; exact h) (hm m (by simp))
      obtain ⟨b2, h3, h4⟩ := ih cs (pos + m) b1 h2 (fun x hx => hm x (by simp [hx])) (by simpa using hlen) (by
        intro k hk
        have := hc (k + 1) (by simpa using hk)
        simpa [add_assoc] using this)
      refine ⟨b2, ?_, by rw [h4, List.sum_cons, add_assoc]⟩
      simp only [encoderRun, h1, h3, bind, Except.bind, pure, Except.pure]

/-- The encoder starts at position 0; the hypotheses are met by a wheel that turns backwards through zero. -/
example : encoderRun [65535, 40000, 10000, 65536 + 7] Encoder.new = .ok (7, [-1, -25535, -30000, -9993]) := by decide

/-- **C58**, in angles: over any such sequence of calls the reported angles add up to one revolution for every 1024
counts of movement. -/
theorem C58_angle (moves : List Int) (counts : List Nat) (pos : Int) (b : Nat) (hb : (b : Int) = pos % 2 ^ 16)
    (hm : ∀ m ∈ moves, -2 ^ 15 < m ∧ m < 2 ^ 15) (hlen : counts.length = moves.length)
    (hc : ∀ k (h : k < counts.length), Shows counts[k] (pos + (moves.take (k + 1)).sum)) :
    ∃ b' a, totalAngle counts b = .ok (b', a) ∧ a * 1024 = (moves.sum : Int) := by
  induction moves generalizing counts pos b with
  | nil =>
    rw [List.length_eq_zero_iff.mp hlen]
    exact ⟨b, 0, rfl, by simp⟩
  | cons m l ih =>
    match counts, hlen with
    | c :: cs, hlen =>
      obtain ⟨b1, h1, h2⟩ := C58_step pos m b c hb (by have h := hc 0 (by simp); simp only [List.take_succ_cons, List.take_zero, List.sum_cons, List.sum_nil, add_zero] at h; exact h) (hm m (by simp))
      obtain ⟨b2, a, h3, h4⟩ := ih cs (pos + m) b1 h2 (fun x hx => hm x (by simp [hx])) (by simpa using hlen) (by
        intro k hk
        have := hc (k + 1) (by simpa using hk)
        simpa [add_assoc] using this)
      refine ⟨b2, Encoder.revolutions m + a, ?_, ?_⟩
      · simp only [totalAngle, Encoder.angle, h1, h3, bind, Except.bind, pure, Except.pure]
      · rw [add_mul, h4, List.sum_cons]
        unfold Encoder.revolutions
        push_cast
        ring

/-- A wheel that turns forwards by three quarters of a revolution and back through zero by one. -/
example : ∃ b a, totalAngle [768, 65280] Encoder.new = .ok (b, a) ∧ a * 1024 = ((-256 : Int) : ℝ) := by
  have h := C58_angle [768, -1024] [768, 65280] 0 Encoder.new rfl (by decide) rfl (by
    intro k hk
    match k, hk with
    | 0, _ => show Shows 768 _; unfold Shows; decide
    | 1, _ => show Shows 65280 _; unfold Shows; decide)
  simpa using h

/-- **C58**, exactly half the range: the call panics when the new counter value is the smaller one, and reports the
movement as backwards otherwise. -/
theorem C58_half (b c : Nat) (hb : b < 2 ^ 16) (h : Shows c (b + 2 ^ 15)) :
    (2 ^ 15 ≤ b → Encoder.relative b c = .error .overflow) ∧
    (b < 2 ^ 15 → Encoder.relative b c = .ok (b + 2 ^ 15, -2 ^ 15)) := by
  unfold Shows at h
  have ha : (Encoder.lowerBits c : Int) = (b + 2 ^ 15) % 2 ^ 16 := by
    rw [lowerBits_eq]; push_cast; exact h
  unfold Encoder.relative
  obtain ⟨a, hae⟩ : ∃ a, Encoder.lowerBits c = a := ⟨_, rfl⟩
  rw [hae] at ha ⊢
  norm_num at ha hb ⊢
  constructor
  · intro hlt
    have e : b - a = 32768 := by omega
    rw [if_neg (by omega), e]
    rfl
  · intro hlt
    have e : a - b = 32768 := by omega
    rw [if_pos (by omega), e]
    have : a = b + 32768 := by omega
    rw [this]
    rfl

example : Shows 0 ((32768 : Nat) + 2 ^ 15) := by unfold Shows; decide

/-! ## C63 -/

theorem toU16_le {r : ℝ} {m : Nat} (h0 : 0 ≤ r) (h1 : r ≤ 1) (hm : m ≤ 65535) :
    (Motor.toU16 ((1 - r) * m) : ℝ) ≤ (1 - r) * m ∧ (1 - r) * m < Motor.toU16 ((1 - r) * m) + 1 ∧
      Motor.toU16 ((1 - r) * m) ≤ m := by
  have hm0 : (0 : ℝ) ≤ m := Nat.cast_nonneg m
  have hx : 0 ≤ (1 - r) * m := mul_nonneg (by linarith) hm0
  have hle : (1 - r) * m ≤ m := by nlinarith
  have hf : ⌊(1 - r) * (m : ℝ)⌋₊ ≤ m := by
    have := Nat.floor_le_floor hle
    rwa [Nat.floor_natCast] at this
  have e : Motor.toU16 ((1 - r) * m) = ⌊(1 - r) * (m : ℝ)⌋₊ := min_eq_right (hf.trans hm)
  rw [e]
  exact ⟨Nat.floor_le hx, Nat.lt_floor_add_one _, hf⟩

/-- **C63.** With the ratio `r = |voltage| / battery` limited to 1: a positive voltage lowers the first duty to `1 - r` of
its maximum (rounded down) and leaves the second at its maximum, a negative one the other way round. -/
theorem C63_motor (max1 max2 : Nat) (h1 : max1 ≤ 65535) (h2 : max2 ≤ 65535) (voltage battery : ℝ) (hb : 0 < battery) :
    let d := Motor.apply max1 max2 voltage battery
    let r := min 1 (|voltage| / battery)
    d.1 ≤ max1 ∧ d.2 ≤ max2 ∧
    (0 < voltage → d.2 = max2 ∧ (d.1 : ℝ) ≤ (1 - r) * max1 ∧ (1 - r) * max1 < d.1 + 1) ∧
    (voltage < 0 → d.1 = max1 ∧ (d.2 : ℝ) ≤ (1 - r) * max2 ∧ (1 - r) * max2 < d.2 + 1) ∧
    (voltage = 0 → d = (max1, max2)) := by
  intro d r
  have key : ∀ x : ℝ, (if 1 < x then 1 else x) = min 1 x := by
    intro x
    rcases lt_or_ge 1 x with h | h
    · rw [if_pos h, min_eq_left h.le]
    · rw [if_neg (not_lt.mpr h), min_eq_right h]
  have hr0 : 0 ≤ r := le_min zero_le_one (div_nonneg (abs_nonneg _) hb.le)
  have hr1 : r ≤ 1 := min_le_left _ _
  rcases lt_or_ge 0 voltage with hv | hv
  · have hd : d = (Motor.toU16 ((1 - r) * max1), max2) := by
      show Motor.apply max1 max2 voltage battery = _
      unfold Motor.apply
      rw [if_pos hv]
      dsimp only
      rw [key]
      simp only [r, abs_of_pos hv]
    rw [hd]
    obtain ⟨a, b, c⟩ := toU16_le hr0 hr1 h1
    exact ⟨c, le_rfl, fun _ => ⟨rfl, a, b⟩, fun h => by linarith, fun h => by linarith⟩
  · have hd : d = (max1, Motor.toU16 ((1 - r) * max2)) := by
      show Motor.apply max1 max2 voltage battery = _
      unfold Motor.apply
      rw [if_neg (not_lt.mpr hv)]
      dsimp only
      rw [key]
      simp only [r, abs_of_nonpos hv, neg_div]
    rw [hd]
    obtain ⟨a, b, c⟩ := toU16_le hr0 hr1 h2
    refine ⟨le_rfl, c, fun h => by linarith, fun _ => ⟨rfl, a, b⟩, fun h => ?_⟩
    have : r = 0 := by simp only [r, h, abs_zero, zero_div]; exact min_eq_right zero_le_one
    rw [this]
    simp only [sub_zero, one_mul, Motor.toU16, Nat.floor_natCast, min_eq_right h2]

/-- Half of the battery voltage. -/
example : (Motor.apply 1000 1000 2 4).2 = 1000 ∧ ((Motor.apply 1000 1000 2 4).1 : ℝ) ≤ 500 := by
  have h := (C63_motor 1000 1000 (by norm_num) (by norm_num) 2 4 (by norm_num)).2.2.1 (by norm_num)
  refine ⟨h.1, h.2.1.trans ?_⟩
  rw [abs_of_pos (by norm_num : (0 : ℝ) < 2)]
  norm_num

/-! ## C64 -/

theorem currentVoltage_eq (ratio : ℝ) (v : Nat) : Voltmeter.currentVoltage ratio (some v) = .ok (readingVoltage ratio v) := by
  unfold Voltmeter.currentVoltage readingVoltage
  refine congrArg Except.ok ?_
  ring

theorem sumLoop_bounds (ratio lo hi : ℝ) (adc : Nat → Option Nat) (n k : Nat) (sum : ℝ)
    (h : ∀ i, k ≤ i → i < k + n → ∃ v, adc i = some v ∧ lo ≤ readingVoltage ratio v ∧ readingVoltage ratio v ≤ hi) :
    ∃ s, Voltmeter.sumLoop ratio adc n k sum = .ok s ∧ sum + n * lo ≤ s ∧ s ≤ sum + n * hi := by
  induction n generalizing k sum with
  | zero => exact ⟨sum, rfl, by simp, by simp⟩
  | succ n ih =>
    obtain ⟨v, hv, h1, h2⟩ := h k le_rfl (by omega)
    obtain ⟨s, e, h3, h4⟩ := ih (k + 1) (sum + readingVoltage ratio v) (fun i a b => h i (by omega) (by omega))
    refine ⟨s, ?_, ?_, ?_⟩
    · simp only [Voltmeter.sumLoop, hv, currentVoltage_eq, bind, Except.bind, e]
    · push_cast; linarith
    · push_cast; linarith

/-- **C64.** If no reading fails, `new` and any number of updates succeed, and the voltage lies between any bounds on the
readings. -/
theorem C64_voltmeter (period cutOff ratio lo hi : ℝ) (hp : 0 ≤ period) (hf : 0 ≤ cutOff) (adc : Nat → Option Nat)
    (h : ∀ i, i < 100 → ∃ v, adc i = some v ∧ lo ≤ readingVoltage ratio v ∧ readingVoltage ratio v ≤ hi)
    (l : List (Option Nat))
    (hl : ∀ r ∈ l, ∃ v, r = some v ∧ lo ≤ readingVoltage ratio v ∧ readingVoltage ratio v ≤ hi) :
    ∃ v0 v, Voltmeter.new adc period cutOff ratio = .ok v0 ∧ updates l v0 = .ok v ∧ lo ≤ v0.voltage ∧ v0.voltage ≤ hi ∧
      lo ≤ v.voltage ∧ v.voltage ≤ hi := by
  obtain ⟨s, e, h1, h2⟩ := sumLoop_bounds ratio lo hi adc 100 0 0 (fun i _ b => h i (by omega))
  push_cast at h1 h2
  have hpos : 0 ≤ 2 * Real.pi * (period * cutOff) := by have := Real.pi_pos; positivity
  have ha0 : 0 ≤ 1 / (2 * Real.pi * (period * cutOff) + 1) := by positivity
  have ha1 : 1 / (2 * Real.pi * (period * cutOff) + 1) ≤ 1 := by
    rw [div_le_one (by linarith)]; linarith
  have step : ∀ (l : List (Option Nat)) (v : Voltmeter.Voltmeter), 0 ≤ v.alpha → v.alpha ≤ 1 → v.ratio = ratio →
      lo ≤ v.voltage → v.voltage ≤ hi →
      (∀ r ∈ l, ∃ v, r = some v ∧ lo ≤ readingVoltage ratio v ∧ readingVoltage ratio v ≤ hi) →
      ∃ v', updates l v = .ok v' ∧ lo ≤ v'.voltage ∧ v'.voltage ≤ hi := by
    intro l
    induction l with
    | nil => intro v _ _ _ a b _; exact ⟨v, rfl, a, b⟩
    | cons r l ih =>
      intro v a0 a1 hr a b hl
      obtain ⟨x, rfl, x1, x2⟩ := hl r (by simp)
      obtain ⟨v', e', h'⟩ := ih { v with voltage := v.alpha * v.voltage + (1 - v.alpha) * readingVoltage ratio x } a0 a1 hr
        (by dsimp only; nlinarith) (by dsimp only; nlinarith) (fun r hr => hl r (by simp [hr]))
      refine ⟨v', ?_, h'⟩
      simp only [updates, Voltmeter.updateVoltage, hr, currentVoltage_eq, bind, Except.bind, pure, Except.pure]
      rw [← e', hr]
  have hv0 : Voltmeter.new adc period cutOff ratio = .ok ⟨s / 100, 1 / (2 * Real.pi * (period * cutOff) + 1), ratio⟩ := by
    simp only [Voltmeter.new, e, bind, Except.bind, pure, Except.pure]
  obtain ⟨v, e1, e2, e3⟩ := step l ⟨s / 100, 1 / (2 * Real.pi * (period * cutOff) + 1), ratio⟩ ha0 ha1 rfl
    (by dsimp only; linarith) (by dsimp only; linarith) hl
  exact ⟨_, v, hv0, e1, by dsimp only; linarith, by dsimp only; linarith, e2, e3⟩

/-- Readings between 1000 and 2000 on a divider by 2. -/
example : ∀ i, i < 100 → ∃ v, (fun i => some (1000 + 10 * i)) i = some v ∧ readingVoltage 2 1000 ≤ readingVoltage 2 v ∧
    readingVoltage 2 v ≤ readingVoltage 2 2000 := by
  intro i hi
  have : (i : ℝ) < 100 := by exact_mod_cast hi
  refine ⟨_, rfl, ?_, ?_⟩ <;> unfold readingVoltage <;> push_cast <;> linarith [(Nat.cast_nonneg i : (0 : ℝ) ≤ i)]

end Verif.Props
