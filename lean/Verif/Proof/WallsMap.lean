import Verif.Model.Walls
import Verif.Props.Coord
/-! # The byte array of `Walls` as a table of states -/
namespace Verif.WallsP
open Verif Verif.Search Verif.Spec Verif.Grid Verif.Walls

/-- The two bits of slot `i`. -/
def slot (w : Walls) (i : Nat) : BitVec 8 := (w (i / 4) >>> (2 * (i % 4))) &&& 3#8

theorem bits_set : ∀ (v : Fin 256) (k j : Fin 4) (s : Fin 3),
    let b := BitVec.ofFin (w := 8) v
    let t := bits (if s = 0 then .unchecked else if s = 1 then .checked false else .checked true)
    let b' := (b &&& ~~~(3#8 <<< (2 * k.val))) ||| (t <<< (2 * k.val))
    (b' >>> (2 * j.val)) &&& 3#8 = if j = k then t else (b >>> (2 * j.val)) &&& 3#8 := by
  decide +kernel

theorem bits_set' (b : BitVec 8) {k j : Nat} (hk : k < 4) (hj : j < 4) (st : WallState) :
    (((b &&& ~~~(3#8 <<< (2 * k))) ||| (bits st <<< (2 * k))) >>> (2 * j)) &&& 3#8 =
      if j = k then bits st else (b >>> (2 * j)) &&& 3#8 := by
  have h : ∀ s : Fin 3, _ := fun s => bits_set b.toFin ⟨k, hk⟩ ⟨j, hj⟩ s
  cases st with
  | unchecked => simpa using h 0
  | checked e => cases e with
    | false => simpa using h 1
    | true => simpa using h 2

theorem and3 (n : Nat) : n &&& 3 = n % 4 := Nat.and_two_pow_sub_one_eq_mod n 2

theorem shift_eq (n : Nat) : (n &&& 3) <<< 1 = 2 * (n % 4) := by
  rw [and3, Nat.shiftLeft_eq]; omega

theorem div4 (n : Nat) : n >>> 2 = n / 4 := by simp [Nat.shiftRight_eq_div_pow]

theorem update_eq {W : Nat} {w : Walls} {c : Coord} (h : c.asIndex W < 2048) (st : WallState) :
    ∃ w', update W w c st = .ok w' ∧
      ∀ i, slot w' i = if i = c.asIndex W then bits st else slot w i := by
  have hlen : LEN = 512 := rfl
  have hd : c.asIndex W / 4 < LEN := by omega
  unfold update
  simp only [div4, shift_eq, arrGet, arrSet, hd, if_true, bind, Except.bind]
  refine ⟨_, rfl, fun i => ?_⟩
  unfold slot
  generalize c.asIndex W = n at *
  by_cases hq : i / 4 = n / 4
  · simp only [hq, if_true]
    rw [bits_set' _ (Nat.mod_lt _ (by omega)) (Nat.mod_lt _ (by omega))]
    by_cases hi : i = n
    · subst hi; simp
    · have : i % 4 ≠ n % 4 := by omega
      simp [hi, this]
  · have : i ≠ n := by rintro rfl; exact hq rfl
    simp [hq, this]

/-- The state stored in two bits, `none` for the unused pattern. -/
def decode (b : BitVec 8) : Option WallState :=
  if b = 0#8 then some .unchecked else if b = 1#8 then some (.checked false)
  else if b = 3#8 then some (.checked true) else none

theorem decode_bits (st : WallState) : decode (bits st) = some st := by
  cases st with
  | unchecked => rfl
  | checked e => cases e <;> rfl

theorem wallState_eq {W : Nat} {w : Walls} {c : Coord} (h : c.asIndex W < 2048) :
    wallState W w c = match decode (slot w (c.asIndex W)) with
      | some st => .ok st
      | none => .error .unreachable := by
  have hlen : LEN = 512 := rfl
  have hd : c.asIndex W / 4 < LEN := by omega
  unfold wallState decode slot
  simp only [div4, shift_eq, arrGet, hd, if_true, bind, Except.bind]
  generalize w (c.asIndex W / 4) >>> (2 * (c.asIndex W % 4)) &&& 3#8 = b
  by_cases h0 : b = 0#8
  · simp [h0]
  · by_cases h1 : b = 1#8
    · simp [h1]
    · by_cases h3 : b = 3#8 <;> simp [h0, h1, h3]

/-- `update` then `wall_state`. -/
theorem wallState_update {W : Nat} (hW : Supported W) {w : Walls} {c : Coord} (hc : Valid W c)
    (st : WallState) : ∃ w', update W w c st = .ok w' ∧ ∀ d, Valid W d →
      wallState W w' d = if d = c then .ok st else wallState W w d := by
  obtain ⟨w', h1, h2⟩ := update_eq (W := W) (w := w) (asIndex_lt_que hW hc) st
  refine ⟨w', h1, fun d hd => ?_⟩
  rw [wallState_eq (asIndex_lt_que hW hd), wallState_eq (asIndex_lt_que hW hd), h2]
  by_cases hdc : d = c
  · subst hdc; simp [decode_bits]
  · have : d.asIndex W ≠ c.asIndex W := fun h => hdc (asIndex_inj hW hd hc h)
    simp [hdc, this]

theorem updateAt_eq {W : Nat} (hW : Supported W) {w : Walls} {c : Coord} (hc : Valid W c)
    (st : WallState) : ∃ w', updateAt W w c.x c.y st = .ok w' ∧ ∀ d, Valid W d →
      wallState W w' d = if d = c then .ok st else wallState W w d := by
  have := hW.le
  have hn : Coord.new W c.x c.y = some c :=
    (Props.C01_valid W hW c.x c.y (by have := hc.1; omega) (by have := hc.2.1; omega) c).2 ⟨hc, rfl, rfl⟩
  unfold updateAt
  rw [hn]
  exact wallState_update hW hc st

theorem shl1_or1 (n : Nat) : (n <<< 1) ||| 1 = 2 * n + 1 := by
  rw [← Nat.shiftLeft_add_eq_or_of_lt (by decide), Nat.shiftLeft_eq]; omega

theorem shl1 (n : Nat) : n <<< 1 = 2 * n := by rw [Nat.shiftLeft_eq]; omega

theorem newLoop_eq {W : Nat} (hW : Supported W) : ∀ (n i : Nat) (w : Walls), i + n ≤ W →
    ∃ w', newLoop W n i w = .ok w' ∧ ∀ d, Valid W d →
      wallState W w' d = if (d.x = 2 * W - 1 ∧ i ≤ d.y / 2 ∧ d.y / 2 < i + n) ∨
        (d.y = 2 * W - 1 ∧ i ≤ d.x / 2 ∧ d.x / 2 < i + n) then .ok (.checked true) else wallState W w d
  | 0, i, w, _ => ⟨w, rfl, fun d _ => by rw [if_neg (by omega)]⟩
  | n + 1, i, w, h => by
    have hp := hW.pos
    have v1 : Valid W ⟨2 * (W - 1) + 1, 2 * i⟩ := ⟨by simp; omega, by simp; omega, by simp⟩
    have v2 : Valid W ⟨2 * i, 2 * (W - 1) + 1⟩ := ⟨by simp; omega, by simp; omega, by simp⟩
    obtain ⟨w1, e1, f1⟩ := updateAt_eq hW (w := w) v1 (.checked true)
    obtain ⟨w2, e2, f2⟩ := updateAt_eq hW (w := w1) v2 (.checked true)
    obtain ⟨w3, e3, f3⟩ := newLoop_eq hW n (i + 1) w2 (by omega)
    refine ⟨w3, ?_, fun d hd => ?_⟩
    · unfold newLoop
      have hor : 2 * (W - 1) ||| 1 = 2 * (W - 1) + 1 := by rw [← shl1, shl1_or1, shl1]
      simp only [shl1, hor]
      simp only at e1 e2
      simp only [e1, bind, Except.bind, e2, e3]
    · rw [f3 d hd, f2 d hd, f1 d hd]
      obtain ⟨d1, d2, d3⟩ := hd
      cases d with | mk x y =>
      simp only [Coord.mk.injEq] at *
      by_cases hA : (x = 2 * W - 1 ∧ i + 1 ≤ y / 2 ∧ y / 2 < i + 1 + n) ∨
        (y = 2 * W - 1 ∧ i + 1 ≤ x / 2 ∧ x / 2 < i + 1 + n)
      · rw [if_pos hA, if_pos (by omega)]
      · rw [if_neg hA]
        by_cases hB : x = 2 * i ∧ y = 2 * (W - 1) + 1
        · rw [if_pos hB, if_pos (by omega)]
        · rw [if_neg hB]
          by_cases hC : x = 2 * (W - 1) + 1 ∧ y = 2 * i
          · rw [if_pos hC, if_pos (by omega)]
          · rw [if_neg hC, if_neg (by omega)]

theorem wallState_zero {W : Nat} (hW : Supported W) {d : Coord} (hd : Valid W d) :
    wallState W (fun _ => 0#8) d = .ok .unchecked := by
  rw [wallState_eq (asIndex_lt_que hW hd)]
  have : slot (fun _ => 0#8) (d.asIndex W) = 0#8 := by simp [slot]
  rw [this]; rfl

theorem new_eq {W : Nat} (hW : Supported W) : ∃ w, new W = .ok w ∧ ∀ d, Valid W d →
    wallState W w d = .ok (
      if d = ⟨0, 1⟩ then .checked false
      else if d = ⟨1, 0⟩ then .checked true
      else if d.x = 2 * W - 1 ∨ d.y = 2 * W - 1 then .checked true
      else .unchecked) := by
  have hp := hW.pos
  obtain ⟨w1, e1, f1⟩ := newLoop_eq hW W 0 (fun _ => 0#8) (by omega)
  have v1 : Valid W ⟨1, 0⟩ := ⟨by simp; omega, by simp; omega, rfl⟩
  have v2 : Valid W ⟨0, 1⟩ := ⟨by simp; omega, by simp; omega, rfl⟩
  obtain ⟨w2, e2, f2⟩ := updateAt_eq hW (w := w1) v1 (.checked true)
  obtain ⟨w3, e3, f3⟩ := updateAt_eq hW (w := w2) v2 (.checked false)
  refine ⟨w3, ?_, fun d hd => ?_⟩
  · unfold new
    simp only at e2 e3
    simp only [e1, bind, Except.bind, e2, e3]
  · rw [f3 d hd, f2 d hd, f1 d hd, wallState_zero hW hd]
    obtain ⟨d1, d2, d3⟩ := hd
    split
    · rfl
    · split
      · rfl
      · by_cases h : d.x = 2 * W - 1 ∨ d.y = 2 * W - 1
        · rw [if_pos (by omega), if_pos h]
        · rw [if_neg (by omega), if_neg h]

end Verif.WallsP
