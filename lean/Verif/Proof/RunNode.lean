import Verif.Spec.Run
import Verif.Proof.Grid
import Mathlib.Tactic.IntervalCases
import Mathlib.Tactic.Ring
/-! Nodes of the run planner: construction, identifiers, relative coordinates. -/
namespace Verif.Proof
open Verif Verif.Run Verif.Spec

theorem isPow2_iff : ∀ W < 256, (isPow2 W = true ↔ ∃ k, k ≤ 7 ∧ W = 2 ^ k) := by
  have h : ∀ W < 256, isPow2 W = (List.range 8).any (fun k => W == 2 ^ k) := by decide +kernel
  intro W hW
  rw [h W hW]
  simp only [List.any_eq_true, List.mem_range, beq_iff_eq]
  constructor
  · rintro ⟨k, hk, e⟩; exact ⟨k, by omega, e⟩
  · rintro ⟨k, hk, e⟩; exact ⟨k, by omega, e⟩

theorem and_one (n : Nat) : n &&& 1 = n % 2 := Nat.and_one_is_mod n

theorem coordNew_eq (W x y : Nat) (hW : Supported W) :
    coordNew W x y = if x < 2 * W ∧ y < 2 * W then some (x, y) else none := by
  obtain ⟨k, hk, rfl⟩ := hW
  have : isPow2 (2 ^ k) = true ∧ ((2 ^ k) <<< 1) % 256 = 2 * 2 ^ k := by
    interval_cases k <;> decide
  unfold coordNew
  rw [this.1, this.2]
  by_cases hx : x < 2 * 2 ^ k <;> by_cases hy : y < 2 * 2 ^ k <;> simp [hx, hy] <;> omega

theorem asI8_small (n : Nat) (h : n < 128) : asI8 n = n := by
  unfold asI8; rw [Nat.mod_eq_of_lt (by omega)]; simp [h]

/-- Relative coordinates are exact, whatever happens to the `i8` arithmetic. -/
theorem coordRelative_eq (W x y : Nat) (hW : Supported W) (hx : x < 2 * W) (hy : y < 2 * W) (dx dy : Int)
    (hdx : -128 ≤ dx) (hdy : -128 ≤ dy) :
    coordRelative W x y dx dy =
      if 0 ≤ x + dx ∧ x + dx < 2 * W ∧ 0 ≤ y + dy ∧ y + dy < 2 * W then
        some ((x + dx).toNat, (y + dy).toNat) else none := by
  have hW' := hW.le
  unfold coordRelative checkedAddI8
  rw [asI8_small x (by omega), asI8_small y (by omega)]
  by_cases h1 : -128 ≤ (x : Int) + dx ∧ (x : Int) + dx ≤ 127
  · rw [if_pos h1]
    by_cases h2 : -128 ≤ (y : Int) + dy ∧ (y : Int) + dy ≤ 127
    · rw [if_pos h2]
      simp only [Bool.or_eq_true, decide_eq_true_eq]
      by_cases h3 : (x : Int) + dx < 0 ∨ (y : Int) + dy < 0
      · rw [if_pos h3, if_neg (by omega)]
      · rw [if_neg h3, coordNew_eq _ _ _ hW]
        by_cases h4 : 0 ≤ (x : Int) + dx ∧ x + dx < 2 * W ∧ 0 ≤ y + dy ∧ y + dy < 2 * W
        · rw [if_pos h4, if_pos (by omega)]
        · rw [if_neg h4, if_neg (by omega)]
    · simp only [if_neg h2]
      rw [if_neg (by omega)]
  · simp only [if_neg h1]
    rw [if_neg (by omega)]


theorem xor_and_one (x y : Nat) : (x ^^^ y) &&& 1 = (x + y) % 2 := by
  rw [and_one]
  have h := Nat.xor_mod_two_pow (a := x) (b := y) (n := 1)
  simp only [Nat.pow_one] at h
  rw [h]
  rcases Nat.mod_two_eq_zero_or_one x with hx | hx <;> rcases Nat.mod_two_eq_zero_or_one y with hy | hy <;>
    simp [hx, hy, Nat.add_mod]

theorem or_and_one (x y : Nat) : (x ||| y) &&& 1 = 0 ↔ x % 2 = 0 ∧ y % 2 = 0 := by
  rw [and_one]
  have h := Nat.or_mod_two_pow (a := x) (b := y) (n := 1)
  simp only [Nat.pow_one] at h
  rw [h]
  rcases Nat.mod_two_eq_zero_or_one x with hx | hx <;> rcases Nat.mod_two_eq_zero_or_one y with hy | hy <;>
    simp [hx, hy]

/-- The direction number of a posture. -/
def dirNum : Posture → Nat
  | .northEast | .north => 0
  | .southEast | .east => 1
  | .southWest | .south => 2
  | .northWest | .west => 3

theorem dirNum_lt (p : Posture) : dirNum p < 4 := by cases p <;> decide

theorem dirCode_eq (W : Nat) (n : Node) (h : Legal W n) : n.dirCode = .ok (dirNum n.posture) := by
  obtain ⟨x, y, p⟩ := n
  obtain ⟨_, _, h | h⟩ := h
  · obtain ⟨hx, hy, hp⟩ := h
    simp only at hx hy hp
    unfold Node.dirCode
    simp only [xor_and_one, or_and_one]
    rw [if_neg (by omega), if_pos ⟨hx, hy⟩]
    cases p <;> first | rfl | simp at hp
  · obtain ⟨hx, hp⟩ := h
    simp only at hx hp
    unfold Node.dirCode
    simp only [xor_and_one, or_and_one]
    rw [if_pos hx]
    cases p <;> first | rfl | simp at hp

theorem offsets (k : Nat) (hk : k ≤ 5) : yOffset (2 ^ k) = k + 1 ∧ dirOffset (2 ^ k) = 2 * (k + 1) := by
  interval_cases k <;> decide

/-- The table slot of a node. -/
def slotOf (W : Nat) (n : Node) : Nat := n.x + 2 * W * (n.y + 2 * W * dirNum n.posture)

theorem or_shift (x y k : Nat) (h : x < 2 ^ k) : x ||| (y <<< k) = x + 2 ^ k * y := by
  rw [Nat.or_comm, ← Nat.shiftLeft_add_eq_or_of_lt h, Nat.shiftLeft_eq]
  rw [Nat.mul_comm, Nat.add_comm]

theorem asIndex_eq (W : Nat) (hW : Supported W) (n : Node) (h : Legal W n) :
    n.asIndex W = .ok (slotOf W n) := by
  unfold Node.asIndex
  rw [dirCode_eq W n h]
  obtain ⟨k, hk, rfl⟩ := hW
  obtain ⟨hx, hy, -⟩ := h
  obtain ⟨e1, e2⟩ := offsets k hk
  have e : 2 ^ (k + 1) = 2 * 2 ^ k := by rw [Nat.pow_succ]; omega
  show Except.ok _ = _
  congr 1
  rw [e1, e2, or_shift n.x _ _ (by omega)]
  have hlt : n.x + 2 ^ (k + 1) * n.y < 2 ^ (2 * (k + 1)) := by
    have : 2 ^ (2 * (k + 1)) = 2 ^ (k + 1) * 2 ^ (k + 1) := by rw [← Nat.pow_add]; congr 1; omega
    rw [this]
    have h2 : 2 ^ (k + 1) * (n.y + 1) ≤ 2 ^ (k + 1) * 2 ^ (k + 1) := Nat.mul_le_mul_left _ (by omega)
    rw [Nat.mul_add] at h2
    omega
  rw [or_shift _ _ _ hlt]
  have : 2 ^ (2 * (k + 1)) = 2 ^ (k + 1) * 2 ^ (k + 1) := by rw [← Nat.pow_add]; congr 1; omega
  rw [this, slotOf, ← e, Nat.mul_add, Nat.mul_assoc, Nat.add_assoc]

theorem slotOf_lt (W : Nat) (n : Node) (h : Legal W n) : slotOf W n < 16 * W * W := by
  obtain ⟨hx, hy, -⟩ := h
  have hd := dirNum_lt n.posture
  unfold slotOf
  have h1 : n.y + 2 * W * dirNum n.posture + 1 ≤ 2 * W * 4 := by
    have : 2 * W * (dirNum n.posture + 1) ≤ 2 * W * 4 := Nat.mul_le_mul_left _ (by omega)
    rw [Nat.mul_add] at this; omega
  have h2 : 2 * W * (n.y + 2 * W * dirNum n.posture + 1) ≤ 2 * W * (2 * W * 4) := Nat.mul_le_mul_left _ h1
  have h3 : 2 * W * (2 * W * 4) = 16 * W * W := by
    calc 2 * W * (2 * W * 4) = (2 * W) * (W * 8) := by congr 1; omega
      _ = 16 * W * W := by rw [Nat.mul_comm 2 W, Nat.mul_assoc, ← Nat.mul_assoc 2 W 8, Nat.mul_comm 2 W,
                              Nat.mul_assoc W 2 8, Nat.mul_comm 16 W, Nat.mul_assoc W 16 W,
                              Nat.mul_comm 16 W]
  rw [Nat.mul_add] at h2
  omega

theorem slots_le (W : Nat) (hW : Supported W) : 16 * W * W ≤ QUE_MAX := by
  obtain ⟨k, hk, rfl⟩ := hW
  interval_cases k <;> decide

theorem toId_eq (W : Nat) (hW : Supported W) (n : Node) (h : Legal W n) :
    n.toId W = .ok (2 * slotOf W n + 1) := by
  have h1 := slotOf_lt W n h
  have h2 : 16 * W * W ≤ 16384 := slots_le W hW
  unfold Node.toId
  rw [asIndex_eq W hW n h]
  show (if _ then _ else _) = _
  have e : ((slotOf W n % 65536) <<< 1) % 65536 ||| 1 = 2 * slotOf W n + 1 := by
    rw [Nat.mod_eq_of_lt (by omega), Nat.shiftLeft_eq, Nat.pow_one, Nat.mod_eq_of_lt (by omega),
      Nat.mul_comm]
    rw [Nat.or_comm]
    have := or_shift 1 (slotOf W n) 1 (by omega)
    rw [Nat.shiftLeft_eq, Nat.pow_one, Nat.mul_comm] at this
    rw [this]; omega
  simp only [e]
  rw [if_neg (by omega)]
  rfl

theorem ofId_slot (W : Nat) (hW : Supported W) (n : Node) (h : Legal W n) :
    Node.ofId W (2 * slotOf W n + 1) = .ok n := by
  obtain ⟨k, hk, rfl⟩ := hW
  have hd := dirNum_lt n.posture
  have hl := h
  obtain ⟨hx, hy, -⟩ := h
  obtain ⟨e1, e2⟩ := offsets k hk
  have e : 2 ^ (k + 1) = 2 * 2 ^ k := by rw [Nat.pow_succ]; omega
  have hle : 2 * 2 ^ k ≤ 64 := by
    have : 2 ^ k ≤ 2 ^ 5 := Nat.pow_le_pow_right (by omega) hk
    omega
  have hpos : 0 < 2 * 2 ^ k := by have := Nat.two_pow_pos k; omega
  unfold Node.ofId
  rw [e1, e2]
  have hs : (2 * slotOf (2 ^ k) n + 1) >>> 1 = slotOf (2 ^ k) n := by
    rw [Nat.shiftRight_eq_div_pow]; omega
  have X : (((2 * slotOf (2 ^ k) n + 1) >>> 1) &&& ((1 <<< (k + 1)) - 1)) % 256 = n.x := by
    rw [hs, Nat.one_shiftLeft, Nat.and_two_pow_sub_one_eq_mod, e, slotOf, Nat.add_mul_mod_self_left,
      Nat.mod_eq_of_lt hx, Nat.mod_eq_of_lt (by omega)]
  have hdd : 2 ^ (2 * (k + 1) + 1) = 2 * (2 * 2 ^ k * (2 * 2 ^ k)) := by
    rw [Nat.pow_succ, Nat.mul_comm, ← e, ← Nat.pow_add]; congr 2; omega
  have Y : (((2 * slotOf (2 ^ k) n + 1) &&& ((1 <<< (2 * (k + 1) + 1)) - 1)) >>> (1 + (k + 1))) % 256 = n.y := by
    rw [Nat.one_shiftLeft, Nat.and_two_pow_sub_one_eq_mod, Nat.shiftRight_eq_div_pow, hdd]
    have hA : 2 ^ (1 + (k + 1)) = 2 * (2 * 2 ^ k) := by rw [Nat.pow_add, e]
    rw [hA]
    set A := 2 * 2 ^ k with hAdef
    have h1 : 2 * slotOf (2 ^ k) n + 1 = (2 * (n.x + A * n.y) + 1) + 2 * (A * A) * dirNum n.posture := by
      unfold slotOf
      rw [← hAdef]
      ring
    have h2 : A * (n.y + 1) ≤ A * A := Nat.mul_le_mul_left _ hy
    rw [Nat.mul_add] at h2
    rw [h1, Nat.add_mul_mod_self_left, Nat.mod_eq_of_lt (a := 2 * (n.x + A * n.y) + 1) (by omega),
      ← Nat.div_div_eq_div_mul]
    rw [show (2 * (n.x + A * n.y) + 1) / 2 = n.x + A * n.y by omega, Nat.add_mul_div_left _ _ hpos,
      Nat.div_eq_of_lt hx, Nat.mod_eq_of_lt (by omega)]
    omega
  have D : (2 * slotOf (2 ^ k) n + 1) >>> (1 + 2 * (k + 1)) = dirNum n.posture := by
    rw [Nat.shiftRight_eq_div_pow, Nat.add_comm 1, hdd]
    set A := 2 * 2 ^ k with hAdef
    have h1 : 2 * slotOf (2 ^ k) n + 1 = (2 * (n.x + A * n.y) + 1) + 2 * (A * A) * dirNum n.posture := by
      unfold slotOf
      rw [← hAdef]
      ring
    have h2 : A * (n.y + 1) ≤ A * A := Nat.mul_le_mul_left _ hy
    rw [Nat.mul_add] at h2
    rw [h1, Nat.add_mul_div_left _ _ (by omega), Nat.div_eq_of_lt (by omega)]
    omega
  simp only [X, Y, D, xor_and_one, or_and_one]
  obtain ⟨x, y, p⟩ := n
  obtain ⟨_, _, h | h⟩ := hl
  · obtain ⟨hx, hy, hp⟩ := h
    simp only at hx hy hp
    rw [if_neg (by simp only; omega), if_pos ⟨hx, hy⟩]
    cases p <;> first | rfl | simp at hp
  · obtain ⟨hx, hp⟩ := h
    simp only at hx hp
    rw [if_pos hx]
    cases p <;> first | rfl | simp at hp

theorem slotOf_inj (W : Nat) (hW : Supported W) (n m : Node) (hn : Legal W n) (hm : Legal W m)
    (h : slotOf W n = slotOf W m) : n = m := by
  have h1 := ofId_slot W hW n hn
  rw [h, ofId_slot W hW m hm] at h1
  exact (Except.ok.inj h1).symm

end Verif.Proof
