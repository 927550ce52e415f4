import Verif.Proof.Grid
import Mathlib.Tactic.IntervalCases
/-! # C01, C02: coordinates -/
namespace Verif.Props
open Verif Verif.Search Verif.Spec Verif.Grid

theorem isPow2_iff (W : Nat) (hW : W < 256) : isPow2 W = true ↔ ∃ k, k ≤ 7 ∧ W = 2 ^ k := by
  have key : ∀ w : Fin 256, isPow2 w.val = decide (∃ k : Fin 8, w.val = 2 ^ k.val) := by
    decide +kernel
  have := key ⟨W, hW⟩
  simp only at this
  rw [this, decide_eq_true_eq]
  constructor
  · rintro ⟨k, hk⟩; exact ⟨k.val, by omega, hk⟩
  · rintro ⟨k, hk, rfl⟩; exact ⟨⟨k, by omega⟩, rfl⟩

/-- **C01.** `Coordinate::new` returns `Some` exactly for the wall positions of a maze whose width is a
power of two not above 64, and the accessors give back the arguments. -/
theorem C01_new_iff (W x y : Nat) (hW : W < 256) (hx : x < 256) (hy : y < 256) (c : Coord) :
    Coord.new W x y = some c ↔
      ((∃ k, k ≤ 6 ∧ W = 2 ^ k) ∧ x < 2 * W ∧ y < 2 * W ∧ (x + y) % 2 = 1) ∧ c.x = x ∧ c.y = y := by
  have hp := isPow2_iff W hW
  have hx2 : ((x ^^^ y) &&& 1) = (x + y) % 2 := by
    rw [Nat.and_one_is_mod]
    have h := @Nat.xor_mod_two_pow x y 1
    simp only [Nat.pow_one] at h
    rw [h]
    rcases Nat.mod_two_eq_zero_or_one x with h1 | h1 <;>
      rcases Nat.mod_two_eq_zero_or_one y with h2 | h2 <;> rw [h1, h2] <;> simp <;> omega
  have hsh : W <<< 1 = 2 * W := by simp [Nat.shiftLeft_eq]; omega
  unfold Coord.new
  rw [hx2, hsh]
  cases c with | mk cx cy =>
  constructor
  · intro h
    split at h
    · simp at h
    · rename_i hn
      simp only [Bool.or_eq_true, Bool.not_eq_true', decide_eq_true_eq, not_or] at hn
      obtain ⟨⟨⟨h1, h2⟩, h3⟩, h4⟩ := hn
      simp only [Option.some.injEq, Coord.mk.injEq] at h
      obtain ⟨k, hk, rfl⟩ := hp.1 (by simpa using h1)
      have : k ≤ 6 := by
        by_contra hk6
        have : k = 7 := by omega
        subst this
        simp at h2
      have hle : 2 ^ k ≤ 2 ^ 6 := Nat.pow_le_pow_right (by omega) this
      exact ⟨⟨⟨k, this, rfl⟩, by omega, by omega, by omega⟩, h.1.symm, h.2.symm⟩
  · rintro ⟨⟨⟨k, hk, rfl⟩, h1, h2, h3⟩, e1, e2⟩
    simp only at e1 e2
    subst e1 e2
    have hle : 2 ^ k ≤ 2 ^ 6 := Nat.pow_le_pow_right (by omega) hk
    have hpow := hp.2 ⟨k, by omega, rfl⟩
    rw [if_neg]
    simp only [hpow, Bool.or_eq_true, decide_eq_true_eq, Bool.not_true, Bool.false_eq_true, not_or,
      not_false_eq_true, true_and]
    clear hp hpow hW hsh hx2
    omega

/-- On a supported width, the coordinates obtainable from `Coordinate::new` are the valid ones. -/
theorem C01_valid (W : Nat) (hW : Supported W) (x y : Nat) (hx : x < 256) (hy : y < 256) (c : Coord) :
    Coord.new W x y = some c ↔ Valid W c ∧ c.x = x ∧ c.y = y := by
  have := hW.le
  rw [C01_new_iff W x y (by omega) hx hy]
  unfold Valid
  constructor
  · rintro ⟨⟨-, h1, h2, h3⟩, rfl, rfl⟩; exact ⟨⟨h1, h2, h3⟩, rfl, rfl⟩
  · rintro ⟨⟨h1, h2, h3⟩, rfl, rfl⟩
    obtain ⟨k, hk, h⟩ := hW
    exact ⟨⟨⟨k, by omega, h⟩, h1, h2, h3⟩, rfl, rfl⟩

example : Coord.new 4 3 6 = some ⟨3, 6⟩ ∧ Coord.new 128 1 0 = none ∧ Coord.new 4 3 7 = none := by decide

/-- **C02.** Distinct wall positions have distinct slots, and every slot is inside the arrays. -/
theorem C02_slots (W : Nat) (hW : Supported W) :
    (∀ c d : Coord, Valid W c → Valid W d → c.asIndex W = d.asIndex W → c = d) ∧
    (∀ c : Coord, Valid W c → c.asIndex W < 2 * W * W ∧ c.asIndex W < QUE_MAX) :=
  ⟨fun _ _ hc hd h => asIndex_inj hW hc hd h,
    fun _ hc => ⟨asIndex_lt hW hc, asIndex_lt_que hW hc⟩⟩

/-- All `2 W²` slots are used: the numbering of wall positions is a bijection. -/
theorem C02_onto (W : Nat) (hW : Supported W) (i : Nat) (hi : i < 2 * W * W) :
    ∃ c : Coord, Valid W c ∧ c.asIndex W = i := by
  have hp := hW.pos
  have h2 : i / (2 * W) < W := by
    rw [Nat.div_lt_iff_lt_mul (by omega)]
    calc i < 2 * W * W := hi
      _ = W * (2 * W) := by rw [Nat.mul_comm]
  have hm : i % (2 * W) < 2 * W := Nat.mod_lt _ (by omega)
  have hi' : i / (2 * W) * (2 * W) + i % (2 * W) = i := by rw [Nat.mul_comm]; exact Nat.div_add_mod _ _
  generalize hq : i / (2 * W) = q at *
  generalize hr : i % (2 * W) = r at *
  by_cases hpar : r % 2 = 1
  · have hv : Valid W ⟨r / 2 * 2, q * 2 + 1⟩ := by refine ⟨?_, ?_, ?_⟩ <;> simp only <;> omega
    refine ⟨_, hv, ?_⟩
    rw [asIndex_eq hW hv.1]
    simp only
    have : (q * 2 + 1) / 2 = q := by omega
    rw [this]; omega
  · have hv : Valid W ⟨r / 2 * 2 + 1, q * 2⟩ := by refine ⟨?_, ?_, ?_⟩ <;> simp only <;> omega
    refine ⟨_, hv, ?_⟩
    rw [asIndex_eq hW hv.1]
    simp only
    have : q * 2 / 2 = q := by omega
    rw [this]; omega

example : Supported 16 ∧ Valid 16 ⟨31, 30⟩ ∧ (⟨31, 30⟩ : Coord).asIndex 16 = 510 := by
  refine ⟨⟨4, by omega, rfl⟩, by decide, by decide⟩

end Verif.Props
