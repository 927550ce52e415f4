import Verif.Spec.Grid
import Mathlib.Tactic.Common
import Mathlib.Data.List.Perm.Subperm
import Mathlib.Data.List.Nodup
/-! # Facts about coordinates and neighbour lists -/
namespace Verif.Grid
open Verif Verif.Search Verif.Spec

theorem _root_.Verif.Spec.Supported.cases {W} (h : Supported W) :
    W = 1 ∨ W = 2 ∨ W = 4 ∨ W = 8 ∨ W = 16 ∨ W = 32 := by
  obtain ⟨k, hk, rfl⟩ := h
  have : k = 0 ∨ k = 1 ∨ k = 2 ∨ k = 3 ∨ k = 4 ∨ k = 5 := by omega
  rcases this with h | h | h | h | h | h <;> subst h <;> simp

theorem _root_.Verif.Spec.Supported.le {W} (h : Supported W) : W ≤ 32 := by
  rcases h.cases with h | h | h | h | h | h <;> omega

theorem _root_.Verif.Spec.Supported.pos {W} (h : Supported W) : 1 ≤ W := by
  rcases h.cases with h | h | h | h | h | h <;> omega

/-- Arithmetic form of `asIndex`. -/
theorem asIndex_eq {W} {c : Coord} (hW : Supported W) (hx : c.x < 2 * W) :
    c.asIndex W = c.y / 2 * (2 * W) + c.x / 2 * 2 + c.y % 2 := by
  obtain ⟨k, hk, rfl⟩ := hW
  have htz : trailingZeros (2 ^ k) = k := by
    have : k = 0 ∨ k = 1 ∨ k = 2 ∨ k = 3 ∨ k = 4 ∨ k = 5 := by omega
    rcases this with h | h | h | h | h | h <;> subst h <;> decide
  unfold Coord.asIndex
  rw [htz, Nat.and_one_is_mod]
  have h1 : (c.x >>> 1) <<< 1 ||| c.y % 2 = c.x / 2 * 2 + c.y % 2 := by
    rw [← Nat.shiftLeft_add_eq_or_of_lt (by omega)]
    simp [Nat.shiftRight_eq_div_pow, Nat.shiftLeft_eq]
  rw [Nat.or_assoc, h1, ← Nat.shiftLeft_add_eq_or_of_lt]
  · simp only [Nat.shiftRight_eq_div_pow, Nat.shiftLeft_eq, Nat.pow_succ]; 
    rw [Nat.mul_comm (2 ^ k) 2]; simp only [Nat.pow_zero, Nat.one_mul]; omega
  · rw [Nat.pow_succ]; omega

theorem asIndex_lt {W} {c : Coord} (hW : Supported W) (h : Valid W c) : c.asIndex W < 2 * W * W := by
  rw [asIndex_eq hW h.1]
  obtain ⟨h1, h2, h3⟩ := h
  have : c.y / 2 + 1 ≤ W := by omega
  have h4 : (c.y / 2 + 1) * (2 * W) ≤ W * (2 * W) := Nat.mul_le_mul_right _ this
  rw [Nat.add_mul] at h4
  have h5 : W * (2 * W) = 2 * W * W := by rw [Nat.mul_comm]
  omega

theorem sq_le {W} (hW : Supported W) : 2 * W * W ≤ 2048 := by
  rcases hW.cases with h | h | h | h | h | h <;> subst h <;> decide

theorem asIndex_lt_que {W} {c : Coord} (hW : Supported W) (h : Valid W c) : c.asIndex W < QUE_MAX := by
  have h1 := asIndex_lt hW h
  have h2 := sq_le hW
  have h3 : QUE_MAX = 2048 := rfl
  omega

theorem asIndex_inj {W} {c d : Coord} (hW : Supported W) (hc : Valid W c) (hd : Valid W d)
    (h : c.asIndex W = d.asIndex W) : c = d := by
  rw [asIndex_eq hW hc.1, asIndex_eq hW hd.1] at h
  obtain ⟨c1, c2, c3⟩ := hc
  obtain ⟨d1, d2, d3⟩ := hd
  have hc' : c.x / 2 * 2 + c.y % 2 < 2 * W := by omega
  have hd' : d.x / 2 * 2 + d.y % 2 < 2 * W := by omega
  have hp : 0 < 2 * W := by omega
  have e1 : c.y / 2 = d.y / 2 := by
    have a1 : (c.y / 2 * (2 * W) + (c.x / 2 * 2 + c.y % 2)) / (2 * W) = c.y / 2 := by
      rw [Nat.mul_comm, Nat.mul_add_div hp, Nat.div_eq_of_lt hc']; simp
    have a2 : (d.y / 2 * (2 * W) + (d.x / 2 * 2 + d.y % 2)) / (2 * W) = d.y / 2 := by
      rw [Nat.mul_comm, Nat.mul_add_div hp, Nat.div_eq_of_lt hd']; simp
    rw [← a1, ← a2]; congr 1; omega
  rw [e1] at h
  have e2 : c.x / 2 = d.x / 2 := by omega
  have e3 : c.y % 2 = d.y % 2 := by omega
  cases c; cases d; simp only [Coord.mk.injEq] at *; omega

/-- A list of distinct valid coordinates has at most `2 W²` elements. -/
theorem valid_length_le {W} (hW : Supported W) {l : List Coord} (hn : l.Nodup)
    (hv : ∀ c ∈ l, Valid W c) : l.length ≤ 2 * W * W := by
  have h1 : (l.map (Coord.asIndex W)).Nodup := by
    refine List.Nodup.map_on ?_ hn
    intro a ha b hb hab
    exact asIndex_inj hW (hv a ha) (hv b hb) hab
  have h2 : (l.map (Coord.asIndex W)).length ≤ (List.range (2 * W * W)).length := by
    apply (List.subperm_of_subset h1 ?_).length_le
    intro i hi
    obtain ⟨c, hc, rfl⟩ := List.mem_map.1 hi
    exact List.mem_range.2 (asIndex_lt hW (hv c hc))
  simpa using h2

/-! ## Relative coordinates -/

/-- Range check on plain integers. -/
def rel (W : Nat) (c : Coord) (dx dy : Int) : Option Coord :=
  if 0 ≤ (c.x : Int) + dx ∧ (c.x : Int) + dx < 2 * W ∧ 0 ≤ (c.y : Int) + dy ∧ (c.y : Int) + dy < 2 * W
  then some ⟨((c.x : Int) + dx).toNat, ((c.y : Int) + dy).toNat⟩ else none

theorem newRelative_eq {W} {c : Coord} (hW : W ≤ 32) (hx : c.x < 128) (hy : c.y < 128) (dx dy : Int) :
    c.newRelative W dx dy = rel W c dx dy := by
  have ax : asI8 c.x = c.x := by unfold asI8; rw [if_pos (by omega)]; congr 1; omega
  have ay : asI8 c.y = c.y := by unfold asI8; rw [if_pos (by omega)]; congr 1; omega
  unfold Coord.newRelative rel checkedAddI8
  rw [ax, ay]
  by_cases h1 : -128 ≤ (c.x : Int) + dx ∧ (c.x : Int) + dx ≤ 127
  · by_cases h2 : -128 ≤ (c.y : Int) + dy ∧ (c.y : Int) + dy ≤ 127
    · simp only [h1, h2, and_self, if_true]
      split <;> split
      · rename_i h3 h4; simp at h3; omega
      · rfl
      · rfl
      · rename_i h3 h4; simp at h3; omega
    · simp only [h1, h2]
      rw [eq_comm]
      simp only [and_self, if_true, if_false]
      exact if_neg (by omega)
  · simp only [h1]
    rw [eq_comm]
    simp only [if_false]
    exact if_neg (by omega)

theorem rel_some {W c dx dy d} : rel W c dx dy = some d ↔
    (d.x : Int) = c.x + dx ∧ (d.y : Int) = c.y + dy ∧ d.x < 2 * W ∧ d.y < 2 * W := by
  unfold rel
  cases d with | mk a b =>
  simp only
  split
  · simp only [Option.some.injEq, Coord.mk.injEq]; omega
  · simp only [reduceCtorEq, false_iff]; omega

/-- Pure version of `scanLine`. -/
def line (W : Nat) (free : Coord → Bool) (c : Coord) (dx dy : Int) : Nat → Nat → List Coord
  | 0, _ => []
  | f + 1, i =>
    match rel W c (dx * i) (dy * i) with
    | some d => if free d then d :: line W free c dx dy f (i + 1) else []
    | none => []

theorem mem_line {W free c dx dy} {f i d} : d ∈ line W free c dx dy f i ↔
    ∃ j, j < f ∧ rel W c (dx * (i + j : Nat)) (dy * (i + j : Nat)) = some d ∧
      ∀ k, k ≤ j → ∃ e, rel W c (dx * (i + k : Nat)) (dy * (i + k : Nat)) = some e ∧ free e = true := by
  induction f generalizing i with
  | zero => simp [line]
  | succ f ih =>
    unfold line
    rcases hr : rel W c (dx * i) (dy * i) with _ | e
    · simp only [List.not_mem_nil, false_iff]
      rintro ⟨j, hj, h1, h2⟩
      obtain ⟨e, he, -⟩ := h2 0 (by omega)
      simp [hr] at he
    · by_cases hf : free e = true
      · simp only [hf, if_true, List.mem_cons, ih]
        constructor
        · rintro (rfl | ⟨j, hj, h1, h2⟩)
          · refine ⟨0, by omega, by simpa using hr, ?_⟩
            intro k hk
            have : k = 0 := by omega
            subst this
            exact ⟨d, by simpa using hr, hf⟩
          · refine ⟨j + 1, by omega, ?_, ?_⟩
            · rw [← h1]; congr 2 <;> push_cast <;> omega
            · intro k hk
              cases k with
              | zero => exact ⟨e, by simpa using hr, hf⟩
              | succ k =>
                obtain ⟨e', h3, h4⟩ := h2 k (by omega)
                refine ⟨e', ?_, h4⟩
                rw [← h3]; congr 2 <;> push_cast <;> omega
        · rintro ⟨j, hj, h1, h2⟩
          cases j with
          | zero => left; simp [hr] at h1; exact h1.symm
          | succ j =>
            right
            refine ⟨j, by omega, ?_, ?_⟩
            · rw [← h1]; congr 2 <;> push_cast <;> omega
            · intro k hk
              obtain ⟨e', h3, h4⟩ := h2 (k + 1) (by omega)
              refine ⟨e', ?_, h4⟩
              rw [← h3]; congr 2 <;> push_cast <;> omega
      · simp only [hf, Bool.false_eq_true, if_false, List.not_mem_nil, false_iff]
        rintro ⟨j, hj, h1, h2⟩
        obtain ⟨e', he, hfe⟩ := h2 0 (by omega)
        simp [hr] at he; subst he; exact hf hfe

/-- If the relative coordinate at distance `m` is outside, the line is shorter than `m`. -/
theorem line_length_le {W free c dx dy} {f i m : Nat} (hi : i ≤ m)
    (hm : rel W c (dx * m) (dy * m) = none) : (line W free c dx dy f i).length ≤ m - i := by
  induction f generalizing i with
  | zero => simp [line]
  | succ f ih =>
    unfold line
    by_cases him : i = m
    · subst him; rw [hm]; simp
    · split
      · split
        · have := ih (i := i + 1) (by omega)
          simp only [List.length_cons]; omega
        · simp
      · simp

theorem scanLine_eq {W} {c : Coord} {free dx dy kind} (hW : W ≤ 32) (hx : c.x < 128) (hy : c.y < 128) :
    ∀ (f i : Nat) (acc : List (Coord × Kind)) (m : Nat), i ≤ m → m < i + f →
    rel W c (dx * m) (dy * m) = none → acc.length + (m - i) ≤ 6 * WIDTH →
    scanLine W c free false dx dy kind f i acc =
      .ok (acc ++ (line W free c dx dy f i).map (fun d => (d, kind)))
  | 0, i, acc, m, h1, h2, _, _ => by omega
  | f + 1, i, acc, m, h1, h2, hm, hl => by
    unfold scanLine line
    rw [newRelative_eq hW hx hy]
    rcases hr : rel W c (dx * i) (dy * i) with _ | d
    · simp
    · have him : i ≠ m := by rintro rfl; simp [hm] at hr
      by_cases hf : free d = true
      · simp only [hf, if_true, Bool.false_eq_true, if_false]
        have : pushCap (6 * WIDTH) acc (d, kind) = .ok (acc ++ [(d, kind)]) := by
          unfold pushCap; rw [if_pos (by omega)]
        rw [this]
        simp only [bind, Except.bind]
        rw [scanLine_eq hW hx hy f (i + 1) _ m (by omega) (by omega) hm (by simp; omega)]
        simp
      · simp [hf]

theorem scanLine_excluded {W c free dx dy kind f i acc} :
    scanLine W c free true dx dy kind (f + 1) i acc = .ok acc := by simp [scanLine]

end Verif.Grid
