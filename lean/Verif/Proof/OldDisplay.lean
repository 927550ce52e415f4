import Verif.Proof.OldManager
/-!
# The text shown for the former wall memory
-/
namespace Verif.Proof.OldM
open Verif Verif.Spec Verif.Old Verif.Old.Manager

variable {W : Nat} {m : Manager} {show_ : F → List Char}

theorem shown_eq (hW : Supported W) {x y : Nat} {top : Bool} (hx : x < W) (hy : y < W) :
    shown show_ W m x y top = .ok (show_ (val W m ⟨x, y, top⟩)) := by
  unfold shown Wall.new
  rw [if_pos (by omega)]
  show (do let p ← arrGet WALL_MAX m.walls (Wall.index W ⟨x, y, top⟩); return show_ p) = _
  unfold arrGet
  rw [if_pos (index_max hW (show InMaze W ⟨x, y, top⟩ from ⟨hx, hy⟩))]
  rfl

/-- A top wall as shown. -/
def topCell (show_ : F → List Char) (W : Nat) (m : Manager) (y x : Nat) : List Char := show_ (val W m ⟨x, y, true⟩) ++ "--+--".toList

/-- A right wall as shown. -/
def rightCell (show_ : F → List Char) (W : Nat) (m : Manager) (y x : Nat) : List Char :=
  "    ".toList ++ show_ (val W m ⟨x, y, false⟩) ++ " ".toList

theorem showTops_eq (hW : Supported W) {y : Nat} (hy : y < W) : ∀ (n x : Nat), x + n ≤ W →
    showTops show_ W m y n x = .ok ((List.range' x n).flatMap (topCell show_ W m y)) := by
  intro n
  induction n with
  | zero => intro x _; rfl
  | succ n ih =>
    intro x h
    unfold showTops
    rw [shown_eq hW (by omega) hy, ih (x + 1) (by omega), List.range'_succ, List.flatMap_cons]
    rfl

theorem showRights_eq (hW : Supported W) {y : Nat} (hy : y < W) : ∀ (n x : Nat), x + n ≤ W →
    showRights show_ W m y n x = .ok ((List.range' x n).flatMap (rightCell show_ W m y)) := by
  intro n
  induction n with
  | zero => intro x _; rfl
  | succ n ih =>
    intro x h
    unfold showRights
    rw [shown_eq hW (by omega) hy, ih (x + 1) (by omega), List.range'_succ, List.flatMap_cons]
    rfl

/-- The line of the top walls of a row. -/
def topLine (show_ : F → List Char) (W : Nat) (m : Manager) (y : Nat) : List Char :=
  " +--".toList ++ (List.range' 0 (W - 1)).flatMap (topCell show_ W m y) ++ show_ (val W m ⟨W - 1, y, true⟩) ++ "--+".toList

/-- The line of the right walls of a row. -/
def rightLine (show_ : F → List Char) (W : Nat) (m : Manager) (y : Nat) : List Char :=
  "1.0 ".toList ++ (List.range' 0 W).flatMap (rightCell show_ W m y)

/-- The lines in between. -/
def fillLine (W : Nat) : List Char := " |  ".toList ++ times W "     |  "

/-- The last line. -/
def lowLine (W : Nat) : List Char := " +--".toList ++ times (W - 1) "1.0--+--" ++ "1.0--+".toList

/-- The lines of the rows. -/
def rowLines (show_ : F → List Char) (W : Nat) (m : Manager) : Nat → List (List Char)
  | 0 => []
  | n + 1 => topLine show_ W m n :: fillLine W :: rightLine show_ W m n :: fillLine W :: rowLines show_ W m n

/-- Lines with their ends. -/
def ended (L : List (List Char)) : List Char := L.flatMap fun l => l ++ ['\n']

theorem showRows_eq (hW : Supported W) : ∀ n ≤ W, showRows show_ W m n = .ok (ended (rowLines show_ W m n)) := by
  have hp := hW.pos
  intro n
  induction n with
  | zero => intro _; rfl
  | succ n ih =>
    intro h
    unfold showRows
    rw [showTops_eq hW (by omega) _ _ (by omega), shown_eq hW (by omega) (by omega), showRights_eq hW (by omega) _ _ (by omega), ih (by omega)]
    show (Except.ok _ : R (List Char)) = .ok _
    congr 1
    rw [rowLines.eq_2]
    unfold ended topLine rightLine fillLine
    simp

theorem display_eq (hW : Supported W) : display show_ W m = .ok (ended ([] :: (rowLines show_ W m W ++ [lowLine W]))) := by
  unfold display
  rw [showRows_eq hW W (Nat.le_refl _)]
  show (Except.ok _ : R (List Char)) = .ok _
  congr 1
  unfold ended lowLine
  simp

theorem ended_split : ∀ (L : List (List Char)), (∀ l ∈ L, '\n' ∉ l ∧ '\r' ∉ l) → SplitLines (ended L) L
  | [], _ => .nil
  | l :: L, h => by
    have h1 := h l (by simp)
    have ih := ended_split L fun z hz => h z (by simp [hz])
    unfold ended
    rw [List.flatMap_cons, List.append_assoc, List.singleton_append]
    exact .lf h1.1 (fun hh => h1.2 (List.mem_of_getLast? hh)) ih

/-- The text has no line ends. -/
def Plain (l : List Char) : Prop := '\n' ∉ l ∧ '\r' ∉ l

theorem Plain.append {a b : List Char} (ha : Plain a) (hb : Plain b) : Plain (a ++ b) := by
  unfold Plain at *
  simp only [List.mem_append]
  tauto

theorem plain_flatMap {g : Nat → List Char} {l : List Nat} (h : ∀ x, Plain (g x)) : Plain (l.flatMap g) := by
  unfold Plain at *
  simp only [List.mem_flatMap, not_exists, not_and]
  exact ⟨fun x _ => (h x).1, fun x _ => (h x).2⟩

theorem plain_times {n : Nat} {s : String} (h : Plain s.toList) : Plain (times n s) := by
  unfold times
  induction n with
  | zero => exact ⟨by simp, by simp⟩
  | succ n ih =>
    rw [List.replicate_succ, List.flatten_cons]
    exact h.append ih

theorem rowLines_plain (hs : ∀ p, Plain (show_ p)) : ∀ n, ∀ l ∈ rowLines show_ W m n, Plain l := by
  have hd : ∀ s ∈ ["--+--", "    ", " ", " +--", "--+", "1.0 ", " |  ", "     |  "], Plain s.toList := by
    unfold Plain
    decide
  have hf : Plain (fillLine W) := (hd " |  " (by decide)).append (plain_times (hd "     |  " (by decide)))
  intro n
  induction n with
  | zero => intro l h; cases h
  | succ n ih =>
    intro l h
    simp only [rowLines, List.mem_cons] at h
    rcases h with rfl | rfl | rfl | rfl | h
    · exact (((hd " +--" (by decide)).append (plain_flatMap fun x => (hs _).append (hd "--+--" (by decide)))).append (hs _)).append (hd "--+" (by decide))
    · exact hf
    · exact (hd "1.0 " (by decide)).append (plain_flatMap fun x => ((hd "    " (by decide)).append (hs _)).append (hd " " (by decide)))
    · exact hf
    · exact ih l h

theorem display_split (hs : ∀ p, Plain (show_ p)) : SplitLines (ended ([] :: (rowLines show_ W m W ++ [lowLine W]))) ([] :: (rowLines show_ W m W ++ [lowLine W])) := by
  apply ended_split
  intro l hl
  rcases List.mem_cons.mp hl with rfl | hl
  · simp
  rcases List.mem_append.mp hl with hl | hl
  · exact rowLines_plain hs _ l hl
  · rw [List.mem_singleton.mp hl]
    have hd : ∀ s ∈ [" +--", "1.0--+--", "1.0--+"], Plain s.toList := by
      unfold Plain
      decide
    exact ((hd " +--" (by decide)).append (plain_times (hd "1.0--+--" (by decide)))).append (hd "1.0--+" (by decide))

theorem rowLines_length : ∀ n, (rowLines show_ W m n).length = 4 * n
  | 0 => rfl
  | n + 1 => by
    unfold rowLines
    simp only [List.length_cons, rowLines_length n]
    omega

theorem rowLines_get : ∀ (n y : Nat), y < n → (rowLines show_ W m n)[4 * (n - 1 - y)]? = some (topLine show_ W m y) ∧
    (rowLines show_ W m n)[4 * (n - 1 - y) + 2]? = some (rightLine show_ W m y)
  | 0, _, h => by omega
  | n + 1, y, h => by
    unfold rowLines
    by_cases he : y = n
    · subst he
      rw [show y + 1 - 1 - y = 0 by omega]
      exact ⟨rfl, rfl⟩
    · have ih := rowLines_get n y (by omega)
      rw [show 4 * (n + 1 - 1 - y) = 4 * (n - 1 - y) + 4 by omega]
      exact ⟨ih.1, ih.2⟩

theorem flat_length {g : Nat → List Char} (hg : ∀ x, (g x).length = 8) (l : List Nat) : (l.flatMap g).length = 8 * l.length := by
  induction l with
  | nil => rfl
  | cons a l ih =>
    rw [List.flatMap_cons, List.length_append, hg, ih, List.length_cons]
    omega

theorem flat_at {g : Nat → List Char} (hg : ∀ x, (g x).length = 8) {n x : Nat} (hx : x < n) : ∃ pre post, (List.range' 0 n).flatMap g = pre ++ g x ++ post ∧ pre.length = 8 * x := by
  refine ⟨(List.range' 0 x).flatMap g, (List.range' (x + 1) (n - x - 1)).flatMap g, ?_, by rw [flat_length hg, List.length_range']⟩
  rw [show (List.range' 0 n) = List.range' 0 x ++ x :: List.range' (x + 1) (n - x - 1) by
    conv_lhs => rw [show n = x + ((n - x - 1) + 1) by omega]
    rw [← List.range'_append_1, Nat.zero_add, List.range'_succ]]
  rw [List.flatMap_append, List.flatMap_cons]
  simp

theorem topLine_at (h3 : ∀ p, (show_ p).length = 3) {x y : Nat} (hx : x < W) :
    ∃ pre post, topLine show_ W m y = pre ++ show_ (val W m ⟨x, y, true⟩) ++ post ∧ pre.length = 4 + 8 * x := by
  have hg : ∀ x, (topCell show_ W m y x).length = 8 := fun x => by unfold topCell; rw [List.length_append, h3]; rfl
  unfold topLine
  by_cases he : x = W - 1
  · subst he
    exact ⟨" +--".toList ++ (List.range' 0 (W - 1)).flatMap (topCell show_ W m y), "--+".toList, rfl, by
      rw [List.length_append, flat_length hg, List.length_range']; rfl⟩
  · obtain ⟨pre, post, h1, h2⟩ := flat_at hg (show x < W - 1 by omega)
    refine ⟨" +--".toList ++ pre, "--+--".toList ++ post ++ show_ (val W m ⟨W - 1, y, true⟩) ++ "--+".toList, ?_, by rw [List.length_append, h2]; rfl⟩
    rw [h1]
    unfold topCell
    simp only [List.append_assoc]

theorem rightLine_at (h3 : ∀ p, (show_ p).length = 3) {x y : Nat} (hx : x < W) :
    ∃ pre post, rightLine show_ W m y = pre ++ show_ (val W m ⟨x, y, false⟩) ++ post ∧ pre.length = 8 + 8 * x := by
  have hg : ∀ x, (rightCell show_ W m y x).length = 8 := fun x => by unfold rightCell; rw [List.length_append, List.length_append, h3]; rfl
  obtain ⟨pre, post, h1, h2⟩ := flat_at hg hx
  unfold rightLine
  refine ⟨"1.0 ".toList ++ pre ++ "    ".toList, " ".toList ++ post, ?_, ?_⟩
  · rw [h1]
    unfold rightCell
    simp only [List.append_assoc]
  · rw [List.length_append, List.length_append, h2]
    show 4 + 8 * x + 4 = _
    omega

end Verif.Proof.OldM
