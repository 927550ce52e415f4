import Verif.Proof.WallsText
/-! # Lines of a text; drawing -/
namespace Verif.WallsP
open Verif Verif.Search Verif.Spec Verif.Grid Verif.Walls

theorem linesAux_of_notin : ∀ (l acc s : List Char), '\n' ∉ l →
    linesAux acc (l ++ s) = linesAux (l.reverse ++ acc) s
  | [], _, _, _ => rfl
  | c :: l, acc, s, h => by
    have h1 : c ≠ '\n' := fun he => h (by simp [he])
    rw [List.cons_append, linesAux, if_neg h1, linesAux_of_notin l (c :: acc) s (fun hh => h (by simp [hh]))]
    simp

theorem lines_split {s : List Char} {L : List (List Char)} (h : SplitLines s L) : lines s = L := by
  induction h with
  | nil => rfl
  | @last l h1 h2 =>
    have := linesAux_of_notin l [] [] h2
    rw [List.append_nil] at this
    unfold lines; rw [this, linesAux, if_neg (by simpa using h1)]; simp
  | @lf l rest L h1 h2 _ ih =>
    unfold lines at *
    rw [linesAux_of_notin l [] _ h1, linesAux, if_pos rfl, ih]
    simp [stripCr, h2]
  | @crlf l rest L h1 _ ih =>
    unfold lines at *
    have h3 : '\n' ∉ l ++ ['\r'] := by simp [h1]
    have := linesAux_of_notin (l ++ ['\r']) [] ('\n' :: rest) h3
    rw [List.append_assoc] at this
    simp only [List.singleton_append] at this
    rw [this, linesAux, if_pos rfl, ih]
    simp [stripCr]

theorem first_nl : ∀ (s : List Char), '\n' ∈ s → ∃ l rest, s = l ++ '\n' :: rest ∧ '\n' ∉ l
  | [], h => by simp at h
  | c :: s, h => by
    by_cases hc : c = '\n'
    · exact ⟨[], s, by simp [hc], by simp⟩
    · obtain ⟨l, rest, e, hl⟩ := first_nl s (by simpa [Ne.symm hc] using h)
      exact ⟨c :: l, rest, by simp [e], by simp [hl, Ne.symm hc]⟩

/-- Every text splits. -/
theorem exists_split (s : List Char) : ∃ L, SplitLines s L := by
  induction h : s.length using Nat.strong_induction_on generalizing s with
  | _ n ih =>
  by_cases hn : '\n' ∈ s
  · obtain ⟨l, rest, rfl, hl⟩ := first_nl s hn
    obtain ⟨L, hL⟩ := ih rest.length (by rw [← h]; simp; omega) rest rfl
    by_cases hr : l.getLast? = some '\r'
    · obtain ⟨l', rfl⟩ := List.getLast?_eq_some_iff.1 hr
      refine ⟨l' :: L, ?_⟩
      rw [List.append_assoc]
      exact .crlf (fun hh => hl (by simp [hh])) hL
    · exact ⟨l :: L, .lf hl hr hL⟩
  · by_cases h0 : s = []
    · subst h0; exact ⟨[], .nil⟩
    · exact ⟨[s], .last h0 hn⟩

theorem closed_no_nl (y : Nat) : '\n' ∉ closedField y ∧ '\r' ∉ closedField y := by
  unfold closedField; split <;> decide

theorem open_no_nl (y : Nat) : '\n' ∉ openField y ∧ '\r' ∉ openField y := by
  unfold openField; split <;> decide

theorem lead_no_nl (y : Nat) : lead y ≠ '\n' ∧ lead y ≠ '\r' := by
  unfold lead; split <;> decide

theorem drawLine_no_nl (W : Nat) (f : Coord → Bool) (y : Nat) :
    '\n' ∉ drawLine W f y ∧ '\r' ∉ drawLine W f y := by
  have := closed_no_nl y
  have := open_no_nl y
  have := lead_no_nl y
  unfold drawLine
  constructor
  · simp only [List.mem_cons, List.mem_flatMap, not_or, not_exists, not_and]
    exact ⟨Ne.symm (by tauto), fun x _ => by split <;> tauto⟩
  · simp only [List.mem_cons, List.mem_flatMap, not_or, not_exists, not_and]
    exact ⟨Ne.symm (by tauto), fun x _ => by split <;> tauto⟩

theorem splitLines_flatMap (f : Nat → List Char) : ∀ (l : List Nat),
    (∀ y ∈ l, '\n' ∉ f y ∧ '\r' ∉ f y) → SplitLines (l.flatMap fun y => f y ++ ['\n']) (l.map f)
  | [], _ => .nil
  | y :: l, h => by
    have h1 := h y (by simp)
    have ih := splitLines_flatMap f l (fun z hz => h z (by simp [hz]))
    simp only [List.flatMap_cons, List.map_cons, List.append_assoc, List.singleton_append]
    exact .lf h1.1 (fun hh => h1.2 (List.mem_of_getLast? hh)) ih

theorem drawing_split (W : Nat) (f : Coord → Bool) :
    SplitLines (drawing W f) ((List.range (2 * W + 1)).map (drawLine W f)) :=
  splitLines_flatMap _ _ fun _ _ => drawLine_no_nl W f _

theorem flatMap_field (g : Nat → List Char) (hg : ∀ x, (g x).length = 4) : ∀ (n a x : Nat), x < n →
    (((List.range' a n).flatMap g).drop (4 * x)).take 4 = g (a + x)
  | 0, _, _, h => by omega
  | n + 1, a, x, h => by
    rw [List.range'_succ, List.flatMap_cons]
    rcases x with _ | x
    · rw [Nat.mul_zero, List.drop_zero, List.take_append_of_le_length (by rw [hg]), Nat.add_zero,
        List.take_of_length_le (by rw [hg])]
    · rw [show 4 * (x + 1) = 4 + 4 * x by omega, ← List.drop_drop]
      rw [List.drop_append_of_le_length (by rw [hg]), List.drop_of_length_le (l := g a) (by rw [hg]), List.nil_append,
        flatMap_field g hg n (a + 1) x (by omega)]
      congr 1; omega

theorem drawLine_field {W : Nat} {f : Coord → Bool} {y x : Nat} (hx : x < W) :
    field (drawLine W f y) x = if y = 2 * W ∨ f (wallAt W y x) = true then closedField y else openField y := by
  unfold field drawLine
  rw [List.drop_succ_cons, List.range_eq_range']
  have := flatMap_field (fun x => if y = 2 * W ∨ f (wallAt W y x) = true then closedField y else openField y)
    (fun x => by split; exact (closed_ascii y).2; exact (open_ascii y).2) W 0 x hx
  rw [this, Nat.zero_add]

theorem drawLine_good (W : Nat) (f : Coord → Bool) (y : Nat) : GoodLine W y (drawLine W f y) := by
  refine ⟨rfl, fun x hx => ?_⟩
  unfold GoodField
  rw [drawLine_field hx]
  by_cases h : y = 2 * W
  · left; rw [if_pos (Or.inl h)]
  · by_cases hf : f (wallAt W y x) = true
    · left; rw [if_pos (Or.inr hf)]
    · right; exact ⟨h, by rw [if_neg (by tauto)]⟩

/-! ## Display -/

theorem displayExists_eq {W : Nat} (hW : Supported W) {w : Walls} {f : Coord → Bool} {c : Coord}
    (hc : Valid W c) (h : wallState W w c = .ok (.checked true) ∧ f c = true ∨
      ∃ st, wallState W w c = .ok st ∧ st ≠ .checked true ∧ f c = false) :
    displayExists W w c.x c.y = .ok (f c) := by
  have := hW.le
  have hn : Coord.new W c.x c.y = some c :=
    (Props.C01_valid W hW c.x c.y (by have := hc.1; omega) (by have := hc.2.1; omega) c).2 ⟨hc, rfl, rfl⟩
  unfold displayExists
  rw [hn]
  rcases h with ⟨h1, h2⟩ | ⟨st, h1, h2, h3⟩
  · simp [unwrap, bind, Except.bind, h1, h2, pure, Except.pure]
  · simp [unwrap, bind, Except.bind, h1, h2, h3, pure, Except.pure]

/-- `f` tells which walls of `w` exist. -/
def Shows (W : Nat) (w : Walls) (f : Coord → Bool) : Prop :=
  ∀ c, Valid W c → ∃ st, wallState W w c = .ok st ∧ (f c = true ↔ st = .checked true)

theorem Shows.exists {W : Nat} (hW : Supported W) {w : Walls} {f : Coord → Bool} (h : Shows W w f)
    {c : Coord} (hc : Valid W c) : displayExists W w c.x c.y = .ok (f c) := by
  obtain ⟨st, h1, h2⟩ := h c hc
  apply displayExists_eq hW hc
  cases hf : f c with
  | true => rw [hf] at h2; left; rw [h1, h2.1 rfl]; exact ⟨rfl, rfl⟩
  | false => rw [hf] at h2; right; exact ⟨st, h1, fun h => by simpa using h2.2 h, rfl⟩

/-- A chain of `+xyz` pieces closed by `+` is `+` followed by `xyz+` pieces. -/
theorem rotate (g : Nat → Bool) : ∀ (n a : Nat),
    ((List.range' a n).flatMap fun x => if g x = true then "+---".toList else "+   ".toList) ++ ['+'] =
    '+' :: (List.range' a n).flatMap fun x => if g x = true then ['-','-','-','+'] else [' ',' ',' ','+']
  | 0, _ => rfl
  | n + 1, a => by
    rw [List.range'_succ, List.flatMap_cons, List.flatMap_cons, List.append_assoc, rotate g n (a + 1)]
    cases g a <;> simp

theorem displayTops_eq {W : Nat} (hW : Supported W) {w : Walls} {f : Coord → Bool} (h : Shows W w f)
    {y : Nat} (hy : y < W) : ∀ (n x : Nat), x + n = W → displayTops W w y n x =
      .ok ((List.range' x n).flatMap fun x => if f ⟨2 * x, 2 * y + 1⟩ = true then "+---".toList else "+   ".toList)
  | 0, _, _ => rfl
  | n + 1, x, hx => by
    have hc : Valid W ⟨2 * x, 2 * y + 1⟩ := ⟨by simp; omega, by simp; omega, by simp⟩
    have he := h.exists hW hc
    simp only at he
    unfold displayTops
    rw [shl1, shl1_or1, he]
    simp only [bind, Except.bind, displayTops_eq hW h hy n (x + 1) (by omega), pure, Except.pure]
    rw [List.range'_succ, List.flatMap_cons]
    cases f ⟨2 * x, 2 * y + 1⟩ <;> rfl

theorem displayRights_eq {W : Nat} (hW : Supported W) {w : Walls} {f : Coord → Bool} (h : Shows W w f)
    {y : Nat} (hy : y < W) : ∀ (n x : Nat), x + n = W → displayRights W w y n x =
      .ok ((List.range' x n).flatMap fun x => if f ⟨2 * x + 1, 2 * y⟩ = true then [' ',' ',' ','|'] else [' ',' ',' ',' '])
  | 0, _, _ => rfl
  | n + 1, x, hx => by
    have hc : Valid W ⟨2 * x + 1, 2 * y⟩ := ⟨by simp; omega, by simp; omega, by simp; try omega⟩
    have he := h.exists hW hc
    simp only at he
    unfold displayRights
    rw [shl1_or1, shl1, he]
    simp only [bind, Except.bind, displayRights_eq hW h hy n (x + 1) (by omega), pure, Except.pure]
    rw [List.range'_succ, List.flatMap_cons]
    cases f ⟨2 * x + 1, 2 * y⟩ <;> rfl

theorem drawLine_top {W : Nat} {f : Coord → Bool} {y : Nat} (hy : y < W) :
    ((List.range' 0 W).flatMap fun x => if f ⟨2 * x, 2 * y + 1⟩ = true then "+---".toList else "+   ".toList) ++ ['+'] =
      drawLine W f (2 * (W - 1 - y)) := by
  rw [rotate]
  unfold drawLine
  have e1 : 2 * (W - 1 - y) % 2 = 0 := by omega
  have e2 : W - 1 - 2 * (W - 1 - y) / 2 = y := by omega
  have e3 : 2 * (W - 1 - y) ≠ 2 * W := by omega
  simp only [lead, closedField, openField, wallAt, e1, e2, e3, if_true, false_or, List.range_eq_range']

theorem drawLine_right {W : Nat} {f : Coord → Bool} {y : Nat} (hy : y < W) :
    '|' :: ((List.range' 0 W).flatMap fun x => if f ⟨2 * x + 1, 2 * y⟩ = true then [' ',' ',' ','|'] else [' ',' ',' ',' ']) =
      drawLine W f (2 * (W - 1 - y) + 1) := by
  unfold drawLine
  have e1 : ¬ (2 * (W - 1 - y) + 1) % 2 = 0 := by omega
  have e2 : W - 1 - (2 * (W - 1 - y) + 1) / 2 = y := by omega
  have e3 : 2 * (W - 1 - y) + 1 ≠ 2 * W := by omega
  simp only [lead, closedField, openField, wallAt, e1, e2, e3, if_false, false_or, List.range_eq_range']

theorem drawLine_bottom (W : Nat) (f : Coord → Bool) :
    (List.replicate W "+---".toList).flatten ++ ['+'] = drawLine W f (2 * W) := by
  have h := rotate (fun _ => true) W 0
  simp only [if_true] at h
  have e1 : 2 * W % 2 = 0 := by omega
  unfold drawLine
  simp only [lead, closedField, e1, if_true, true_or, List.range_eq_range']
  rw [← h]
  congr 1
  generalize "+---".toList = l
  have : ∀ n a, (List.replicate n l).flatten = (List.range' a n).flatMap fun _ => l := by
    intro n
    induction n with
    | zero => intro a; rfl
    | succ n ih => intro a; rw [List.replicate_succ, List.range'_succ, List.flatMap_cons, List.flatten_cons, ih (a + 1)]
  exact this W 0

theorem displayRows_eq {W : Nat} (hW : Supported W) {w : Walls} {f : Coord → Bool} (h : Shows W w f) :
    ∀ n, n ≤ W → displayRows W w n =
      .ok ((List.range' (2 * (W - n)) (2 * n)).flatMap fun y => drawLine W f y ++ ['\n'])
  | 0, _ => rfl
  | y + 1, hy => by
    unfold displayRows
    rw [displayTops_eq hW h (by omega) W 0 (by omega), displayRights_eq hW h (by omega) W 0 (by omega),
      displayRows_eq hW h y (by omega)]
    simp only [bind, Except.bind, pure, Except.pure]
    have t := drawLine_top (f := f) (W := W) (y := y) (by omega)
    have r := drawLine_right (f := f) (W := W) (y := y) (by omega)
    rw [show 2 * (y + 1) = (2 * y + 1) + 1 by omega, List.range'_succ, List.range'_succ, List.flatMap_cons,
      List.flatMap_cons, show W - (y + 1) = W - 1 - y by omega, ← t, ← r,
      show 2 * (W - 1 - y) + 1 + 1 = 2 * (W - y) by omega]
    congr 1
    simp [List.append_assoc]

theorem display_eq {W : Nat} (hW : Supported W) {w : Walls} {f : Coord → Bool} (h : Shows W w f) :
    display W w = .ok (drawing W f) := by
  unfold display
  rw [displayRows_eq hW h W (Nat.le_refl _)]
  simp only [bind, Except.bind, pure, Except.pure]
  unfold drawing
  rw [List.range_succ, List.flatMap_append, ← List.append_nil (_ ++ _)]
  simp only [List.flatMap_cons, List.flatMap_nil, List.append_nil, Nat.sub_self, Nat.mul_zero]
  rw [← drawLine_bottom, List.range_eq_range']
  congr 1
  simp

end Verif.WallsP
