import Verif.Proof.WallsInv
import Verif.Props.Termination
/-! # C03 - C09: the wall map -/
namespace Verif.Props
open Verif Verif.Search Verif.Spec Verif.Grid Verif.Walls Verif.WallsP

/-- A sequence of calls of `Walls::update`. -/
def updateAll (W : Nat) (w : Walls) : List (Coord × WallState) → R Walls
  | [] => .ok w
  | (c, st) :: l => do
    let w ← update W w c st
    updateAll W w l

/-- The last state given to `c` in a history. -/
def lastFor (c : Coord) (l : List (Coord × WallState)) : Option WallState :=
  (l.reverse.find? fun p => p.1 = c).map (·.2)

theorem lastFor_cons (c : Coord) (p : Coord × WallState) (l : List (Coord × WallState)) :
    lastFor c (p :: l) = match lastFor c l with
      | some st => some st
      | none => if p.1 = c then some p.2 else none := by
  unfold lastFor
  rw [List.reverse_cons, List.find?_append]
  cases List.find? (fun p => decide (p.1 = c)) l.reverse with
  | some q => simp
  | none => by_cases h : p.1 = c <;> simp [h]

/-- **C03.** After any history of updates, of any map, a wall has the last state written to it, or its
first state when nothing was written to it. -/
theorem C03_history {W : Nat} (hW : Supported W) (w : Walls) (l : List (Coord × WallState))
    (hl : ∀ p ∈ l, Valid W p.1) :
    ∃ w', updateAll W w l = .ok w' ∧ ∀ c, Valid W c → wallState W w' c =
      match lastFor c l with
      | some st => .ok st
      | none => wallState W w c := by
  induction l generalizing w with
  | nil => exact ⟨w, rfl, fun c _ => rfl⟩
  | cons p l ih =>
    obtain ⟨c0, st⟩ := p
    obtain ⟨w1, e1, f1⟩ := wallState_update hW (w := w) (hl (c0, st) (by simp)) st
    obtain ⟨w2, e2, f2⟩ := ih w1 (fun p hp => hl p (by simp [hp]))
    refine ⟨w2, ?_, fun c hc => ?_⟩
    · unfold updateAll; simp only [e1, bind, Except.bind, e2]
    · rw [f2 c hc, lastFor_cons, f1 c hc]
      cases lastFor c l with
      | some st => rfl
      | none =>
        by_cases h : c = c0
        · subst h; simp
        · simp [h, Ne.symm h]

example : ∃ w w', Walls.new 4 = .ok w ∧
    updateAll 4 w [(⟨2, 1⟩, .checked true), (⟨2, 1⟩, .checked false), (⟨3, 2⟩, .checked true)] = .ok w' ∧
    wallState 4 w' ⟨2, 1⟩ = .ok (.checked false) ∧ wallState 4 w' ⟨3, 2⟩ = .ok (.checked true) ∧
    wallState 4 w' ⟨7, 4⟩ = .ok (.checked true) ∧ wallState 4 w' ⟨5, 2⟩ = .ok .unchecked := by
  have hW : Supported 4 := ⟨2, by omega, rfl⟩
  obtain ⟨w, e, f⟩ := new_eq hW
  obtain ⟨w', e', f'⟩ := C03_history hW w
    [(⟨2, 1⟩, .checked true), (⟨2, 1⟩, .checked false), (⟨3, 2⟩, .checked true)] (by decide)
  refine ⟨w, w', e, e', ?_, ?_, ?_, ?_⟩
  · rw [f' _ (by decide)]; rfl
  · rw [f' _ (by decide)]; rfl
  · rw [f' _ (by decide)]; exact f _ (by decide)
  · rw [f' _ (by decide)]; exact f _ (by decide)

/-- **C04.** What a fresh map knows. -/
theorem C04_new {W : Nat} (hW : Supported W) (h2 : 2 ≤ W) :
    ∃ w, Walls.new W = .ok w ∧ ∀ c, Valid W c →
      (wallState W w c = .ok (.checked true) ↔ c.y = 2 * W - 1 ∨ c.x = 2 * W - 1 ∨ c = ⟨1, 0⟩) ∧
      (wallState W w c = .ok (.checked false) ↔ c = ⟨0, 1⟩) ∧
      (wallState W w c = .ok .unchecked ↔
        ¬ (c.y = 2 * W - 1 ∨ c.x = 2 * W - 1 ∨ c = ⟨1, 0⟩ ∨ c = ⟨0, 1⟩)) := by
  obtain ⟨w, e, f⟩ := new_eq hW
  refine ⟨w, e, fun c hc => ?_⟩
  rw [f c hc]
  by_cases h01 : c = ⟨0, 1⟩
  · subst h01
    rw [if_pos rfl]
    refine ⟨by simp; omega, by simp, by simp⟩
  · rw [if_neg h01]
    by_cases h10 : c = ⟨1, 0⟩
    · subst h10
      rw [if_pos rfl]
      refine ⟨by simp, by simp, by simp⟩
    · rw [if_neg h10]
      by_cases ho : c.x = 2 * W - 1 ∨ c.y = 2 * W - 1
      · rw [if_pos ho]
        refine ⟨by simp; tauto, by simp [h01], by simp; tauto⟩
      · rw [if_neg ho]
        refine ⟨by simp [h10]; tauto, by simp [h01], by simp [h01, h10]; tauto⟩

/-- The maps a program can get without `TryFrom<&[u8]>`. -/
inductive Reachable (W : Nat) : Walls → Prop
  | new {w} : Walls.new W = .ok w → Reachable W w
  | parsed {s w} : fromStr W s = .ok (.ok w) → Reachable W w
  | updated {w w' c st} : Reachable W w → Valid W c → update W w c st = .ok w' → Reachable W w'

theorem Reachable.sound {W : Nat} (hW : Supported W) {w : Walls} (h : Reachable W w) : Sound W w := by
  induction h with
  | new e => exact sound_new hW e
  | parsed e => exact sound_fromStr hW e
  | updated _ hc e ih => exact sound_update hW ih hc e

/-- **C05.** Reading a wall never panics on a map made by `new` or parsing and changed by updates. -/
theorem C05_readable {W : Nat} (hW : Supported W) {w : Walls} (h : Reachable W w) (c : Coord)
    (hc : Valid W c) : ∃ st, wallState W w c = .ok st := by
  rw [wallState_eq (asIndex_lt_que hW hc)]
  have := (h.sound hW).readable (c.asIndex W)
  revert this
  cases decode (slot w (c.asIndex W)) with
  | none => simp
  | some st => exact fun _ => ⟨st, rfl⟩

/-- **C05, bytes.** On a map made of 512 arbitrary bytes, reading a wall panics exactly when its two bits
are `10`, and this stays so under any history of updates of other walls, until the wall is updated. -/
theorem C05_bytes {W : Nat} (hW : Supported W) (bytes : List (BitVec 8)) (w : Walls)
    (h : tryFrom bytes = some w) (l : List (Coord × WallState)) (hl : ∀ p ∈ l, Valid W p.1)
    (c : Coord) (hc : Valid W c) :
    ∃ w', updateAll W w l = .ok w' ∧
      (wallState W w' c = .error .unreachable ↔
        (∀ p ∈ l, p.1 ≠ c) ∧
        ((bytes.getD (c.asIndex W / 4) 0#8).toNat / 4 ^ (c.asIndex W % 4)) % 4 = 2) := by
  obtain ⟨w', e, f⟩ := C03_history hW w l hl
  refine ⟨w', e, ?_⟩
  rw [f c hc]
  have hlast : lastFor c l = none ↔ ∀ p ∈ l, p.1 ≠ c := by
    unfold lastFor
    rw [Option.map_eq_none_iff, List.find?_eq_none]
    simp
  unfold tryFrom at h
  split at h
  · simp only [Option.some.injEq] at h
    cases hL : lastFor c l with
    | some st =>
      simp only [reduceCtorEq, false_iff, not_and]
      intro hh; rw [← hlast, hL] at hh; simp at hh
    | none =>
      rw [hL] at hlast
      have hall := hlast.1 rfl
      simp only [and_iff_right hall]
      rw [wallState_eq (asIndex_lt_que hW hc), ← h]
      have hs : slot (fun i => bytes.getD i 0#8) (c.asIndex W) =
        ((bytes.getD (c.asIndex W / 4) 0#8) >>> (2 * (c.asIndex W % 4))) &&& 3#8 := rfl
      rw [hs]
      generalize bytes.getD (c.asIndex W / 4) 0#8 = b
      have hk : c.asIndex W % 4 < 4 := Nat.mod_lt _ (by omega)
      generalize c.asIndex W % 4 = k at *
      have key : ∀ (v : Fin 256) (k : Fin 4),
          (decode ((BitVec.ofFin (w := 8) v >>> (2 * k.val)) &&& 3#8)).isNone =
            decide ((v.val / 4 ^ k.val) % 4 = 2) := by decide +kernel
      have := key b.toFin ⟨k, hk⟩
      simp only [show BitVec.ofFin b.toFin = b from rfl] at this
      have hbn : (b.toFin : Nat) = b.toNat := rfl
      rw [hbn] at this
      cases hd : decode (b >>> (2 * k) &&& 3#8) with
      | none => rw [hd] at this; simp only [Option.isNone_none] at this; simpa using this.symm
      | some st => rw [hd] at this; simp only [Option.isNone_some] at this; simpa using this.symm
  · simp at h

/-- A byte array that makes `wall_state` panic. -/
example : ∃ w, tryFrom (List.replicate 512 2#8) = some w ∧ wallState 4 w ⟨1, 0⟩ = .error .unreachable := by
  have ht : tryFrom (List.replicate 512 2#8) = some (fun i => (List.replicate 512 2#8).getD i 0#8) := by
    unfold tryFrom; rw [if_pos (by rw [List.length_replicate]; rfl)]
  refine ⟨_, ht, ?_⟩
  obtain ⟨w', e, f⟩ := C05_bytes (W := 4) ⟨2, by omega, rfl⟩ (List.replicate 512 2#8) _ ht [] (by simp)
    ⟨1, 0⟩ (by decide)
  cases e
  exact f.2 ⟨by simp, by decide +kernel⟩

/-- **C06.** Bytes and back. -/
theorem C06_bytes_roundtrip (w : Walls) :
    (asBytes w).length = 512 ∧ ∃ w', tryFrom (asBytes w) = some w' ∧ ∀ i < 512, w' i = w i := by
  have hl : (asBytes w).length = LEN := by simp [asBytes]
  refine ⟨hl, fun i => (asBytes w).getD i 0#8, by simp [tryFrom, hl], fun i hi => ?_⟩
  have : i < LEN := hi
  simp [asBytes, List.getD_eq_getElem?_getD, this]

/-- **C06.** `try_from` accepts exactly the slices of 512 bytes, and keeps them. -/
theorem C06_accepts (bytes : List (BitVec 8)) :
    (tryFrom bytes = none ↔ bytes.length ≠ 512) ∧ ∀ w, tryFrom bytes = some w → asBytes w = bytes := by
  have hL : LEN = 512 := rfl
  unfold tryFrom
  rw [hL]
  constructor
  · split <;> simp_all
  · intro w h
    split at h
    · next hl =>
      simp only [Option.some.injEq] at h
      subst h
      unfold asBytes
      rw [hL]
      apply List.ext_getElem
      · simp [hl]
      · intro i h1 h2; simp [List.getD_eq_getElem?_getD, h2]
    · simp at h

example : tryFrom (List.replicate 511 0#8) = none ∧ tryFrom (List.replicate 512 7#8) ≠ none := by
  refine ⟨(C06_accepts _).1.2 ?_, fun h => (C06_accepts _).1.1 h ?_⟩
  · rw [List.length_replicate]; decide
  · rw [List.length_replicate]

/-- What parsing means for the well formed lines of a text. -/
def ParsedAs (W : Nat) (L : List (List Char)) (w : Walls) : Prop :=
  ∀ c, Valid W c → wallState W w c =
    match L[lineOf W c]? with
    | some line => .ok (.checked (decide (field line (c.x / 2) = closedField (lineOf W c))))
    | none => .ok (if c = ⟨0, 1⟩ then .checked false else if c = ⟨1, 0⟩ then .checked true
        else if c.x = 2 * W - 1 ∨ c.y = 2 * W - 1 then .checked true else .unchecked)

/-- The description of the first malformed place of line `y`: kind of the error and byte range. -/
def FirstError (W y : Nat) (line : List Char) (e : ParseError) : Prop :=
  e.line = y ∧
  ((line.head? ≠ some (lead y) ∧ e.range = (0, 1) ∧ e.kind = .one (if y % 2 = 0 then "+" else "|")) ∨
   (line.head? = some (lead y) ∧ ∃ x < W, (∀ i < x, GoodField W y line i) ∧ ¬ GoodField W y line x ∧
      e.range = (4 * x + 1, 4 * x + 5) ∧
      e.kind = if y = 2 * W then .one "---+" else if y % 2 = 0 then .two "---+" "   +" else .two "   |" "    "))

/-- **C08.** Parsing any text never panics. Looking at its first `2 W + 1` lines: when all are well
formed the result is the map they draw (walls of missing lines as in a fresh map), otherwise the error
points to the first malformed place of the first malformed line. -/
theorem C08_parse {W : Nat} (hW : Supported W) (text : List Char) (L : List (List Char))
    (hL : SplitLines text L) :
    (∃ w, fromStr W text = .ok (.ok w) ∧
      (∀ y line, y ≤ 2 * W → L[y]? = some line → GoodLine W y line) ∧
      ParsedAs W L w) ∨
    (∃ e y line, fromStr W text = .ok (.error e) ∧ y ≤ 2 * W ∧ L[y]? = some line ∧
      (∀ y' line', y' < y → L[y']? = some line' → GoodLine W y' line') ∧
      ¬ GoodLine W y line ∧ FirstError W y line e) := by
  obtain ⟨w0, e0, f0⟩ := new_eq hW
  have hlen : 0 + (L.take (2 * W + 1)).length ≤ 2 * W + 1 := by rw [List.length_take]; omega
  have htake : ∀ (y : Nat) (line : List Char), (L.take (2 * W + 1))[y]? = some line ↔ y ≤ 2 * W ∧ L[y]? = some line := by
    intro y line
    rw [List.getElem?_take]
    by_cases hy : y < 2 * W + 1
    · rw [if_pos hy]; constructor
      · intro h; exact ⟨by omega, h⟩
      · exact fun h => h.2
    · rw [if_neg hy]; constructor
      · intro h; simp at h
      · intro h; omega
  unfold fromStr
  rw [e0, lines_split hL]
  simp only [bind, Except.bind]
  rcases lines_eq hW (L.take (2 * W + 1)) 0 w0 hlen with ⟨w, e, g, f⟩ | ⟨e, y, line, e1, h1, g1, b⟩
  · left
    refine ⟨w, e, fun y line hy hl => ?_, fun c hc => ?_⟩
    · have := g y line ((htake y line).2 ⟨hy, hl⟩); rwa [Nat.zero_add] at this
    · rw [f c hc]
      have hlt := lineOf_lt hc
      cases hl : L[lineOf W c]? with
      | none =>
        rw [if_neg, f0 c hc]
        have := List.getElem?_eq_none_iff.1 hl
        rw [List.length_take]; omega
      | some line =>
        have hl' := (htake _ line).2 ⟨by omega, hl⟩
        rw [if_pos]
        · rw [Nat.sub_zero, List.getD_eq_getElem?_getD, hl']; rfl
        · obtain ⟨h, -⟩ := List.getElem?_eq_some_iff.1 hl'
          omega
  · right
    have h2 := (htake y line).1 h1
    rw [Nat.zero_add] at b
    refine ⟨e, y, line, e1, h2.1, h2.2, fun y' line' hy hl => ?_, ?_, ?_⟩
    · have := g1 y' line' hy ((htake y' line').2 ⟨by omega, hl⟩); rwa [Nat.zero_add] at this
    · rintro ⟨q1, q2⟩
      rcases b.2 with ⟨b1, -⟩ | ⟨-, x, hx, -, b2, -⟩
      · exact b1 q1
      · exact b2 (q2 x hx)
    · refine ⟨b.1, ?_⟩
      rcases b.2 with ⟨b1, b2, b3⟩ | ⟨b1, x, hx, b2, b3, b4, b5⟩
      · exact Or.inl ⟨b1, b2, b3⟩
      · refine Or.inr ⟨b1, x, hx, b2, b3, b4, ?_⟩
        rw [b5]
        by_cases hy : y = 2 * W
        · rw [if_pos hy, if_pos hy, hy]; simp [closedS]
        · rw [if_neg hy, if_neg hy]
          unfold closedS openS
          split <;> rfl

/-- Every text has lines, so `C08_parse` applies to every text. -/
theorem C08_every_text (text : List Char) : ∃ L, SplitLines text L := exists_split text

example : SplitLines "+\r\n|é".toList ["+".toList, "|é".toList] ∧
    (match fromStr 1 "+---+\n|é".toList with
     | .ok (.error e) => decide (e = ⟨.two "   |" "    ", 1, (1, 5)⟩)
     | _ => false) = true ∧
    (match fromStr 1 "+---+\n|   |\n+---+ trailing\nignored".toList with
     | .ok (.ok w) => (wallState 1 w ⟨0, 1⟩).toOption == some (.checked true)
     | _ => false) = true :=
  ⟨.crlf (l := ['+']) (by decide) (.last (by decide) (by decide)), by decide +kernel, by decide +kernel⟩

/-- **C09.** A canonical drawing of any maze parses, to the map with exactly the walls drawn, and that map
is displayed as the same text. -/
theorem C09_canonical {W : Nat} (hW : Supported W) (f : Coord → Bool) :
    ∃ w, fromStr W (drawing W f) = .ok (.ok w) ∧
      (∀ c, Valid W c → wallState W w c = .ok (.checked (f c))) ∧
      display W w = .ok (drawing W f) := by
  have hget : ∀ y ≤ 2 * W, ((List.range (2 * W + 1)).map (drawLine W f))[y]? = some (drawLine W f y) := by
    intro y hy
    rw [List.getElem?_map, List.getElem?_range (by omega)]; rfl
  rcases C08_parse hW _ _ (drawing_split W f) with ⟨w, e, -, g⟩ | ⟨e, y, line, -, hy, hl, -, b, -⟩
  · have hst : ∀ c, Valid W c → wallState W w c = .ok (.checked (f c)) := by
      intro c hc
      have hlt := lineOf_lt hc
      rw [g c hc, hget _ (by omega)]
      simp only
      rw [drawLine_field (by have := hc.1; omega), wallAt_lineOf hc]
      cases hf : f c with
      | true => simp
      | false =>
        have h1 : lineOf W c ≠ 2 * W := by omega
        have h2 := (closed_ne_open (lineOf W c)).symm
        simp [h1, h2]
    refine ⟨w, e, hst, display_eq hW fun c hc => ⟨_, hst c hc, by simp⟩⟩
  · rw [hget y hy] at hl
    cases hl
    exact absurd (drawLine_good W f y) b

example : drawing 2 (fun c => c.x = 3 || c.y = 3 || c = ⟨1, 0⟩) =
    "+---+---+\n|       |\n+   +   +\n|   |   |\n+---+---+\n".toList := by decide +kernel

/-- **C07.** The text of any map parses to the map where exactly the walls that existed exist and all
others are known to be absent. -/
theorem C07_text_roundtrip {W : Nat} (hW : Supported W) {w : Walls} (h : Reachable W w) :
    ∃ text w', display W w = .ok text ∧ fromStr W text = .ok (.ok w') ∧
      ∀ c, Valid W c →
        (wallState W w c = .ok (.checked true) → wallState W w' c = .ok (.checked true)) ∧
        (wallState W w c ≠ .ok (.checked true) → wallState W w' c = .ok (.checked false)) := by
  let f : Coord → Bool := fun c => decide (wallState W w c = .ok (.checked true))
  obtain ⟨w', e, g, -⟩ := C09_canonical hW f
  refine ⟨drawing W f, w', display_eq hW fun c hc => ?_, e, fun c hc => ?_⟩
  · obtain ⟨st, hst⟩ := C05_readable hW h c hc
    exact ⟨st, hst, by simp [f, hst]⟩
  · rw [g c hc]
    refine ⟨fun hh => by simp [f, hh], fun hh => by simp [f, hh]⟩

/-- **C07.** A fully explored map survives, byte for byte. -/
theorem C07_explored_exact {W : Nat} (hW : Supported W) {w : Walls} (h : Reachable W w)
    (hall : ∀ c, Valid W c → wallState W w c ≠ .ok .unchecked) :
    ∃ text w', display W w = .ok text ∧ fromStr W text = .ok (.ok w') ∧ asBytes w' = asBytes w := by
  obtain ⟨text, w', e1, e2, g⟩ := C07_text_roundtrip hW h
  refine ⟨text, w', e1, e2, ?_⟩
  have : ∀ i, w' i = w i := sound_ext hW (Reachable.sound hW (.parsed e2)) (h.sound hW) fun d hd => by
    obtain ⟨st, hst⟩ := C05_readable hW h d hd
    obtain ⟨g1, g2⟩ := g d hd
    cases st with
    | unchecked => exact absurd hst (hall d hd)
    | checked b => cases b with
      | true => rw [g1 hst, hst]
      | false => rw [g2 (by rw [hst]; simp), hst]
  rw [show w' = w from funext this]

/-- A fully explored map exists (the hypotheses of `C07_explored_exact` can be met). -/
example : ∃ w, Reachable 8 w ∧ ∀ c, Valid 8 c → wallState 8 w c ≠ .ok .unchecked := by
  obtain ⟨w, e, g, -⟩ := C09_canonical (W := 8) ⟨3, by omega, rfl⟩ (fun c => c.x % 3 = 0)
  exact ⟨w, .parsed e, fun c hc => by rw [g c hc]; simp⟩

/-! ## The map as oracle of the planner -/

/-- `|c| walls.wall_state(c)`, for the maps on which it cannot panic. -/
def oracle (W : Nat) (w : Walls) (c : Coord) : WallState :=
  match wallState W w c with
  | .ok st => st
  | .error _ => .unchecked

/-- A wall map answers for every point the planner asks about, also for the centres of cells, which share
the slot of a wall; so it meets the assumption on the oracle made by the termination theorem C24. -/
theorem C24_walls_slotConsistent {W : Nat} (hW : Supported W) {w : Walls} (h : Reachable W w) :
    SlotConsistent W (oracle W w) ∧
    ∀ x, Looked W x → wallState W w x = .ok (oracle W w x) := by
  have hS := h.sound hW
  have hb : ∀ x, Looked W x → x.x < 2 * W ∧ x.y < 2 * W ∧ ¬ (x.x % 2 = 1 ∧ x.y % 2 = 1) := by
    rintro x (⟨h1, h2, h3⟩ | ⟨h1, h2, h3, h4⟩) <;> omega
  constructor
  · intro x c hx hc hs
    obtain ⟨b1, b2, b3⟩ := hb x hx
    have := (asIndex_slot hW b1 b2 b3 hc).2 hs
    unfold oracle wallState
    rw [this]
  · intro x hx
    obtain ⟨b1, b2, b3⟩ := hb x hx
    unfold oracle
    rw [wallState_eq (asIndex_lt' hW b1 b2)]
    have := hS.readable (x.asIndex W)
    revert this
    cases decode (slot w (x.asIndex W)) with
    | none => simp
    | some st => simp

end Verif.Props
