import Verif.Proof.WallsDraw
/-! # Invariants of the byte array -/
namespace Verif.WallsP
open Verif Verif.Search Verif.Spec Verif.Grid Verif.Walls

/-- Every slot holds a state; the slots that no wall uses are zero. -/
structure Sound (W : Nat) (w : Walls) : Prop where
  readable : ∀ i, decode (slot w i) ≠ none
  unused : ∀ i, 2 * W * W ≤ i → slot w i = 0#8

theorem sound_update {W : Nat} (hW : Supported W) {w w' : Walls} {c : Coord} {st : WallState}
    (h : Sound W w) (hc : Valid W c) (e : update W w c st = .ok w') : Sound W w' := by
  obtain ⟨w1, e1, f1⟩ := update_eq (W := W) (w := w) (asIndex_lt_que hW hc) st
  rw [e] at e1; cases e1
  have := asIndex_lt hW hc
  refine ⟨fun i => ?_, fun i hi => ?_⟩
  · rw [f1]; split
    · rw [decode_bits]; simp
    · exact h.readable i
  · rw [f1, if_neg (by omega)]; exact h.unused i hi

theorem sound_updateAt {W : Nat} (hW : Supported W) {w w' : Walls} {c : Coord} {st : WallState}
    (h : Sound W w) (hc : Valid W c) (e : updateAt W w c.x c.y st = .ok w') : Sound W w' := by
  have := hW.le
  have hn : Coord.new W c.x c.y = some c :=
    (Props.C01_valid W hW c.x c.y (by have := hc.1; omega) (by have := hc.2.1; omega) c).2 ⟨hc, rfl, rfl⟩
  unfold updateAt at e
  rw [hn] at e
  exact sound_update hW h hc e

theorem sound_zero (W : Nat) : Sound W (fun _ => 0#8) := by
  have : ∀ i, slot (fun _ => 0#8) i = 0#8 := fun i => by simp [slot]
  exact ⟨fun i => by rw [this]; simp [decode], fun i _ => this i⟩

theorem sound_newLoop {W : Nat} (hW : Supported W) : ∀ (n i : Nat) (w w' : Walls), i + n ≤ W → Sound W w →
    newLoop W n i w = .ok w' → Sound W w'
  | 0, _, w, w', _, h, e => by cases e; exact h
  | n + 1, i, w, w', hi, h, e => by
    have hp := hW.pos
    have v1 : Valid W ⟨2 * (W - 1) + 1, 2 * i⟩ := ⟨by simp; omega, by simp; omega, by simp⟩
    have v2 : Valid W ⟨2 * i, 2 * (W - 1) + 1⟩ := ⟨by simp; omega, by simp; omega, by simp⟩
    obtain ⟨w1, e1, f1⟩ := updateAt_eq hW (w := w) v1 (.checked true)
    obtain ⟨w2, e2, f2⟩ := updateAt_eq hW (w := w1) v2 (.checked true)
    have s2 := sound_updateAt hW (sound_updateAt hW h v1 e1) v2 e2
    unfold newLoop at e
    have hor : 2 * (W - 1) ||| 1 = 2 * (W - 1) + 1 := two_or _
    simp only [shl1, hor] at e
    simp only at e1 e2
    simp only [e1, bind, Except.bind, e2] at e
    exact sound_newLoop hW n (i + 1) w2 w' (by omega) s2 e

theorem sound_new {W : Nat} (hW : Supported W) {w : Walls} (e : new W = .ok w) : Sound W w := by
  have hp := hW.pos
  obtain ⟨w1, e1, f1⟩ := newLoop_eq hW W 0 (fun _ => 0#8) (by omega)
  have v1 : Valid W ⟨1, 0⟩ := ⟨by simp; omega, by simp; omega, rfl⟩
  have v2 : Valid W ⟨0, 1⟩ := ⟨by simp; omega, by simp; omega, rfl⟩
  obtain ⟨w2, e2, f2⟩ := updateAt_eq hW (w := w1) v1 (.checked true)
  obtain ⟨w3, e3, f3⟩ := updateAt_eq hW (w := w2) v2 (.checked false)
  have s1 := sound_newLoop hW W 0 _ w1 (by omega) (sound_zero W) e1
  have s3 := sound_updateAt hW (sound_updateAt hW s1 v1 e2) v2 e3
  unfold new at e
  simp only at e2 e3
  simp only [e1, bind, Except.bind, e2, e3] at e
  cases e; exact s3

theorem sound_cell {W y : Nat} (hW : Supported W) (hy : y < 2 * W) : ∀ (n x : Nat) (s : List Char)
    (w w' : Walls), x + n + 1 = W → Sound W w → cell W y n x s w = .ok (.ok w') → Sound W w' := by
  intro n
  induction n with
  | zero =>
    intro x s w w' hx h e
    have hv := wallAt_valid (W := W) (y := y) (x := x) (by omega) hy
    unfold cell at e
    split at e
    · obtain ⟨w1, e1, -⟩ := updateAt_eq hW (w := w) hv (.checked true)
      rw [e1] at e; cases e; exact sound_updateAt hW h hv e1
    · split at e
      · obtain ⟨w1, e1, -⟩ := updateAt_eq hW (w := w) hv (.checked false)
        rw [e1] at e; cases e; exact sound_updateAt hW h hv e1
      · cases e
  | succ n ih =>
    intro x s w w' hx h e
    have hv := wallAt_valid (W := W) (y := y) (x := x) (by omega) hy
    unfold cell at e
    split at e
    · obtain ⟨w1, e1, -⟩ := updateAt_eq hW (w := w) hv (.checked true)
      rw [e1] at e
      replace e : rowLoop W y (n + 1) (x + 1) (s.drop 4) w1 = _ := e
      rw [rowLoop_succ, if_neg (by omega)] at e
      exact ih _ _ _ _ (by omega) (sound_updateAt hW h hv e1) e
    · split at e
      · obtain ⟨w1, e1, -⟩ := updateAt_eq hW (w := w) hv (.checked false)
        rw [e1] at e
        replace e : rowLoop W y (n + 1) (x + 1) (s.drop 4) w1 = _ := e
        rw [rowLoop_succ, if_neg (by omega)] at e
        exact ih _ _ _ _ (by omega) (sound_updateAt hW h hv e1) e
      · cases e

theorem sound_lines {W : Nat} (hW : Supported W) : ∀ (L : List (List Char)) (y : Nat) (w w' : Walls),
    y + L.length ≤ 2 * W + 1 → Sound W w → linesLoop W y L w = .ok (.ok w') → Sound W w' := by
  intro L
  induction L with
  | nil => intro y w w' _ h e; cases e; exact h
  | cons s L ih =>
    intro y w w' hy h e
    rw [List.length_cons] at hy
    unfold linesLoop at e
    by_cases hb : y = 2 * W
    · rw [if_pos hb] at e
      have : w' = w := by
        split at e
        · cases e
        · revert e
          cases strDrop s 1 with
          | error _ => intro e; cases e
          | ok s1 =>
            simp only [bind, Except.bind]
            cases bottomLoop y W 0 s1 with
            | error _ => intro e; cases e
            | ok r => cases r with
              | error _ => intro e; cases e
              | ok _ => intro e; cases e; rfl
      rw [this]; exact h
    · rw [if_neg hb] at e
      revert e
      cases hr : rowLoop W y W 0 s w with
      | error _ => intro e; cases e
      | ok r => cases r with
        | error _ => intro e; cases e
        | ok w1 =>
          intro e
          refine ih (y + 1) w1 w' (by omega) ?_ e
          have hp := hW.pos
          obtain ⟨n, rfl⟩ : ∃ n, W = n + 1 := ⟨W - 1, by omega⟩
          rw [rowLoop_succ, if_pos rfl] at hr
          split at hr
          · exact sound_cell hW (by omega) n 0 _ w w1 (by omega) h hr
          · cases hr

theorem sound_fromStr {W : Nat} (hW : Supported W) {s : List Char} {w : Walls}
    (e : fromStr W s = .ok (.ok w)) : Sound W w := by
  obtain ⟨w0, e0, -⟩ := new_eq hW
  unfold fromStr at e
  rw [e0] at e
  exact sound_lines hW _ 0 w0 w (by rw [List.length_take]; omega) (sound_new hW e0) e

theorem byte_ext : ∀ (a : Fin 256), BitVec.ofFin (w := 8) a =
    (((BitVec.ofFin a >>> 0) &&& 3#8) ||| (((BitVec.ofFin a >>> 2) &&& 3#8) <<< 2) |||
     (((BitVec.ofFin a >>> 4) &&& 3#8) <<< 4) ||| (((BitVec.ofFin a >>> 6) &&& 3#8) <<< 6)) := by
  decide +kernel

/-- A byte is determined by its four slots. -/
theorem walls_ext {w w' : Walls} {i : Nat} (h : ∀ j < 4, slot w (4 * i + j) = slot w' (4 * i + j)) :
    w i = w' i := by
  have key : ∀ (v : Walls) j, j < 4 → slot v (4 * i + j) = (v i >>> (2 * j)) &&& 3#8 := fun v j hj => by
    unfold slot
    rw [show (4 * i + j) / 4 = i by omega, show (4 * i + j) % 4 = j by omega]
  have h0 := h 0 (by omega)
  have h1 := h 1 (by omega)
  have h2 := h 2 (by omega)
  have h3 := h 3 (by omega)
  rw [key w _ (by omega), key w' _ (by omega)] at h0 h1 h2 h3
  have e1 := byte_ext (w i).toFin
  have e2 := byte_ext (w' i).toFin
  simp only [Nat.mul_zero, Nat.mul_one, Nat.reduceMul] at h0 h1 h2 h3
  rw [show BitVec.ofFin (w i).toFin = w i from rfl, h0, h1, h2, h3] at e1
  rw [show BitVec.ofFin (w' i).toFin = w' i from rfl] at e2
  rw [e1, ← e2]

theorem decode_some {a : BitVec 8} {st : WallState} (h : decode a = some st) : a = bits st := by
  unfold decode at h
  split at h
  · next h0 => cases h; exact h0
  · split at h
    · next h0 => cases h; exact h0
    · split at h
      · next h0 => cases h; exact h0
      · cases h

theorem decode_inj {a b : BitVec 8} (h : decode a = decode b) (ha : decode a ≠ none) : a = b := by
  obtain ⟨st, hs⟩ := Option.ne_none_iff_exists'.1 ha
  have hs2 : decode b = some st := by rw [← h, hs]
  rw [decode_some hs, decode_some hs2]

/-- Two sound maps with the same states are the same array. -/
theorem sound_ext {W : Nat} (hW : Supported W) {w w' : Walls} (h : Sound W w) (h' : Sound W w')
    (he : ∀ d, Valid W d → wallState W w d = wallState W w' d) (i : Nat) : w i = w' i := by
  apply walls_ext
  intro j _
  by_cases hi : 4 * i + j < 2 * W * W
  · obtain ⟨c, hc, hci⟩ := Props.C02_onto W hW (4 * i + j) hi
    have e := he c hc
    rw [wallState_eq (asIndex_lt_que hW hc), wallState_eq (asIndex_lt_que hW hc), hci] at e
    have r := h.readable (4 * i + j)
    have r' := h'.readable (4 * i + j)
    apply decode_inj _ r
    revert e r r'
    cases decode (slot w (4 * i + j)) with
    | none => simp
    | some a => cases decode (slot w' (4 * i + j)) with
      | none => simp
      | some b => simp
  · rw [h.unused _ (by omega), h'.unused _ (by omega)]

end Verif.WallsP
