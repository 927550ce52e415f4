import Verif.Proof.OldManager
import Verif.Proof.Detect
/-!
# What the former wall memory says about a maze
-/
namespace Verif.Proof.OldM
open Verif Verif.Run Verif.Spec Verif.Proof Verif.Old Verif.Old.Search Verif.Old.Manager

variable {W : Nat} {m m' : Manager} {w v : Wall} {p t : F} {A : Arith} {real : Wall → Bool}

/-! ## Drawings -/

/-- The position of a wall. -/
def posOf (w : Wall) : Verif.Search.Coord := if w.top then ⟨2 * w.x, 2 * w.y + 1⟩ else ⟨2 * w.x + 1, 2 * w.y⟩

theorem wall_posOf (w : Wall) : oldWallAt (posOf w) = w := by
  obtain ⟨x, y, b⟩ := w
  unfold oldWallAt posOf
  cases b <;> simp <;> omega

theorem wallAt_drawn (hw : InMaze W w) : wallAt W (drawnAt W w).1 w.x = posOf w := by
  obtain ⟨x, y, b⟩ := w
  have : y < W := hw.2
  unfold wallAt drawnAt posOf
  cases b <;> simp <;> omega

theorem drawLine_length (W : Nat) (f : Verif.Search.Coord → Bool) (y : Nat) : (drawLine W f y).length = 4 * W + 1 := by
  unfold drawLine
  rw [List.length_cons, List.length_flatMap]
  have : (List.map (fun x => (if y = 2 * W ∨ f (wallAt W y x) = true then closedField y else openField y).length) (List.range W)) =
      List.map (fun _ => 4) (List.range W) := by
    apply List.map_congr_left
    intro x _
    split
    · exact (WallsP.closed_ascii y).2
    · exact (WallsP.open_ascii y).2
  rw [this]
  simp
  omega

theorem get_field {l : List Char} {x i : Nat} (hi : i < 4) : l[4 * x + 1 + i]? = (field l x)[i]? := by
  unfold field
  rw [List.getElem?_take, if_pos hi, List.getElem?_drop]

theorem fromText_drawing (hw : InMaze W w) : fromText W ((List.range (2 * W + 1)).map (drawLine W (posBlocked real))) w =
    if real w = true then .fin 1 else .fin 0 := by
  have h1 := (drawn_line hw).1
  unfold fromText
  rw [List.getElem?_map, List.getElem?_range (by omega)]
  simp only [Option.map_some, Option.bind_some]
  have hf : field (drawLine W (posBlocked real) (drawnAt W w).1) w.x = if real w = true then closedField (drawnAt W w).1 else openField (drawnAt W w).1 := by
    rw [WallsP.drawLine_field hw.1, wallAt_drawn hw]
    unfold posBlocked
    rw [wall_posOf]
    simp only [Nat.ne_of_lt h1, false_or]
  obtain ⟨x, y, b⟩ := w
  cases b
  · have e : (drawnAt W ⟨x, y, false⟩).2.1 = 4 * x + 1 + 3 := rfl
    have hodd : (drawnAt W ⟨x, y, false⟩).1 % 2 = 1 := by show (2 * (W - 1 - y) + 1) % 2 = 1; omega
    rw [e, get_field (by omega), hf]
    have hc : closedField (drawnAt W ⟨x, y, false⟩).1 = [' ', ' ', ' ', '|'] := by unfold closedField; rw [if_neg (by omega)]
    have ho : openField (drawnAt W ⟨x, y, false⟩).1 = [' ', ' ', ' ', ' '] := by unfold openField; rw [if_neg (by omega)]
    rw [hc, ho]
    cases hr : real ⟨x, y, false⟩ <;> simp [drawnAt]
  · have e : (drawnAt W ⟨x, y, true⟩).2.1 = 4 * x + 1 + 0 := rfl
    have heven : (drawnAt W ⟨x, y, true⟩).1 % 2 = 0 := by show (2 * (W - 1 - y)) % 2 = 0; omega
    rw [e, get_field (by omega), hf]
    have hc : closedField (drawnAt W ⟨x, y, true⟩).1 = ['-', '-', '-', '+'] := by unfold closedField; rw [if_pos heven]
    have ho : openField (drawnAt W ⟨x, y, true⟩).1 = [' ', ' ', ' ', '+'] := by unfold openField; rw [if_pos heven]
    rw [hc, ho]
    cases hr : real ⟨x, y, true⟩ <;> simp [drawnAt]

theorem drawing_fits (W : Nat) (f : Verif.Search.Coord → Bool) : FitsWidth W ((List.range (2 * W + 1)).map (drawLine W f)) := by
  intro i l hi h
  rw [List.getElem?_map, List.getElem?_range (by omega)] at h
  cases h
  rw [drawLine_length]
  split <;> omega

/-! ## Beliefs -/

/-- The opposite threshold. -/
theorem opposite (hA : Rounding A) (h : GoodThreshold A t) : ∃ r q : ℝ, t = .fin r ∧ 0 < r ∧ r ≤ 1 / 2 ∧ reverse A t = .fin q ∧ 1 / 2 ≤ q ∧ q < 1 := by
  obtain ⟨⟨r, rfl, h0, h1, h2⟩, hp, ho, hh⟩ := h
  have hr : reverse A (.fin r) = A.rnd (1 - r) := by
    show A.rnd (1 + -r) = A.rnd (1 - r)
    rw [← sub_eq_add_neg]
  rw [hr] at ho ⊢
  have hle : r ≤ 1 / 2 := hh
  rcases rnd_nonneg hA (show (0 : ℝ) ≤ 1 - r by linarith) with h3 | ⟨q, h3, h4, h5⟩
  · rw [h3] at ho
    exact absurd ho (by unfold F.lt; exact id)
  · rw [h4] at ho
    exact ⟨r, q, rfl, hp, hle, h4, le_rnd hA (by linarith) hA.half h4, ho⟩

theorem checked_iff (hW : Supported W) {locked : Nat → Bool} : (belief A W locked m).checked w = true ↔
    InMaze W w ∧ ((val W m w).lt m.threshold ∨ (reverse A m.threshold).lt (val W m w)) := by
  unfold belief
  simp only [Bool.and_eq_true, decide_eq_true_eq]
  refine and_congr_right fun hw => ?_
  unfold tryChecked
  rw [try_eq hW hw]
  show (Except.ok (Option.map _ (some (val W m w))) : R (Option Bool)) = _ ↔ _
  simp

theorem present_iff (hW : Supported W) {locked : Nat → Bool} : (belief A W locked m).present w = true ↔
    InMaze W w ∧ (reverse A m.threshold).lt (val W m w) := by
  unfold belief
  simp only [Bool.and_eq_true, decide_eq_true_eq]
  refine and_congr_right fun hw => ?_
  unfold tryExists
  rw [try_eq hW hw]
  show (Except.ok (Option.map _ (some (val W m w))) : R (Option Bool)) = _ ↔ _
  simp

/-- What the memory says is true. -/
def Right (A : Arith) (W : Nat) (real : Wall → Bool) (m : Manager) : Prop :=
  ∀ w, InMaze W w → ((val W m w).lt m.threshold → real w = false) ∧ ((reverse A m.threshold).lt (val W m w) → real w = true)

theorem right_belief (hW : Supported W) (h : Right A W real m) (locked : Nat → Bool) : TrueBelief W real (belief A W locked m) where
  known w hw := by
    obtain ⟨hi, hc⟩ := (checked_iff hW).mp hw
    rcases hc with hc | hc
    · have := (h w hi).1 hc
      rw [this, Bool.eq_false_iff]
      intro hp
      have := (h w hi).2 ((present_iff hW).mp hp).2
      simp_all
    · rw [(h w hi).2 hc]
      exact (present_iff hW).mpr ⟨hi, hc⟩
  unknown w hw := by
    rw [Bool.eq_false_iff] at hw ⊢
    exact fun hp => hw ((checked_iff hW).mpr ⟨((present_iff hW).mp hp).1, Or.inr ((present_iff hW).mp hp).2⟩)
  outside w hw := by
    rw [Bool.eq_false_iff]
    exact fun hp => hw ((checked_iff hW).mp hp).1

theorem new_right (hW : Supported W) (hA : Rounding A) (ht : GoodThreshold A t) (hr : Regular W real) (hm : new W t = .ok m) :
    m.threshold = t ∧ Right A W real m := by
  obtain ⟨m', h1, h3, h4⟩ := new_eq hW t
  rw [hm] at h1
  cases h1
  obtain ⟨r, q, rfl, hr0, hr1, hq, hq0, hq1⟩ := opposite hA ht
  refine ⟨h3, fun w hw => ?_⟩
  rw [h3, hq, h4 w hw]
  unfold atFirst
  by_cases hs : w = ⟨0, 0, true⟩
  · rw [if_pos hs]
    subst hs
    refine ⟨fun _ => hr.ahead, fun h => ?_⟩
    have : q < 0 := h
    linarith
  · rw [if_neg hs]
    by_cases hb : w = ⟨0, 0, false⟩ ∨ (w.top = true ∧ w.y = W - 1) ∨ (w.top = false ∧ w.x = W - 1)
    · rw [if_pos hb]
      constructor
      · intro h
        have : (1 : ℝ) < r := h
        linarith
      · intro _
        obtain ⟨x, y, b⟩ := w
        rcases hb with hb | ⟨h1, h2⟩ | ⟨h1, h2⟩
        · rw [hb]; exact hr.right
        · simp only at h1 h2
          rw [h1, h2]
          exact (hr.closed x hw.1).1
        · simp only at h1 h2
          rw [h1, h2]
          exact (hr.closed y hw.2).2
    · rw [if_neg hb]
      constructor
      · intro h
        have : (1 / 2 : ℝ) < r := h
        linarith
      · intro h
        have : q < 1 / 2 := h
        linarith

theorem new_ahead (hW : Supported W) (hA : Rounding A) (ht : GoodThreshold A t) (hm : new W t = .ok m) (locked : Nat → Bool) :
    OpenAhead W (belief A W locked m) ⟨0, 0, .north⟩ := by
  obtain ⟨m', h1, h3, h4⟩ := new_eq hW t
  rw [hm] at h1
  cases h1
  obtain ⟨r, q, rfl, hr0, hr1, hq, hq0, hq1⟩ := opposite hA ht
  have hp := hW.pos
  have hw : InMaze W ⟨0, 0, true⟩ := ⟨hp, hp⟩
  have hv : val W m ⟨0, 0, true⟩ = .fin 0 := by rw [h4 _ hw]; rfl
  refine ⟨⟨0, 1⟩, by decide, ?_, ?_, ?_⟩
  · show Valid W ⟨0, 1⟩
    exact ⟨by show 0 < 2 * W; omega, by show 1 < 2 * W; omega, rfl⟩
  · show (belief A W locked m).checked ⟨0, 0, true⟩ = true
    rw [checked_iff hW, hv, h3]
    exact ⟨hw, Or.inl hr0⟩
  · show (belief A W locked m).present ⟨0, 0, true⟩ = false
    rw [Bool.eq_false_iff, ne_eq, present_iff hW, hv, h3, hq]
    rintro ⟨-, h⟩
    have : q < 0 := h
    linarith

theorem sense_right (hW : Supported W) {locked : Nat → Bool} (hw : InMaze W w) (hu : tryUpdate W locked m w p = .ok (some m'))
    (h : Right A W real m) (ht : TrueValue A m.threshold (real w) ((belief A W (held W []) m).checked w) p) :
    m'.threshold = m.threshold ∧ Right A W real m' ∧ Learns (belief A W (held W []) m) (belief A W (held W []) m') := by
  rw [update_eq hW hw] at hu
  have hm : m' = withVal W m w p := by
    split at hu
    · cases hu
    · cases hu; rfl
  subst hm
  refine ⟨rfl, fun v hv => ?_, fun v hv => ?_⟩
  · rw [val_withVal hW hw hv]
    show ((if v = w then p else val W m v).lt m.threshold → _) ∧ ((reverse A m.threshold).lt _ → _)
    by_cases he : v = w
    · rw [if_pos he, he]
      exact ⟨ht.1, ht.2.1⟩
    · rw [if_neg he]
      exact h v hv
  · rw [checked_iff hW] at hv ⊢
    refine ⟨hv.1, ?_⟩
    rw [val_withVal hW hw hv.1]
    show (if v = w then p else val W m v).lt m.threshold ∨ (reverse A m.threshold).lt _
    by_cases he : v = w
    · rw [if_pos he]
      refine ht.2.2 ?_
      rw [checked_iff hW, ← he]
      exact hv
    · rw [if_neg he]
      exact hv.2

theorem belief_learns {locked locked' : Nat → Bool} : Learns (belief A W locked m) (belief A W locked' m) := fun _ h => h

theorem session_inv {P : Config} (hW : Supported P.W) (hs : P.start = ⟨0, 0, .north⟩) (hA : Rounding A) (ht : GoodThreshold A t)
    (hr : Regular P.W real) {s : Commander} {rs : List Reply} (h : Session P A t real m s rs) :
    m.threshold = t ∧ Right A P.W real m ∧ ∃ b, Explores P real b s rs ∧ Learns b (belief A P.W (held P.W []) m) := by
  induction h with
  | start m hm =>
    obtain ⟨h1, h3⟩ := new_right hW hA ht hr hm
    exact ⟨h1, h3, _, .start _ (right_belief hW h3 (held P.W [])) (hs ▸ new_ahead hW hA ht hm _), fun _ h => h⟩
  | sense m m' s rs ws w p _ hw hv hu ih =>
    obtain ⟨h1, h3, b, h4, h5⟩ := ih
    rw [← h1] at hv
    obtain ⟨h6, h7, h8⟩ := sense_right hW hw hu h3 hv
    exact ⟨h6.trans h1, h7, b, h4, fun v hv => h8 v (h5 v hv)⟩
  | call m s s' r rs ws _ hc ih =>
    obtain ⟨h1, h3, b, h4, h5⟩ := ih
    exact ⟨h1, h3, _, .call b _ s s' r rs h4 (fun v hv => belief_learns v (h5 v hv)) (right_belief hW h3 _) hc, belief_learns⟩

end Verif.Proof.OldM
