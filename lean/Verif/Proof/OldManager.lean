import Verif.Spec.OldManager
import Verif.Proof.WallsDraw
/-!
# Lemmas about the former wall memory
-/
namespace Verif.Proof.OldM
open Verif Verif.Spec Verif.Proof Verif.Old Verif.Old.Manager

variable {W : Nat} {m m' : Manager} {w v : Wall} {p t : F}

theorem index_eq (hW : Supported W) (hw : InMaze W w) : w.index W = 2 * W * w.x + 2 * w.y + w.top.toNat := by
  obtain ⟨k, hk, rfl⟩ := hW
  have htz : trailingZeros (2 ^ k) = k := by interval_cases k <;> decide
  unfold Wall.index
  rw [htz]
  have h1 : w.y <<< 1 ||| w.top.toNat = 2 * w.y + w.top.toNat := by
    rw [← Nat.shiftLeft_add_eq_or_of_lt (by cases w.top <;> decide), Nat.shiftLeft_eq]
    omega
  rw [Nat.or_assoc, h1]
  have hlt : 2 * w.y + w.top.toNat < 2 ^ (k + 1) := by
    have := hw.2
    have : w.top.toNat ≤ 1 := by cases w.top <;> decide
    rw [Nat.pow_succ]
    omega
  rw [← Nat.shiftLeft_add_eq_or_of_lt hlt, Nat.shiftLeft_eq, Nat.pow_succ]
  ring

theorem index_lt (hW : Supported W) (hw : InMaze W w) : w.index W < 2 * (W * W) := by
  rw [index_eq hW hw]
  obtain ⟨h1, h2⟩ := hw
  have : w.top.toNat ≤ 1 := by cases w.top <;> decide
  have h3 : 2 * W * (w.x + 1) ≤ 2 * W * W := Nat.mul_le_mul_left _ h1
  have h4 : 2 * W * W = 2 * (W * W) := by ring
  have h5 : 2 * W * (w.x + 1) = 2 * W * w.x + 2 * W := by ring
  omega

theorem area_le (hW : Supported W) : 2 * (W * W) ≤ WALL_MAX := by
  have := Nat.mul_le_mul hW.le hW.le
  show _ ≤ 2048
  omega

theorem index_max (hW : Supported W) (hw : InMaze W w) : w.index W < WALL_MAX := lt_of_lt_of_le (index_lt hW hw) (area_le hW)

theorem index_inj (hW : Supported W) (hw : InMaze W w) (hv : InMaze W v) (h : w.index W = v.index W) : w = v := by
  rw [index_eq hW hw, index_eq hW hv] at h
  obtain ⟨h1, h2⟩ := hw
  obtain ⟨h3, h4⟩ := hv
  obtain ⟨x, y, b⟩ := w
  obtain ⟨x', y', b'⟩ := v
  simp only at *
  have hb : b.toNat < 2 := by cases b <;> decide
  have hb' : b'.toNat < 2 := by cases b' <;> decide
  have e1 : (2 * W * x + (2 * y + b.toNat)) / (2 * W) = x := by
    rw [Nat.mul_add_div (by omega), Nat.div_eq_of_lt (by omega), Nat.add_zero]
  have e2 : (2 * W * x' + (2 * y' + b'.toNat)) / (2 * W) = x' := by
    rw [Nat.mul_add_div (by omega), Nat.div_eq_of_lt (by omega), Nat.add_zero]
  have hx : x = x' := by rw [← e1, ← e2]; congr 1; omega
  subst hx
  have hbb : b.toNat = b'.toNat := by omega
  have : b = b' := by cases b <;> cases b' <;> simp_all
  subst this
  have : y = y' := by omega
  rw [this]

theorem index_surj (hW : Supported W) {i : Nat} (hi : i < 2 * (W * W)) : ∃ w, InMaze W w ∧ w.index W = i := by
  have hp := hW.pos
  have h2 : i % (2 * W) < 2 * W := Nat.mod_lt _ (by omega)
  have hw : InMaze W ⟨i / (2 * W), i % (2 * W) / 2, decide (i % 2 = 1)⟩ := by
    refine ⟨Nat.div_lt_of_lt_mul (by rw [Nat.mul_assoc]; exact hi), ?_⟩
    show i % (2 * W) / 2 < W
    omega
  refine ⟨_, hw, ?_⟩
  rw [index_eq hW hw]
  have h3 := Nat.div_add_mod i (2 * W)
  have h4 : i % (2 * W) % 2 = i % 2 := Nat.mod_mod_of_dvd i (Dvd.intro _ rfl)
  have h5 : (decide (i % 2 = 1)).toNat = i % 2 := by
    rcases Nat.mod_two_eq_zero_or_one i with h | h <;> simp [h]
  show 2 * W * (i / (2 * W)) + 2 * (i % (2 * W) / 2) + (decide (i % 2 = 1)).toNat = i
  rw [h5]
  omega

/-! ## Reading and writing -/

/-- The value of a wall. -/
def val (W : Nat) (m : Manager) (w : Wall) : F := m.walls (w.index W)

theorem held_nil (i : Nat) : held W [] i = false := rfl

theorem held_iff (hW : Supported W) {ws : List Wall} (hw : InMaze W w) (hs : ∀ v ∈ ws, InMaze W v) :
    held W ws (w.index W) = true ↔ w ∈ ws := by
  unfold held
  simp only [List.any_eq_true, beq_iff_eq]
  exact ⟨fun ⟨v, hv, h⟩ => index_inj hW (hs v hv) hw h ▸ hv, fun h => ⟨w, h, rfl⟩⟩

theorem try_eq (hW : Supported W) (hw : InMaze W w) (locked : Nat → Bool) :
    tryProbability W locked m w = .ok (if locked (w.index W) then none else some (val W m w)) := by
  unfold tryProbability arrGet
  rw [if_pos (index_max hW hw)]
  rfl

theorem recalls_iff (hW : Supported W) {f : Wall → F} : Recalls W m f ↔ ∀ w, InMaze W w → val W m w = f w := by
  unfold Recalls
  refine forall_congr' fun w => forall_congr' fun hw => ?_
  rw [try_eq hW hw]
  simp [held_nil]

/-- The memory with one value changed. -/
def withVal (W : Nat) (m : Manager) (w : Wall) (p : F) : Manager := { m with walls := fun j => if j = w.index W then p else m.walls j }

theorem val_withVal (hW : Supported W) (hw : InMaze W w) (hv : InMaze W v) :
    val W (withVal W m w p) v = if v = w then p else val W m v := by
  unfold val withVal
  simp only
  by_cases h : v = w
  · rw [h, if_pos rfl, if_pos rfl]
  · rw [if_neg h, if_neg fun e => h (index_inj hW hv hw e)]

theorem put_eq (hW : Supported W) {x y : Nat} {top : Bool} (hx : x < W) (hy : y < W) :
    put W m x y top p = .ok (withVal W m ⟨x, y, top⟩ p) := by
  unfold put Wall.new
  rw [if_pos (by omega)]
  simp only
  unfold arrSet
  rw [if_pos (index_max hW (show InMaze W ⟨x, y, top⟩ from ⟨hx, hy⟩))]
  rfl

theorem put_outside {x y : Nat} {top : Bool} (hp : 1 ≤ W) (h : ¬ (x < W ∧ y < W)) : put W m x y top p = .error .unreachable := by
  unfold put Wall.new
  rw [if_neg (by omega)]

theorem update_eq (hW : Supported W) (hw : InMaze W w) (locked : Nat → Bool) :
    tryUpdate W locked m w p = .ok (if locked (w.index W) then none else some (withVal W m w p)) := by
  unfold tryUpdate arrSet
  rw [if_pos (index_max hW hw)]
  rfl

/-! ## A new memory -/

theorem initLoop_eq (hW : Supported W) : ∀ (n i : Nat) (m : Manager), i + n = W → ∃ m', initLoop W n i m = .ok m' ∧ m'.threshold = m.threshold ∧
    ∀ w, InMaze W w → val W m' w = if (w.top = true ∧ w.y = W - 1 ∧ i ≤ w.x) ∨ (w.top = false ∧ w.x = W - 1 ∧ i ≤ w.y) then .fin 1 else val W m w := by
  intro n
  induction n with
  | zero =>
    intro i m h
    refine ⟨m, rfl, rfl, fun w hw => ?_⟩
    rw [if_neg]
    have := hw.1
    have := hw.2
    rintro (h | h) <;> omega
  | succ n ih =>
    intro i m h
    have hi : i < W := by omega
    have hm : W - 1 < W := by omega
    obtain ⟨m', h1, h2, h3⟩ := ih (i + 1) (withVal W (withVal W m ⟨i, W - 1, true⟩ (.fin 1)) ⟨W - 1, i, false⟩ (.fin 1)) (by omega)
    refine ⟨m', ?_, h2, fun w hw => ?_⟩
    · unfold initLoop
      rw [put_eq hW hi hm]
      show (do let m ← put W (withVal W m ⟨i, W - 1, true⟩ (.fin 1)) (W - 1) i false (.fin 1); initLoop W n (i + 1) m) = _
      rw [put_eq hW hm hi]
      exact h1
    · rw [h3 w hw, val_withVal hW ⟨hm, hi⟩ hw, val_withVal hW ⟨hi, hm⟩ hw]
      obtain ⟨x, y, b⟩ := w
      simp only [Wall.mk.injEq]
      cases b <;> simp only [Bool.false_eq_true, false_and, and_false, true_and, and_true, reduceCtorEq, false_or, or_false, if_false]
      · by_cases hx : x = W - 1
        · by_cases h' : i + 1 ≤ y
          · rw [if_pos ⟨hx, h'⟩, if_pos ⟨hx, by omega⟩]
          · rw [if_neg (by omega)]
            by_cases hy : y = i
            · rw [if_pos ⟨hx, hy⟩, if_pos ⟨hx, by omega⟩]
            · rw [if_neg (by omega), if_neg (by omega)]
        · rw [if_neg (by omega), if_neg (by omega), if_neg (by omega)]
      · by_cases hx : y = W - 1
        · by_cases h' : i + 1 ≤ x
          · rw [if_pos ⟨hx, h'⟩, if_pos ⟨hx, by omega⟩]
          · rw [if_neg (by omega)]
            by_cases hy : x = i
            · rw [if_pos ⟨hy, hx⟩, if_pos ⟨hx, by omega⟩]
            · rw [if_neg (by omega), if_neg (by omega)]
        · rw [if_neg (by omega), if_neg (by omega), if_neg (by omega)]

theorem new_eq (hW : Supported W) (t : F) : ∃ m, new W t = .ok m ∧ m.threshold = t ∧ ∀ w, InMaze W w → val W m w = atFirst W w := by
  have hp := hW.pos
  obtain ⟨m', h1, h2, h3⟩ := initLoop_eq hW W 0 (raw t) (by omega)
  refine ⟨withVal W (withVal W m' ⟨0, 0, false⟩ (.fin 1)) ⟨0, 0, true⟩ (.fin 0), ?_, h2, fun w hw => ?_⟩
  · unfold new init
    rw [h1]
    show (do let m ← put W m' 0 0 false (.fin 1); put W m 0 0 true (.fin 0)) = _
    rw [put_eq hW hp hp]
    exact put_eq hW hp hp
  · rw [val_withVal hW (show InMaze W ⟨0, 0, true⟩ from ⟨hp, hp⟩) hw, val_withVal hW (show InMaze W ⟨0, 0, false⟩ from ⟨hp, hp⟩) hw, h3 w hw]
    unfold atFirst
    simp only [Nat.zero_le, and_true]
    split
    · rfl
    · by_cases h0 : w = ⟨0, 0, false⟩
      · rw [if_pos h0, if_pos (Or.inl h0)]
      · rw [if_neg h0]
        simp only [h0, false_or]
        rfl

/-! ## Texts -/

variable {y x : Nat}

/-- The first column that is too far to the right. -/
def bound (W y : Nat) : Nat := if y % 2 = 0 then 4 * W + 1 else 4 * W + 4

theorem readChar_eq (hW : Supported W) (hy : y < 2 * W) (h1 : 1 ≤ x) (hx : x < bound W y) (c : Char) (m : Manager) :
    ∃ m', readChar W y x c m = .ok m' ∧ m'.threshold = m.threshold ∧ ∀ w, InMaze W w →
      val W m' w = if (drawnAt W w).1 = y ∧ (drawnAt W w).2.1 = x then (if c = (drawnAt W w).2.2 then .fin 1 else .fin 0) else val W m w := by
  have hle := hW.le
  unfold bound at hx
  unfold readChar
  simp only
  rw [Nat.mod_eq_of_lt (show y < 256 by omega), Nat.mod_eq_of_lt (show x < 256 by split at hx <;> omega)]
  unfold drawnAt
  by_cases he : y % 2 = 0
  · rw [if_pos he] at hx
    rw [if_pos he]
    by_cases h4 : x % 4 = 1
    · rw [if_neg (by omega), if_neg (by omega), put_eq hW (by omega) (by omega)]
      refine ⟨_, rfl, rfl, fun w hw => ?_⟩
      rw [val_withVal hW ⟨by show x / 4 < W; omega, by show W - y / 2 - 1 < W; omega⟩ hw]
      obtain ⟨a, b, top⟩ := w
      have := hw.1
      have := hw.2
      simp only [Wall.mk.injEq] at *
      cases top <;> simp only [Bool.false_eq_true, if_true, if_false, and_true, and_false, reduceCtorEq]
      · rw [if_neg (by omega)]
      · by_cases h' : a = x / 4 ∧ b = W - y / 2 - 1
        · rw [if_pos h', if_pos (show 2 * (W - 1 - b) = y ∧ 4 * a + 1 = x by omega)]
        · rw [if_neg h', if_neg (by omega)]
    · rw [if_pos h4]
      refine ⟨m, rfl, rfl, fun w hw => ?_⟩
      obtain ⟨a, b, top⟩ := w
      have := hw.1
      have := hw.2
      simp only at *
      cases top <;> simp only [Bool.false_eq_true, if_true, if_false]
      · rw [if_neg (by omega)]
      · rw [if_neg (by omega)]
  · rw [if_neg he] at hx
    rw [if_neg he]
    by_cases h4 : x % 4 = 0
    · rw [if_neg (by omega), if_neg (by omega), put_eq hW (by omega) (by omega)]
      refine ⟨_, rfl, rfl, fun w hw => ?_⟩
      rw [val_withVal hW ⟨by show x / 4 - 1 < W; omega, by show W - y / 2 - 1 < W; omega⟩ hw]
      obtain ⟨a, b, top⟩ := w
      have := hw.1
      have := hw.2
      simp only [Wall.mk.injEq] at *
      cases top <;> simp only [Bool.false_eq_true, if_true, if_false, and_true, and_false, reduceCtorEq]
      · by_cases h' : a = x / 4 - 1 ∧ b = W - y / 2 - 1
        · rw [if_pos h', if_pos (show 2 * (W - 1 - b) + 1 = y ∧ 4 * a + 4 = x by omega)]
        · rw [if_neg h', if_neg (by omega)]
      · rw [if_neg (by omega)]
    · rw [if_pos h4]
      refine ⟨m, rfl, rfl, fun w hw => ?_⟩
      obtain ⟨a, b, top⟩ := w
      have := hw.1
      have := hw.2
      simp only at *
      cases top <;> simp only [Bool.false_eq_true, if_true, if_false]
      · rw [if_neg (by omega)]
      · rw [if_neg (by omega)]

theorem readChar_bound (hW : Supported W) (hy : y < 2 * W) (c : Char) (m : Manager) : readChar W y (bound W y) c m = .error .unreachable := by
  have hle := hW.le
  have hp := hW.pos
  unfold readChar bound
  simp only
  rw [Nat.mod_eq_of_lt (show y < 256 by omega)]
  by_cases he : y % 2 = 0
  · rw [if_pos he, if_pos he, Nat.mod_eq_of_lt (show 4 * W + 1 < 256 by omega), if_neg (by omega), if_neg (by omega)]
    exact put_outside hp (by omega)
  · rw [if_neg he, if_neg he, Nat.mod_eq_of_lt (show 4 * W + 4 < 256 by omega), if_neg (by omega), if_neg (by omega)]
    exact put_outside hp (by omega)

theorem readLine_eq (hW : Supported W) (hy : y < 2 * W) : ∀ (cs : List Char) (x : Nat) (m : Manager), 1 ≤ x → x + cs.length ≤ bound W y →
    ∃ m', readLine W y x cs m = .ok m' ∧ m'.threshold = m.threshold ∧ ∀ w, InMaze W w →
      val W m' w = if (drawnAt W w).1 = y ∧ x ≤ (drawnAt W w).2.1 then
        (match cs[(drawnAt W w).2.1 - x]? with
        | none => val W m w
        | some c => if c = (drawnAt W w).2.2 then .fin 1 else .fin 0) else val W m w := by
  intro cs
  induction cs with
  | nil =>
    intro x m _ _
    refine ⟨m, rfl, rfl, fun w _ => ?_⟩
    split <;> rfl
  | cons c cs ih =>
    intro x m h1 hx
    rw [List.length_cons] at hx
    obtain ⟨m1, e1, t1, v1⟩ := readChar_eq hW hy h1 (show x < bound W y by omega) c m
    obtain ⟨m2, e2, t2, v2⟩ := ih (x + 1) m1 (by omega) (by omega)
    refine ⟨m2, ?_, t2.trans t1, fun w hw => ?_⟩
    · unfold readLine
      rw [e1]
      exact e2
    · rw [v2 w hw, v1 w hw]
      by_cases hl : (drawnAt W w).1 = y
      · simp only [hl, true_and]
        by_cases hlt : x + 1 ≤ (drawnAt W w).2.1
        · rw [if_pos hlt, if_pos (show x ≤ _ by omega), if_neg (show ¬ _ = _ by omega)]
          rw [show (drawnAt W w).2.1 - x = ((drawnAt W w).2.1 - (x + 1)) + 1 by omega, List.getElem?_cons_succ]
        · rw [if_neg hlt]
          by_cases hxe : (drawnAt W w).2.1 = x
          · rw [if_pos hxe, if_pos (show x ≤ _ by omega), hxe, Nat.sub_self, List.getElem?_cons_zero]
          · rw [if_neg hxe, if_neg (by omega)]
      · simp only [hl, false_and, if_false]

theorem readLine_long (hW : Supported W) (hy : y < 2 * W) : ∀ (cs : List Char) (x : Nat) (m : Manager), 1 ≤ x → x ≤ bound W y → bound W y < x + cs.length →
    readLine W y x cs m = .error .unreachable := by
  intro cs
  induction cs with
  | nil => intro x m _ _ h; simp at h; omega
  | cons c cs ih =>
    intro x m h1 hle hx
    rw [List.length_cons] at hx
    unfold readLine
    rcases Nat.lt_or_ge x (bound W y) with hlt | hge
    · obtain ⟨m1, e1, -⟩ := readChar_eq hW hy h1 hlt c m
      rw [e1]
      exact ih (x + 1) m1 (by omega) (by omega) (by omega)
    · rw [show x = bound W y by omega, readChar_bound hW hy]
      rfl

theorem drawn_line {W : Nat} {w : Wall} (hw : InMaze W w) : (drawnAt W w).1 < 2 * W ∧ 1 ≤ (drawnAt W w).2.1 := by
  have := hw.2
  unfold drawnAt
  split <;> (constructor <;> simp only <;> omega)

theorem readLines_eq (hW : Supported W) : ∀ (ls : List (List Char)) (y : Nat) (m : Manager), y + ls.length ≤ 2 * W →
    (∀ (i : Nat) (l : List Char), ls[i]? = some l → l.length ≤ bound W (y + i)) →
    ∃ m', readLines W y ls m = .ok m' ∧ m'.threshold = m.threshold ∧ ∀ w, InMaze W w →
      val W m' w = if y ≤ (drawnAt W w).1 then
        (match (ls[(drawnAt W w).1 - y]?).bind (fun l => l[(drawnAt W w).2.1]?) with
        | none => val W m w
        | some c => if c = (drawnAt W w).2.2 then .fin 1 else .fin 0) else val W m w := by
  intro ls
  induction ls with
  | nil =>
    intro y m _ _
    refine ⟨m, rfl, rfl, fun w _ => ?_⟩
    split <;> rfl
  | cons l ls ih =>
    intro y m hy hl
    rw [List.length_cons] at hy
    have hb := hl 0 l rfl
    have hb1 : 1 ≤ bound W y := by unfold bound; split <;> omega
    obtain ⟨m1, e1, t1, v1⟩ := readLine_eq hW (show y < 2 * W by omega) (l.drop 1) 1 m (Nat.le_refl _) (by rw [List.length_drop]; simp at hb; omega)
    obtain ⟨m2, e2, t2, v2⟩ := ih (y + 1) m1 (by omega) (fun i l' h => by
      have := hl (i + 1) l' (by rw [List.getElem?_cons_succ]; exact h)
      rwa [show y + (i + 1) = y + 1 + i by omega] at this)
    refine ⟨m2, ?_, t2.trans t1, fun w hw => ?_⟩
    · unfold readLines
      rw [e1]
      exact e2
    · rw [v2 w hw, v1 w hw]
      by_cases hlt : y + 1 ≤ (drawnAt W w).1
      · rw [if_pos hlt, if_pos (show y ≤ _ by omega), if_neg (show ¬ (_ ∧ _) by omega),
          show (drawnAt W w).1 - y = ((drawnAt W w).1 - (y + 1)) + 1 by omega, List.getElem?_cons_succ]
      · rw [if_neg hlt]
        by_cases he : (drawnAt W w).1 = y
        · have hc := (drawn_line hw).2
          rw [if_pos ⟨he, hc⟩, if_pos (by omega), he, Nat.sub_self, List.getElem?_cons_zero, Option.bind_some, List.getElem?_drop,
            show 1 + ((drawnAt W w).2.1 - 1) = (drawnAt W w).2.1 by omega]
        · rw [if_neg (by omega), if_neg (by omega)]

theorem readLines_long (hW : Supported W) : ∀ (ls : List (List Char)) (y : Nat) (m : Manager), y + ls.length ≤ 2 * W →
    (∃ (i : Nat) (l : List Char), ls[i]? = some l ∧ bound W (y + i) < l.length) → readLines W y ls m = .error .unreachable := by
  intro ls
  induction ls with
  | nil => rintro y m _ ⟨i, l, h, -⟩; simp at h
  | cons l ls ih =>
    rintro y m hy ⟨i, l', h, hlong⟩
    rw [List.length_cons] at hy
    have hb1 : 1 ≤ bound W y := by unfold bound; split <;> omega
    unfold readLines
    rcases Nat.lt_or_ge (bound W y) l.length with hl | hl
    · rw [readLine_long hW (by omega) (l.drop 1) 1 m (Nat.le_refl _) hb1 (by rw [List.length_drop]; omega)]
      rfl
    · obtain ⟨m1, e1, -⟩ := readLine_eq hW (show y < 2 * W by omega) (l.drop 1) 1 m (Nat.le_refl _) (by rw [List.length_drop]; omega)
      rw [e1]
      cases i with
      | zero =>
        rw [List.getElem?_cons_zero] at h
        cases h
        simp at hlong
        omega
      | succ i =>
        rw [List.getElem?_cons_succ] at h
        exact ih (y + 1) m1 (by omega) ⟨i, l', h, by rwa [show y + 1 + i = y + (i + 1) by omega]⟩

theorem withStr_eq (hW : Supported W) (t : F) {s : List Char} {L : List (List Char)} (hs : SplitLines s L) (hf : FitsWidth W L) :
    ∃ m, withStr W t s = .ok m ∧ m.threshold = t ∧ ∀ w, InMaze W w → val W m w = fromText W L w := by
  unfold withStr
  rw [WallsP.lines_split hs]
  obtain ⟨m, h1, h2, h3⟩ := readLines_eq hW (L.take (2 * W)) 0 (raw t) (by simp) (fun i l h => by
    rw [List.getElem?_take] at h
    split at h
    · rename_i hi
      have := hf i l hi h
      rwa [Nat.zero_add]
    · cases h)
  refine ⟨m, h1, h2, fun w hw => ?_⟩
  rw [h3 w hw, if_pos (Nat.zero_le _), Nat.sub_zero, List.getElem?_take, if_pos (drawn_line hw).1]
  unfold fromText
  rfl

theorem withStr_long (hW : Supported W) (t : F) {s : List Char} {L : List (List Char)} (hs : SplitLines s L) (hf : ¬ FitsWidth W L) :
    withStr W t s = .error .unreachable := by
  unfold withStr
  rw [WallsP.lines_split hs]
  apply readLines_long hW _ 0 _ (by simp)
  unfold FitsWidth at hf
  push Not at hf
  obtain ⟨i, l, h1, h2, h3⟩ := hf
  exact ⟨i, l, by rw [List.getElem?_take, if_pos h1, h2], by rw [Nat.zero_add]; exact h3⟩

end Verif.Proof.OldM
