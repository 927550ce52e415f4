import Verif.Proof.WallsMap
import Verif.Spec.Text
/-! # Parsing and drawing -/
namespace Verif.WallsP
open Verif Verif.Search Verif.Spec Verif.Grid Verif.Walls

/-! ## Byte offsets -/

theorem strGet_ascii : ∀ (e s : List Char), (∀ c ∈ e, c.utf8Size = 1) →
    (strGet s e.length = some e ↔ s.take e.length = e)
  | [], s, _ => by cases s <;> simp [strGet]
  | c :: e, [], _ => by simp [strGet]
  | c :: e, d :: s, h => by
    have ih := strGet_ascii e s (fun c hc => h c (List.mem_cons_of_mem _ hc))
    have hc : c.utf8Size = 1 := h c (List.mem_cons_self ..)
    simp only [strGet, List.length_cons, List.take_succ_cons, List.cons.injEq]
    rw [if_neg (by omega)]
    by_cases hcd : d = c
    · subst hcd
      rw [if_pos (by omega), hc, Nat.add_sub_cancel, Option.map_eq_some_iff]
      simp [ih]
    · simp only [hcd, false_and, iff_false]
      split
      · rw [Option.map_eq_some_iff]; rintro ⟨a, _, ha⟩; simp only [List.cons.injEq] at ha; exact hcd ha.1
      · simp

theorem strDrop_ascii : ∀ (e s : List Char), (∀ c ∈ e, c.utf8Size = 1) → s.take e.length = e →
    strDrop s e.length = .ok (s.drop e.length)
  | [], s, _, _ => by cases s <;> simp [strDrop]
  | c :: e, [], _, h => by simp at h
  | c :: e, d :: s, h, ht => by
    have hc : c.utf8Size = 1 := h c (List.mem_cons_self ..)
    simp only [List.length_cons, List.take_succ_cons, List.cons.injEq] at ht
    have ih := strDrop_ascii e s (fun c hc => h c (List.mem_cons_of_mem _ hc)) ht.2
    obtain ⟨rfl, ht⟩ := ht
    simp only [strDrop, List.length_cons, List.drop_succ_cons]
    rw [if_neg (by omega), if_pos (by omega), hc, Nat.add_sub_cancel, ih]

theorem closed_ascii (y : Nat) : (∀ c ∈ closedField y, c.utf8Size = 1) ∧ (closedField y).length = 4 := by
  unfold closedField; split <;> decide

theorem open_ascii (y : Nat) : (∀ c ∈ openField y, c.utf8Size = 1) ∧ (openField y).length = 4 := by
  unfold openField; split <;> decide

theorem lead_ascii (y : Nat) : (∀ c ∈ [lead y], c.utf8Size = 1) := by
  unfold lead; split <;> decide

theorem closed_ne_open (y : Nat) : closedField y ≠ openField y := by
  unfold closedField openField; split <;> decide

theorem get_closed (s : List Char) (y : Nat) : strGet s 4 = some (closedField y) ↔ s.take 4 = closedField y := by
  have h := strGet_ascii (closedField y) s (closed_ascii y).1
  rwa [(closed_ascii y).2] at h

theorem get_open (s : List Char) (y : Nat) : strGet s 4 = some (openField y) ↔ s.take 4 = openField y := by
  have h := strGet_ascii (openField y) s (open_ascii y).1
  rwa [(open_ascii y).2] at h

theorem drop_closed {s : List Char} {y : Nat} (h : s.take 4 = closedField y) : strDrop s 4 = .ok (s.drop 4) := by
  have h := strDrop_ascii (closedField y) s (closed_ascii y).1
  rw [(closed_ascii y).2] at h; tauto

theorem drop_open {s : List Char} {y : Nat} (h : s.take 4 = openField y) : strDrop s 4 = .ok (s.drop 4) := by
  have h := strDrop_ascii (openField y) s (open_ascii y).1
  rw [(open_ascii y).2] at h; tauto

theorem get_lead (s : List Char) (y : Nat) : strGet s 1 = some [lead y] ↔ s.head? = some (lead y) := by
  have h := strGet_ascii [lead y] s (lead_ascii y)
  rw [List.length_singleton] at h
  rw [h]; cases s <;> simp

theorem drop_lead {s : List Char} {y : Nat} (h : s.head? = some (lead y)) : strDrop s 1 = .ok (s.drop 1) := by
  have h' := strDrop_ascii [lead y] s (lead_ascii y)
  rw [List.length_singleton] at h'
  apply h'; cases s <;> simp_all

/-! ## Rows -/

/-- The string literal of the lead. -/
def leadS (y : Nat) : String := if y % 2 = 0 then "+" else "|"
def closedS (y : Nat) : String := if y % 2 = 0 then "---+" else "   |"
def openS (y : Nat) : String := if y % 2 = 0 then "   +" else "    "

theorem leadS_eq (y : Nat) : (leadS y).toList = [lead y] := by unfold leadS lead; split <;> rfl
theorem closedS_eq (y : Nat) : (closedS y).toList = closedField y := by unfold closedS closedField; split <;> rfl
theorem openS_eq (y : Nat) : (openS y).toList = openField y := by unfold openS openField; split <;> rfl

/-- One round of `rowLoop` after the lead. -/
def cell (W y n x : Nat) (s : List Char) (w : Walls) : R (Except ParseError Walls) :=
  if s.take 4 = closedField y then do
    let w ← updateAt W w (wallAt W y x).x (wallAt W y x).y (.checked true)
    rowLoop W y n (x + 1) (s.drop 4) w
  else if s.take 4 = openField y then do
    let w ← updateAt W w (wallAt W y x).x (wallAt W y x).y (.checked false)
    rowLoop W y n (x + 1) (s.drop 4) w
  else .ok (.error ⟨.two (closedS y) (openS y), y, (4 * x + 1, 4 * x + 5)⟩)

theorem and1 (y : Nat) : y &&& 1 = y % 2 := Nat.and_one_is_mod y

theorem shr1 (y : Nat) : y >>> 1 = y / 2 := by simp [Nat.shiftRight_eq_div_pow]

theorem two_or (n : Nat) : 2 * n ||| 1 = 2 * n + 1 := by rw [← shl1, shl1_or1, shl1]

theorem check_lead (s : List Char) (y x : Nat) : check s (leadS y) 1 y x =
    if s.head? = some (lead y) then .ok () else .error ⟨.one (leadS y), y, (x, x + 1)⟩ := by
  unfold check; rw [leadS_eq, if_congr (get_lead s y) rfl rfl]

theorem bind_congr_ok {α β : Type} {a b : R α} {f g : α → R β} (h : a = b) (h' : ∀ x, f x = g x) :
    (a >>= f) = (b >>= g) := by
  subst h; congr 1; funext x; exact h' x

theorem cellBody (W y n x : Nat) (s : List Char) (w : Walls) :
    (if strGet s 4 = some (closedField y) then do
      let w ← parseUpdate W w (wallAt W y x).x (wallAt W y x).y true
      let s ← strDrop s 4
      rowLoop W y n (x + 1) s w
    else if strGet s 4 = some (openField y) then do
      let w ← parseUpdate W w (wallAt W y x).x (wallAt W y x).y false
      let s ← strDrop s 4
      rowLoop W y n (x + 1) s w
    else .ok (.error ⟨.two (closedS y) (openS y), y, (4 * x + 1, 4 * x + 5)⟩)) = cell W y n x s w := by
  unfold cell parseUpdate
  simp only [get_closed, get_open]
  split
  · next h => rw [drop_closed h]; rfl
  · split
    · next h => rw [drop_open h]; rfl
    · rfl

theorem rowLoop_succ (W y n x : Nat) (s : List Char) (w : Walls) :
    rowLoop W y (n + 1) x s w =
      if x = 0 then
        if s.head? = some (lead y) then cell W y n x (s.drop 1) w
        else .ok (.error ⟨.one (leadS y), y, (x, x + 1)⟩)
      else cell W y n x s w := by
  by_cases hy : y % 2 = 0
  · have hl : leadS y = "+" := by simp [leadS, hy]
    have hc : "---+".toList = closedField y := by simp [closedField, hy]
    have ho : "   +".toList = openField y := by simp [openField, hy]
    have h2 : ErrorKind.two "---+" "   +" = .two (closedS y) (openS y) := by simp [closedS, openS, hy]
    have hx : x <<< 1 = (wallAt W y x).x := by simp [wallAt, hy, shl1]
    have hw : ((W - (y >>> 1) - 1) <<< 1) ||| 1 = (wallAt W y x).y := by
      simp only [wallAt, hy, if_true, shl1_or1, shr1]; omega
    conv_lhs => unfold rowLoop
    simp only [and1, hy, if_true]
    rw [← hl, check_lead, hc, ho, h2, hx, hw]
    by_cases h0 : x = 0
    · simp only [h0, if_true]
      by_cases hh : s.head? = some (lead y)
      · simp only [hh, if_true, drop_lead hh]; exact cellBody W y n 0 _ w
      · simp only [hh, if_false]
    · simp only [h0, if_false]; exact cellBody W y n x s w
  · have hl : leadS y = "|" := by simp [leadS, hy]
    have hc : "   |".toList = closedField y := by simp [closedField, hy]
    have ho : "    ".toList = openField y := by simp [openField, hy]
    have h2 : ErrorKind.two "   |" "    " = .two (closedS y) (openS y) := by simp [closedS, openS, hy]
    have hx : (x <<< 1) ||| 1 = (wallAt W y x).x := by simp [wallAt, hy, shl1_or1]
    have hw : ((W - (y >>> 1) - 1) <<< 1) = (wallAt W y x).y := by
      simp only [wallAt, hy, if_false, shl1, shr1]; omega
    conv_lhs => unfold rowLoop
    simp only [and1, hy, if_false]
    rw [← hl, check_lead, hc, ho, h2, hx, hw]
    by_cases h0 : x = 0
    · simp only [h0, if_true]
      by_cases hh : s.head? = some (lead y)
      · simp only [hh, if_true, drop_lead hh]; exact cellBody W y n 0 _ w
      · simp only [hh, if_false]
    · simp only [h0, if_false]; exact cellBody W y n x s w

theorem wallAt_valid {W y x : Nat} (hx : x < W) (hy : y < 2 * W) : Valid W (wallAt W y x) := by
  unfold wallAt Valid
  split <;> simp <;> omega

theorem wallAt_line {W y x : Nat} (hy : y < 2 * W) : lineOf W (wallAt W y x) = y := by
  unfold wallAt lineOf
  split <;> simp <;> omega

theorem wallAt_lineOf {W : Nat} {c : Coord} (hc : Valid W c) : wallAt W (lineOf W c) (c.x / 2) = c := by
  obtain ⟨h1, h2, h3⟩ := hc
  cases c with | mk x y =>
  unfold wallAt lineOf
  simp only at *
  split
  · split <;> simp <;> omega
  · split <;> simp <;> omega

theorem lineOf_lt {W : Nat} {c : Coord} (hc : Valid W c) : lineOf W c < 2 * W := by
  obtain ⟨h1, h2, h3⟩ := hc
  unfold lineOf; split <;> omega

theorem eq_wallAt_iff {W y x : Nat} (hy : y < 2 * W) {c : Coord} (hc : Valid W c) :
    c = wallAt W y x ↔ lineOf W c = y ∧ c.x / 2 = x := by
  constructor
  · rintro rfl
    refine ⟨wallAt_line hy, ?_⟩
    unfold wallAt; split <;> simp <;> omega
  · rintro ⟨rfl, rfl⟩; exact (wallAt_lineOf hc).symm

/-- `n + 1` fields from `s`. -/
theorem cell_eq {W y : Nat} (hW : Supported W) (hy : y < 2 * W) : ∀ (n x : Nat) (s : List Char) (w : Walls),
    x + n + 1 = W →
    (∃ w', cell W y n x s w = .ok (.ok w') ∧
      (∀ j ≤ n, (s.drop (4 * j)).take 4 = closedField y ∨ (s.drop (4 * j)).take 4 = openField y) ∧
      ∀ d, Valid W d → wallState W w' d = if lineOf W d = y ∧ x ≤ d.x / 2 then
        .ok (.checked (decide ((s.drop (4 * (d.x / 2 - x))).take 4 = closedField y)))
        else wallState W w d) ∨
    (∃ j ≤ n, cell W y n x s w =
        .ok (.error ⟨.two (closedS y) (openS y), y, (4 * (x + j) + 1, 4 * (x + j) + 5)⟩) ∧
      (∀ i < j, (s.drop (4 * i)).take 4 = closedField y ∨ (s.drop (4 * i)).take 4 = openField y) ∧
      (s.drop (4 * j)).take 4 ≠ closedField y ∧ (s.drop (4 * j)).take 4 ≠ openField y) := by
  intro n
  induction n with
  | zero =>
    intro x s w hx
    have hv := wallAt_valid (W := W) (y := y) (x := x) (by omega) hy
    by_cases hc : s.take 4 = closedField y ∨ s.take 4 = openField y
    · left
      obtain ⟨w', e, f⟩ := updateAt_eq hW (w := w) hv (.checked (decide (s.take 4 = closedField y)))
      refine ⟨w', ?_, fun j hj => ?_, fun d hd => ?_⟩
      · unfold cell
        rcases hc with hc | hc
        · simp only [hc, decide_true] at e
          rw [if_pos hc, e]; rfl
        · have : s.take 4 ≠ closedField y := by rw [hc]; exact (closed_ne_open y).symm
          simp only [this, decide_false] at e
          rw [if_neg this, if_pos hc, e]; rfl
      · have : j = 0 := by omega
        subst this; simpa using hc
      · rw [f d hd]
        have hlt : d.x / 2 < W := by have := hd.1; omega
        by_cases hd' : lineOf W d = y ∧ x ≤ d.x / 2
        · have hxe : d.x / 2 = x := by omega
          rw [if_pos ((eq_wallAt_iff hy hd).2 ⟨hd'.1, hxe⟩), if_pos hd', hxe]; simp
        · rw [if_neg hd', if_neg]
          intro h; have := (eq_wallAt_iff hy hd).1 h; exact hd' ⟨this.1, by omega⟩
    · right
      push Not at hc
      refine ⟨0, Nat.le_refl _, ?_, fun i hi => absurd hi (by omega), by simpa using hc.1, by simpa using hc.2⟩
      unfold cell; rw [if_neg hc.1, if_neg hc.2]; rfl
  | succ n ih =>
    intro x s w hx
    have hv := wallAt_valid (W := W) (y := y) (x := x) (by omega) hy
    by_cases hc : s.take 4 = closedField y ∨ s.take 4 = openField y
    · obtain ⟨w', e, f⟩ := updateAt_eq hW (w := w) hv (.checked (decide (s.take 4 = closedField y)))
      have hstep : cell W y (n + 1) x s w = cell W y n (x + 1) (s.drop 4) w' := by
        unfold cell
        rcases hc with hc | hc
        · simp only [hc, decide_true] at e
          rw [if_pos hc, e]
          show rowLoop W y (n + 1) (x + 1) (s.drop 4) w' = _
          rw [rowLoop_succ, if_neg (by omega)]; rfl
        · have : s.take 4 ≠ closedField y := by rw [hc]; exact (closed_ne_open y).symm
          simp only [this, decide_false] at e
          rw [if_neg this, if_pos hc, e]
          show rowLoop W y (n + 1) (x + 1) (s.drop 4) w' = _
          rw [rowLoop_succ, if_neg (by omega)]; rfl
      have hdd : ∀ j, (s.drop 4).drop (4 * j) = s.drop (4 * (j + 1)) := fun j => by
        rw [List.drop_drop]; congr 1; omega
      rcases ih (x + 1) (s.drop 4) w' (by omega) with ⟨w'', e', g', f'⟩ | ⟨j, hj, e', g', b⟩
      · left
        refine ⟨w'', by rw [hstep, e'], fun j hj => ?_, fun d hd => ?_⟩
        · rcases j with _ | j
          · simpa using hc
          · have := g' j (by omega); rwa [hdd] at this
        · rw [f' d hd, f d hd]
          by_cases h1 : lineOf W d = y
          · by_cases h2 : d.x / 2 = x
            · rw [if_neg (by omega), if_pos ((eq_wallAt_iff hy hd).2 ⟨h1, h2⟩), if_pos (by omega), h2]; simp
            · rw [if_congr (eq_wallAt_iff hy hd) rfl rfl, if_neg (c := _ ∧ d.x / 2 = x) (by omega)]
              by_cases h3 : x ≤ d.x / 2
              · rw [if_pos (by omega), if_pos (by omega), hdd, show d.x / 2 - (x + 1) + 1 = d.x / 2 - x by omega]
              · rw [if_neg (by omega), if_neg (by omega)]
          · rw [if_neg (by tauto), if_congr (eq_wallAt_iff hy hd) rfl rfl, if_neg (by tauto), if_neg (by tauto)]
      · right
        refine ⟨j + 1, by omega, by rw [hstep, e', show x + 1 + j = x + (j + 1) by omega], fun i hi => ?_, ?_, ?_⟩
        · rcases i with _ | i
          · simpa using hc
          · have := g' i (by omega); rwa [hdd] at this
        · rw [← hdd]; exact b.1
        · rw [← hdd]; exact b.2
    · right
      push Not at hc
      refine ⟨0, Nat.zero_le _, ?_, fun i hi => absurd hi (by omega), by simpa using hc.1, by simpa using hc.2⟩
      unfold cell; rw [if_neg hc.1, if_neg hc.2]; rfl

theorem field_drop (line : List Char) (x : Nat) : ((line.drop 1).drop (4 * x)).take 4 = field line x := by
  unfold field; rw [List.drop_drop, Nat.add_comm]

/-- The error of the first bad place of line `y`. -/
def FirstBad (W y : Nat) (line : List Char) (e : ParseError) : Prop :=
  e.line = y ∧
  ((line.head? ≠ some (lead y) ∧ e.range = (0, 1) ∧ e.kind = .one (leadS y)) ∨
   (line.head? = some (lead y) ∧ ∃ x < W, (∀ i < x, GoodField W y line i) ∧ ¬ GoodField W y line x ∧
      e.range = (4 * x + 1, 4 * x + 5) ∧
      e.kind = if y = 2 * W then .one (closedS y) else .two (closedS y) (openS y)))

theorem row_eq {W y : Nat} (hW : Supported W) (hy : y < 2 * W) (line : List Char) (w : Walls) :
    (∃ w', rowLoop W y W 0 line w = .ok (.ok w') ∧ GoodLine W y line ∧
      ∀ d, Valid W d → wallState W w' d = if lineOf W d = y then
        .ok (.checked (decide (field line (d.x / 2) = closedField y))) else wallState W w d) ∨
    (∃ e, rowLoop W y W 0 line w = .ok (.error e) ∧ FirstBad W y line e) := by
  have hp := hW.pos
  obtain ⟨n, rfl⟩ : ∃ n, W = n + 1 := ⟨W - 1, by omega⟩
  have hg : ∀ x, GoodField (n + 1) y line x ↔
      ((line.drop 1).drop (4 * x)).take 4 = closedField y ∨ ((line.drop 1).drop (4 * x)).take 4 = openField y := by
    intro x; rw [field_drop]; unfold GoodField
    have : y ≠ 2 * (n + 1) := by omega
    tauto
  rw [rowLoop_succ, if_pos rfl]
  by_cases hh : line.head? = some (lead y)
  · rw [if_pos hh]
    rcases cell_eq hW hy n 0 (line.drop 1) w (by omega) with ⟨w', e', g', f'⟩ | ⟨j, hj, e', g', b⟩
    · left
      refine ⟨w', e', ⟨hh, fun x hx => (hg x).2 (g' x (by omega))⟩, fun d hd => ?_⟩
      rw [f' d hd, Nat.sub_zero, field_drop]
      by_cases h : lineOf (n + 1) d = y
      · rw [if_pos ⟨h, Nat.zero_le _⟩, if_pos h]
      · rw [if_neg (by tauto), if_neg h]
    · right
      refine ⟨_, e', rfl, Or.inr ⟨hh, j, by omega, fun i hi => (hg i).2 (g' i hi), ?_, ?_, ?_⟩⟩
      · rw [hg]; tauto
      · simp
      · simp only; rw [if_neg (by omega)]
  · right
    rw [if_neg hh]
    exact ⟨_, rfl, rfl, Or.inl ⟨hh, rfl, rfl⟩⟩

theorem bottom_eq {W : Nat} : ∀ (n x : Nat) (s : List Char), x + n = W →
    (bottomLoop (2 * W) n x s = .ok (.ok ()) ∧ ∀ j < n, (s.drop (4 * j)).take 4 = closedField (2 * W)) ∨
    (∃ j < n, bottomLoop (2 * W) n x s =
        .ok (.error ⟨.one (closedS (2 * W)), 2 * W, (4 * (x + j) + 1, 4 * (x + j) + 5)⟩) ∧
      (∀ i < j, (s.drop (4 * i)).take 4 = closedField (2 * W)) ∧ (s.drop (4 * j)).take 4 ≠ closedField (2 * W)) := by
  intro n
  induction n with
  | zero => intro x s _; left; exact ⟨rfl, fun j hj => absurd hj (by omega)⟩
  | succ n ih =>
    intro x s hx
    have hS : ("---+" : String) = closedS (2 * W) := by simp [closedS]
    have hcheck : check s "---+" 4 (2 * W) (4 * x + 1) =
        if s.take 4 = closedField (2 * W) then .ok () else
          .error ⟨.one (closedS (2 * W)), 2 * W, (4 * x + 1, 4 * x + 5)⟩ := by
      unfold check; rw [hS, closedS_eq, if_congr (get_closed s _) rfl rfl]
    unfold bottomLoop
    rw [hcheck]
    have hdd : ∀ j, (s.drop 4).drop (4 * j) = s.drop (4 * (j + 1)) := fun j => by
      rw [List.drop_drop]; congr 1; omega
    by_cases hc : s.take 4 = closedField (2 * W)
    · simp only [if_pos hc, drop_closed hc, bind, Except.bind]
      rcases ih (x + 1) (s.drop 4) (by omega) with ⟨e, g⟩ | ⟨j, hj, e, g, b⟩
      · left
        refine ⟨e, fun j hj => ?_⟩
        rcases j with _ | j
        · simpa using hc
        · have := g j (by omega); rwa [hdd] at this
      · right
        refine ⟨j + 1, by omega, by rw [e, show x + 1 + j = x + (j + 1) by omega], fun i hi => ?_, ?_⟩
        · rcases i with _ | i
          · simpa using hc
          · have := g i (by omega); rwa [hdd] at this
        · rw [← hdd]; exact b
    · right
      refine ⟨0, by omega, ?_, fun i hi => absurd hi (by omega), by simpa using hc⟩
      simp only [if_neg hc]; rfl

/-- All the lines. -/
theorem lines_eq {W : Nat} (hW : Supported W) : ∀ (L : List (List Char)) (y : Nat) (w : Walls),
    y + L.length ≤ 2 * W + 1 →
    (∃ w', linesLoop W y L w = .ok (.ok w') ∧ (∀ i line, L[i]? = some line → GoodLine W (y + i) line) ∧
      ∀ d, Valid W d → wallState W w' d = if y ≤ lineOf W d ∧ lineOf W d < y + L.length then
        .ok (.checked (decide (field (L.getD (lineOf W d - y) []) (d.x / 2) = closedField (lineOf W d))))
        else wallState W w d) ∨
    (∃ e i line, linesLoop W y L w = .ok (.error e) ∧ L[i]? = some line ∧
      (∀ j line', j < i → L[j]? = some line' → GoodLine W (y + j) line') ∧ FirstBad W (y + i) line e) := by
  intro L
  induction L with
  | nil =>
    intro y w _
    left
    refine ⟨w, rfl, fun i line h => by simp at h, fun d _ => ?_⟩
    rw [if_neg (by simp)]
  | cons s L ih =>
    intro y w hy
    rw [List.length_cons] at hy
    by_cases hb : y = 2 * W
    · have hL : L = [] := by rw [← List.length_eq_zero_iff]; omega
      subst hL
      have hS : ("+" : String) = leadS (2 * W) := by simp [leadS]
      unfold linesLoop
      rw [if_pos hb]
      subst hb
      rw [hS, check_lead]
      by_cases hh : s.head? = some (lead (2 * W))
      · simp only [if_pos hh, drop_lead hh, bind, Except.bind]
        rcases bottom_eq (W := W) W 0 (s.drop 1) (by omega) with ⟨e, g⟩ | ⟨j, hj, e, g, b⟩
        · left
          refine ⟨w, by rw [e], fun i line h => ?_, fun d hd => ?_⟩
          · rcases i with _ | i
            · simp only [List.getElem?_cons_zero, Option.some.injEq] at h
              subst h
              exact ⟨hh, fun x hx => Or.inl (by rw [← field_drop]; exact g x hx)⟩
            · simp at h
          · have := lineOf_lt hd
            rw [if_neg (by omega)]
        · right
          refine ⟨_, 0, s, by rw [e], rfl, fun j _ h => absurd h (by omega), rfl, Or.inr
            ⟨hh, j, hj, fun i hi => Or.inl (by rw [← field_drop]; exact g i hi), ?_, ?_, ?_⟩⟩
          · rintro (h | h)
            · rw [← field_drop] at h; exact b h
            · exact h.1 rfl
          · simp
          · simp
      · right
        simp only [if_neg hh]
        exact ⟨_, 0, s, rfl, rfl, fun j _ h => absurd h (by omega), rfl, Or.inl ⟨hh, rfl, rfl⟩⟩
    · unfold linesLoop
      rw [if_neg hb]
      rcases row_eq hW (y := y) (by omega) s w with ⟨w1, e1, g1, f1⟩ | ⟨e, e1, b⟩
      · simp only [e1, bind, Except.bind]
        rcases ih (y + 1) w1 (by omega) with ⟨w2, e2, g2, f2⟩ | ⟨e, i, line, e2, h2, g2, b2⟩
        · left
          refine ⟨w2, e2, fun i line h => ?_, fun d hd => ?_⟩
          · rcases i with _ | i
            · simp only [List.getElem?_cons_zero, Option.some.injEq] at h; subst h; exact g1
            · have := g2 i line (by simpa using h)
              rwa [show y + 1 + i = y + (i + 1) by omega] at this
          · rw [f2 d hd, f1 d hd, List.length_cons]
            by_cases h0 : lineOf W d = y
            · rw [if_neg (by omega), if_pos h0, if_pos (by omega), h0]; simp
            · by_cases h3 : y + 1 ≤ lineOf W d ∧ lineOf W d < y + 1 + L.length
              · rw [if_pos h3, if_pos (by omega), show lineOf W d - y = (lineOf W d - (y + 1)) + 1 by omega]
                simp
              · rw [if_neg h3, if_neg h0, if_neg (by omega)]
        · right
          refine ⟨e, i + 1, line, e2, by simpa using h2, fun j line' hj h => ?_, ?_⟩
          · rcases j with _ | j
            · simp only [List.getElem?_cons_zero, Option.some.injEq] at h; subst h; exact g1
            · have := g2 j line' (by omega) (by simpa using h)
              rwa [show y + 1 + j = y + (j + 1) by omega] at this
          · rwa [show y + 1 + i = y + (i + 1) by omega] at b2
      · right
        simp only [e1, bind, Except.bind]
        exact ⟨e, 0, s, rfl, rfl, fun j _ h => absurd h (by omega), b⟩

end Verif.WallsP
