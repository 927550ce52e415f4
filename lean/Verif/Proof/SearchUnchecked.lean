import Verif.Proof.SearchBfs
/-! # `intermediate_coords` and `unchecked_walls` -/
namespace Verif.Grid
open Verif Verif.Search Verif.Spec Verif.Bfs

/-- Bound of the slot for any lattice point inside the grid. -/
theorem asIndex_lt' {W : Nat} {c : Coord} (hW : Supported W) (hx : c.x < 2 * W) (hy : c.y < 2 * W) :
    c.asIndex W < 2048 := by
  rw [asIndex_eq hW hx]
  have : c.y / 2 + 1 ≤ W := by omega
  have h4 : (c.y / 2 + 1) * (2 * W) ≤ W * (2 * W) := Nat.mul_le_mul_right _ this
  rw [Nat.add_mul] at h4
  have h5 : W * (2 * W) = 2 * W * W := by rw [Nat.mul_comm]
  have := sq_le hW
  omega

/-- Unit steps from `c`. -/
def steps (c : Coord) (dx dy : Int) (i n : Nat) : List Coord :=
  (List.range' i n).map fun j : Nat => ⟨((c.x : Int) + (j : Int) * dx).toNat, ((c.y : Int) + (j : Int) * dy).toNat⟩

theorem shift_unique {c d e : Coord} {dx dy : Int} {n : Nat} (h : Shift c dx dy n d)
    (h' : Shift c dx dy n e) : d = e := by
  cases d; cases e; unfold Shift at h h'; simp only [Coord.mk.injEq] at *; omega

theorem interLine_eq {W : Nat} {c other : Coord} {dx dy : Int} (hW : W ≤ 32)
    (hc : c.x < 2 * W ∧ c.y < 2 * W) (ho : other.x < 2 * W ∧ other.y < 2 * W) {N : Nat}
    (hdx : dx = -1 ∨ dx = 0 ∨ dx = 1) (hdy : dy = -1 ∨ dy = 0 ∨ dy = 1)
    (hdd : ¬ (dx = 0 ∧ dy = 0)) (hN : Shift c dx dy N other) :
    ∀ (f i : Nat) (acc : List Coord), i ≤ N → N < i + f → acc.length + (N - i) ≤ 2 * WIDTH →
    interLine W c other dx dy f i acc = .ok (acc ++ steps c dx dy i (N - i))
  | 0, i, acc, h1, h2, _ => by omega
  | f + 1, i, acc, h1, h2, hl => by
    unfold interLine
    rw [newRelative_eq hW (by omega) (by omega)]
    have hin : ∃ e, Shift c dx dy i e ∧ e.x < 2 * W ∧ e.y < 2 * W ∧
        e = ⟨((c.x : Int) + i * dx).toNat, ((c.y : Int) + i * dy).toNat⟩ := by
      refine ⟨_, ?_, ?_, ?_, rfl⟩ <;> unfold Shift at * <;> simp only <;>
        rcases hdx with rfl | rfl | rfl <;> rcases hdy with rfl | rfl | rfl <;> omega
    obtain ⟨e, he, he1, he2, he3⟩ := hin
    rw [rel_shift.2 ⟨he, he1, he2⟩]
    simp only
    by_cases hiN : i = N
    · subst hiN
      have := shift_unique he hN
      simp [this, steps]
    · have hne : e ≠ other := by
        rintro rfl
        unfold Shift at *
        rcases hdx with rfl | rfl | rfl <;> rcases hdy with rfl | rfl | rfl <;> omega
      rw [if_pos hne]
      have : pushCap (2 * WIDTH) acc e = .ok (acc ++ [e]) := by
        unfold pushCap; rw [if_pos (by omega)]
      rw [this]
      simp only [bind, Except.bind]
      rw [interLine_eq hW hc ho hdx hdy hdd hN f (i + 1) _ (by omega) (by omega) (by simp; omega)]
      have : N - i = (N - (i + 1)) + 1 := by omega
      rw [this]
      simp only [steps, List.range'_succ, List.map_cons, he3, List.append_assoc, List.cons_append,
        List.nil_append]

theorem asI8_small {n : Nat} (h : n < 128) : asI8 n = n := by
  unfold asI8; rw [if_pos (by omega)]; congr 1; omega

/-- Unit direction of a run direction, and number of unit steps per step. -/
theorem run_unit {W : Nat} {free : Coord → Prop} {a b : Coord} (ha : Valid W a) (hr : Run W free a b) :
    ∃ (ux uy : Int) (N : Nat), (ux = -1 ∨ ux = 0 ∨ ux = 1) ∧ (uy = -1 ∨ uy = 0 ∨ uy = 1) ∧
      ((ux ≠ 0 ∧ uy ≠ 0) ∨ (a.y % 2 = 1 ∧ b.y % 2 = 1 ∧ ux = 0 ∧ uy ≠ 0 ∧ N % 2 = 0) ∨
        (a.y % 2 = 0 ∧ b.y % 2 = 0 ∧ ux ≠ 0 ∧ uy = 0 ∧ N % 2 = 0)) ∧ 1 ≤ N ∧ Shift a ux uy N b := by
  obtain ⟨dx, dy, hd, n, hn, hs, -⟩ := hr
  unfold Shift at *
  rcases StepDir.cases hd with h | h | h | h | h | h | h | h
  · exact ⟨1, 1, n, by omega, by omega, by omega, hn, by simp only [h] at hs; omega⟩
  · exact ⟨-1, -1, n, by omega, by omega, by omega, hn, by simp only [h] at hs; omega⟩
  · exact ⟨-1, 1, n, by omega, by omega, by omega, hn, by simp only [h] at hs; omega⟩
  · exact ⟨1, -1, n, by omega, by omega, by omega, hn, by simp only [h] at hs; omega⟩
  · simp only [h] at hs
    exact ⟨0, 1, 2 * n, by omega, by omega, by omega, by omega, by push_cast; omega⟩
  · simp only [h] at hs
    exact ⟨0, -1, 2 * n, by omega, by omega, by omega, by omega, by push_cast; omega⟩
  · simp only [h] at hs
    exact ⟨1, 0, 2 * n, by omega, by omega, by omega, by omega, by push_cast; omega⟩
  · simp only [h] at hs
    exact ⟨-1, 0, 2 * n, by omega, by omega, by omega, by omega, by push_cast; omega⟩

theorem segPoint_unit {a b x : Coord} {ux uy : Int} {N : Nat}
    (hux : ux = -1 ∨ ux = 0 ∨ ux = 1) (huy : uy = -1 ∨ uy = 0 ∨ uy = 1) (hu : ¬ (ux = 0 ∧ uy = 0))
    (hN1 : 1 ≤ N) (hN : Shift a ux uy N b) :
    SegPoint a b x ↔ ∃ j, 1 ≤ j ∧ j ≤ N ∧ Shift a ux uy j x := by
  constructor
  · rintro ⟨vx, vy, M, j, h1, h2, h3, h4, h5, h6⟩
    unfold Shift at *
    have : vx = ux ∧ vy = uy ∧ M = N := by
      rcases hux with rfl | rfl | rfl <;> rcases huy with rfl | rfl | rfl <;>
      rcases h1 with rfl | rfl | rfl <;> rcases h2 with rfl | rfl | rfl <;> omega
    obtain ⟨rfl, rfl, rfl⟩ := this
    exact ⟨j, h4, h5, h6⟩
  · rintro ⟨j, h1, h2, h3⟩
    exact ⟨ux, uy, N, j, hux, huy, hN, h1, h2, h3⟩

/-- `intermediate_coords` from the end `b` of a run back to its start `a` lists exactly the lattice
points of the segment. -/
theorem intermediate_eq {W : Nat} {free : Coord → Prop} {a b : Coord} (hW : W ≤ 32) (ha : Valid W a)
    (hb : Valid W b) (hr : Run W free a b) :
    ∃ l, b.intermediateCoords W a = .ok l ∧ (∀ x, x ∈ l ↔ SegPoint a b x) ∧
      ∀ x ∈ l, x.x < 2 * W ∧ x.y < 2 * W := by
  obtain ⟨ux, uy, N, hux, huy, hcase, hN1, hN⟩ := run_unit ha hr
  obtain ⟨a1, a2, a3⟩ := ha
  obtain ⟨b1, b2, b3⟩ := hb
  have hback : Shift b (-ux) (-uy) N a := by
    unfold Shift at *
    rcases hux with rfl | rfl | rfl <;> rcases huy with rfl | rfl | rfl <;> omega
  have hNle : N ≤ 63 := by
    unfold Shift at *
    rcases hux with rfl | rfl | rfl <;> rcases huy with rfl | rfl | rfl <;> omega
  have hwd : 2 * WIDTH = 64 := rfl
  have hline : interLine W b a (-ux) (-uy) 127 1 [b] = .ok (steps b (-ux) (-uy) 0 N) := by
    rw [interLine_eq hW ⟨b1, b2⟩ ⟨a1, a2⟩ (by omega) (by omega) (by omega) hback 127 1 [b] hN1
      (by omega) (by simp; omega)]
    have : N = (N - 1) + 1 := by omega
    conv_rhs => rw [this]
    simp [steps, List.range'_succ]
  have hmem : ∀ x, x ∈ steps b (-ux) (-uy) 0 N ↔
      SegPoint a b x ∧ x.x < 2 * W ∧ x.y < 2 * W := by
    intro x
    rw [segPoint_unit hux huy (by omega) hN1 hN]
    unfold steps
    simp only [List.mem_map, List.mem_range'_1]
    constructor
    · rintro ⟨j, hj, rfl⟩
      unfold Shift at *
      simp only
      refine ⟨⟨N - j, by omega, by omega, ?_⟩, ?_⟩ <;>
      rcases hux with rfl | rfl | rfl <;> rcases huy with rfl | rfl | rfl <;> omega
    · rintro ⟨⟨j, h1, h2, h3⟩, -⟩
      refine ⟨N - j, by omega, ?_⟩
      unfold Shift at *
      cases x
      simp only [Coord.mk.injEq] at *
      rcases hux with rfl | rfl | rfl <;> rcases huy with rfl | rfl | rfl <;> omega
  have hin : ∀ x, SegPoint a b x → x.x < 2 * W ∧ x.y < 2 * W := by
    intro x hx
    rw [segPoint_unit hux huy (by omega) hN1 hN] at hx
    obtain ⟨j, h1, h2, h3⟩ := hx
    unfold Shift at *
    rcases hux with rfl | rfl | rfl <;> rcases huy with rfl | rfl | rfl <;> omega
  refine ⟨steps b (-ux) (-uy) 0 N, ?_, ?_, fun x hx => ((hmem x).1 hx).2⟩
  · unfold Coord.intermediateCoords
    have hpc : pushCap (2 * WIDTH) [] b = .ok [b] := by simp [pushCap, WIDTH]
    rw [hpc, asI8_small (by omega), asI8_small (by omega), asI8_small (by omega),
      asI8_small (by omega)]
    simp only [bind, Except.bind]
    have hT : b.isTop = true ↔ b.y % 2 = 1 := isTop_iff
    have hT' : (!b.isTop) = true ↔ b.y % 2 = 0 := by
      rw [Bool.not_eq_true', ← Bool.not_eq_true, hT]; omega
    simp only [hT, hT']
    unfold Shift at hN
    rcases hux with h | h | h <;> rcases huy with h' | h' | h' <;> subst h <;> subst h' <;>
      try simp only [Int.neg_neg, Int.neg_zero] at hline
    · rw [if_pos (by omega)]; exact hline
    · rw [if_neg (by omega), if_neg (by omega), if_neg (by omega), if_neg (by omega),
        if_pos (by omega)]; exact hline
    · rw [if_neg (by omega), if_neg (by omega), if_neg (by omega), if_pos (by omega)]; exact hline
    · rw [if_neg (by omega), if_neg (by omega), if_neg (by omega), if_neg (by omega),
        if_neg (by omega), if_neg (by omega), if_pos (by omega)]; exact hline
    · omega
    · rw [if_neg (by omega), if_neg (by omega), if_neg (by omega), if_neg (by omega),
        if_neg (by omega), if_neg (by omega), if_neg (by omega), if_pos (by omega)]; exact hline
    · rw [if_neg (by omega), if_neg (by omega), if_pos (by omega)]; exact hline
    · rw [if_neg (by omega), if_neg (by omega), if_neg (by omega), if_neg (by omega),
        if_neg (by omega), if_pos (by omega)]; exact hline
    · rw [if_neg (by omega), if_pos (by omega)]; exact hline
  · intro x; rw [hmem]; exact ⟨fun h => h.1, fun h => ⟨h, hin x h⟩⟩

theorem markUnchecked_eq {W : Nat} (hW : Supported W) {ws : Coord → WallState} :
    ∀ (l : List Coord) (f : Filter) (flag : Bool), (∀ x ∈ l, x.x < 2 * W ∧ x.y < 2 * W) →
    ∃ f' flag', markUnchecked W ws l (f, flag) = .ok (f', flag') ∧
      (flag' = true ↔ flag = true ∨ ∃ x ∈ l, ws x = .unchecked) ∧
      ∀ i, fbit f' i = true ↔ fbit f i = true ∨ ∃ x ∈ l, ws x = .unchecked ∧ x.asIndex W = i
  | [], f, flag, _ => ⟨f, flag, rfl, by simp, by simp⟩
  | x :: l, f, flag, h => by
    unfold markUnchecked
    by_cases hx : ws x = .unchecked
    · obtain ⟨f1, h1, h2⟩ := set_eq (f := f)
        (asIndex_lt' hW (h x (by simp)).1 (h x (by simp)).2)
      simp only [hx, if_true, h1, bind, Except.bind]
      obtain ⟨f', flag', h3, h4, h5⟩ := markUnchecked_eq hW l f1 true (fun y hy => h y (by simp [hy]))
      refine ⟨f', flag', h3, ?_, ?_⟩
      · rw [h4]; simp [hx]
      · intro i
        rw [h5, h2]
        simp only [Bool.or_eq_true, decide_eq_true_eq, List.mem_cons, exists_eq_or_imp, hx, true_and]
        constructor
        · rintro ((h | h) | h)
          · right; left; exact h.symm
          · left; exact h
          · right; right; exact h
        · rintro (h | h | h)
          · left; right; exact h
          · left; left; exact h.symm
          · right; exact h
    · simp only [hx, if_false]
      obtain ⟨f', flag', h3, h4, h5⟩ := markUnchecked_eq hW l f flag (fun y hy => h y (by simp [hy]))
      refine ⟨f', flag', h3, ?_, ?_⟩
      · rw [h4]; simp [hx]
      · intro i; rw [h5]; simp [hx]

theorem passedBy_snoc : ∀ {l : List Coord} {u v x : Coord}, l.getLast? = some u →
    (PassedBy (l ++ [v]) x ↔ PassedBy l x ∨ SegPoint u v x)
  | [a], u, v, x, h => by simp at h; subst h; simp [PassedBy]
  | a :: b :: l, u, v, x, h => by
    have := @passedBy_snoc (b :: l) u v x (by simpa using h)
    simp only [List.cons_append] at this ⊢
    simp only [PassedBy, this, or_assoc]
  | [], u, v, x, h => by simp at h

theorem walk_snoc_inv {adj : Coord → List Coord} {s : Coord} {p : List Coord} {v w : Coord}
    (hp : p ≠ []) (h : Walk adj s w (p ++ [v])) :
    ∃ u, Walk adj s u p ∧ v ∈ adj u ∧ w = v ∧ p.getLast? = some u := by
  generalize hq : p ++ [v] = q at h
  cases h with
  | nil =>
    cases p with
    | nil => exact absurd rfl hp
    | cons a p => simp at hq
  | @snoc u v' p' h1 h2 =>
    have := List.append_inj' hq rfl
    obtain ⟨rfl, h3⟩ := this
    simp at h3; subst h3
    exact ⟨u, h1, h2, rfl, h1.getLast⟩

theorem uncheckedLoop_eq {W : Nat} (hW : Supported W) {ws : Coord → WallState}
    {prev : Nat → Option Coord} {s : Coord} {free : Coord → Bool} (hs : Valid W s) :
    ∀ {v p}, PrevPath W prev s v p → v ≠ s → ∀ {w}, Walk (adj W free) s w p →
    ∀ (n : Nat) (f : Filter) (flag : Bool), p.length ≤ n →
    ∃ f' flag', uncheckedLoop W s ws prev n v (f, flag) = .ok (f', flag') ∧
      (flag' = true ↔ flag = true ∨ ∃ x, PassedBy p x ∧ ws x = .unchecked) ∧
      ∀ i, fbit f' i = true ↔ fbit f i = true ∨
        ∃ x, PassedBy p x ∧ ws x = .unchecked ∧ x.asIndex W = i := by
  intro v p h
  induction h with
  | base h => intro hne; exact absurd rfl hne
  | @step u v p h hne h' ih =>
    intro _ w hw n f flag hn
    have hpne : p ≠ [] := by rintro rfl; have := h'.last; simp at this
    obtain ⟨u', hwu, hmem, rfl, hlast⟩ := walk_snoc_inv hpne hw
    have : u = u' := by have := h'.last; rw [hlast] at this; simpa using this.symm
    subst this
    have huv := walk_valid hW.le hs hwu
    have hvv := (adj_valid hW.le huv hmem).1
    have hi := asIndex_lt_que hW hvv
    cases n with
    | zero => simp at hn
    | succ n =>
      obtain ⟨l, hl1, hl2, hl3⟩ := intermediate_eq hW.le huv hvv ((mem_adj hW.le huv).1 hmem)
      obtain ⟨f1, flag1, h1, h2, h3⟩ := markUnchecked_eq hW (ws := ws) l f flag hl3
      unfold uncheckedLoop
      simp only [arrGet, hi, if_true, h, bind, Except.bind, hl1, h1]
      by_cases hus : u = s
      · subst hus
        simp only [if_true]
        have hp1 : p = [u] := h'.unique (by
          cases h' with
          | base h => exact .base h
          | step _ hne _ => exact absurd rfl hne)
        subst hp1
        refine ⟨f1, flag1, rfl, ?_, ?_⟩
        · rw [h2]; simp [PassedBy, hl2]
        · intro i; rw [h3]; simp [PassedBy, hl2]
      · simp only [hus, if_false]
        obtain ⟨f2, flag2, h4, h5, h6⟩ := ih hus hwu n f1 flag1 (by simp at hn; omega)
        refine ⟨f2, flag2, h4, ?_, ?_⟩
        · rw [h5, h2]
          simp only [passedBy_snoc hlast, hl2]
          constructor
          · rintro ((h | ⟨x, hx, hx'⟩) | ⟨x, hx, hx'⟩)
            · exact .inl h
            · exact .inr ⟨x, .inr hx, hx'⟩
            · exact .inr ⟨x, .inl hx, hx'⟩
          · rintro (h | ⟨x, hx | hx, hx'⟩)
            · exact .inl (.inl h)
            · exact .inr ⟨x, hx, hx'⟩
            · exact .inl (.inr ⟨x, hx, hx'⟩)
        · intro i
          rw [h6, h3]
          simp only [passedBy_snoc hlast, hl2]
          constructor
          · rintro ((h | ⟨x, hx, hx'⟩) | ⟨x, hx, hx'⟩)
            · exact .inl h
            · exact .inr ⟨x, .inr hx, hx'⟩
            · exact .inr ⟨x, .inl hx, hx'⟩
          · rintro (h | ⟨x, hx | hx, hx'⟩)
            · exact .inl (.inl h)
            · exact .inr ⟨x, hx, hx'⟩
            · exact .inl (.inr ⟨x, hx, hx'⟩)

/-- `unchecked_walls` on the predecessor table of a found path. -/
theorem uncheckedWalls_eq {W : Nat} (hW : Supported W) {ws : Coord → WallState}
    {prev : Nat → Option Coord} {s v : Coord} {goalF : Filter} {free : Coord → Bool}
    {p : List Coord} (hs : Valid W s) (hp : PrevPath W prev s v p) (hne : v ≠ s) {w : Coord}
    (hw : Walk (adj W free) s w p) :
    (Searcher.uncheckedWalls W ⟨s, goalF⟩ ws prev v = .ok none ∧
      ∀ x, PassedBy p x → ws x ≠ .unchecked) ∨
    ∃ f, Searcher.uncheckedWalls W ⟨s, goalF⟩ ws prev v = .ok (some f) ∧
      (∃ x, PassedBy p x ∧ ws x = .unchecked) ∧
      ∀ i, fbit f i = true ↔ ∃ x, PassedBy p x ∧ ws x = .unchecked ∧ x.asIndex W = i := by
  have hval := walk_all_valid hW.le hs hw
  have hlen : p.length ≤ 2048 :=
    Nat.le_trans (valid_length_le hW hp.nodup hval) (sq_le hW)
  have hq : QUE_MAX = 2048 := rfl
  obtain ⟨f, flag, h1, h2, h3⟩ := uncheckedLoop_eq hW (ws := ws) hs hp hne hw (QUE_MAX + 1)
    Filter.new false (by omega)
  unfold Searcher.uncheckedWalls
  rw [h1]
  simp only [bind, Except.bind, pure, Except.pure]
  cases flag with
  | false =>
    left
    refine ⟨rfl, ?_⟩
    intro x hx hu
    have := h2.2 (.inr ⟨x, hx, hu⟩)
    simp at this
  | true =>
    right
    refine ⟨f, rfl, ?_, ?_⟩
    · simpa using h2.1 rfl
    · intro i; rw [h3]; simp [fbit, Filter.new]

end Verif.Grid
