import Verif.Proof.Grid
import Verif.Proof.Bfs
import Mathlib.Tactic.Ring
/-! # Neighbour lists of `search.rs` against the grid specification -/
namespace Verif.Grid
open Verif Verif.Search Verif.Spec

def dirLine (W : Nat) (free : Coord → Bool) (c : Coord) (dx dy : Int) : List Coord :=
  line W free c dx dy 127 1

/-- Both directions of one kind. -/
def lineK (W : Nat) (free : Coord → Bool) (c : Coord) : Kind → List Coord
  | .bottomLeftToTopRight => dirLine W free c 1 1 ++ dirLine W free c (-1) (-1)
  | .topLeftToBottomRight => dirLine W free c (-1) 1 ++ dirLine W free c 1 (-1)
  | .verticalOrHorizontal =>
    if c.isTop then dirLine W free c 0 2 ++ dirLine W free c 0 (-2)
    else dirLine W free c 2 0 ++ dirLine W free c (-2) 0

/-- All extended neighbours, in the order of the code. -/
def adj (W : Nat) (free : Coord → Bool) (c : Coord) : List Coord :=
  lineK W free c .bottomLeftToTopRight ++ lineK W free c .topLeftToBottomRight ++
    lineK W free c .verticalOrHorizontal

def adjEx (W : Nat) (free : Coord → Bool) (c : Coord) (ex : Kind → Bool) : List (Coord × Kind) :=
  let part := fun k => if ex k then [] else (lineK W free c k).map (fun d => (d, k))
  part .bottomLeftToTopRight ++ part .topLeftToBottomRight ++ part .verticalOrHorizontal

theorem isTop_iff {c : Coord} : c.isTop = true ↔ c.y % 2 = 1 := by
  simp [Coord.isTop, Nat.and_one_is_mod]

theorem scan_one {W : Nat} {c : Coord} {free : Coord → Bool} {dx dy : Int} {kind : Kind} {e : Bool}
    {acc : List (Coord × Kind)} (hW : W ≤ 32) (hx : c.x < 2 * W) (hy : c.y < 2 * W) (m : Nat)
    (h1 : 1 ≤ m) (hm : rel W c (dx * m) (dy * m) = none) (h2 : m < 127)
    (hl : acc.length + (m - 1) ≤ 6 * WIDTH) :
    scanLine W c free e dx dy kind 127 1 acc =
      .ok (acc ++ if e then [] else (dirLine W free c dx dy).map (fun d => (d, kind))) := by
  cases e with
  | true => simp [scanLine]
  | false =>
    rw [scanLine_eq hW (by omega) (by omega) 127 1 acc m h1 (by omega) hm hl]
    simp [dirLine]

theorem dirLine_length_le {W : Nat} {c : Coord} {free : Coord → Bool} {dx dy : Int} {m : Nat} (h1 : 1 ≤ m)
    (hm : rel W c (dx * m) (dy * m) = none) : (dirLine W free c dx dy).length ≤ m - 1 :=
  line_length_le h1 hm

theorem rel_none {W : Nat} {c : Coord} {dx dy : Int}
    (h : ¬ (0 ≤ (c.x : Int) + dx ∧ (c.x : Int) + dx < 2 * W ∧ 0 ≤ (c.y : Int) + dy ∧
      (c.y : Int) + dy < 2 * W)) : rel W c dx dy = none := by
  unfold rel; exact if_neg h

theorem extendedNeighbors_eq {W : Nat} {c : Coord} (hW : W ≤ 32) (hc : c.x < 2 * W ∧ c.y < 2 * W)
    (free : Coord → Bool) (ex : Kind → Bool) :
    c.extendedNeighbors W free ex = .ok (adjEx W free c ex) := by
  obtain ⟨hx, hy⟩ := hc
  have n1 : rel W c (1 * (2 * W - c.x : Nat)) (1 * (2 * W - c.x : Nat)) = none := rel_none (by omega)
  have n2 : rel W c (-1 * (c.x + 1 : Nat)) (-1 * (c.x + 1 : Nat)) = none := rel_none (by omega)
  have n3 : rel W c (-1 * (c.x + 1 : Nat)) (1 * (c.x + 1 : Nat)) = none := rel_none (by omega)
  have n4 : rel W c (1 * (2 * W - c.x : Nat)) (-1 * (2 * W - c.x : Nat)) = none :=
    rel_none (by omega)
  have n5 : rel W c (0 * ((2 * W - c.y + 1) / 2 : Nat)) (2 * ((2 * W - c.y + 1) / 2 : Nat)) = none :=
    rel_none (by omega)
  have n6 : rel W c (0 * (c.y / 2 + 1 : Nat)) (-2 * (c.y / 2 + 1 : Nat)) = none :=
    rel_none (by omega)
  have n7 : rel W c (2 * ((2 * W - c.x + 1) / 2 : Nat)) (0 * ((2 * W - c.x + 1) / 2 : Nat)) = none :=
    rel_none (by omega)
  have n8 : rel W c (-2 * (c.x / 2 + 1 : Nat)) (0 * (c.x / 2 + 1 : Nat)) = none :=
    rel_none (by omega)
  have l1 := dirLine_length_le (free := free) (by omega) n1
  have l2 := dirLine_length_le (free := free) (by omega) n2
  have l3 := dirLine_length_le (free := free) (by omega) n3
  have l4 := dirLine_length_le (free := free) (by omega) n4
  have l5 := dirLine_length_le (free := free) (by omega) n5
  have l6 := dirLine_length_le (free := free) (by omega) n6
  have l7 := dirLine_length_le (free := free) (by omega) n7
  have l8 := dirLine_length_le (free := free) (by omega) n8
  have hwd : 6 * WIDTH = 192 := rfl
  have ite_len : ∀ (b : Bool) (l : List (Coord × Kind)),
      (if b then [] else l).length ≤ l.length := by intro b l; cases b <;> simp
  have i1 := ite_len (ex .bottomLeftToTopRight)
    ((dirLine W free c 1 1).map (fun d => (d, Kind.bottomLeftToTopRight)))
  have i2 := ite_len (ex .bottomLeftToTopRight)
    ((dirLine W free c (-1) (-1)).map (fun d => (d, Kind.bottomLeftToTopRight)))
  have i3 := ite_len (ex .topLeftToBottomRight)
    ((dirLine W free c (-1) 1).map (fun d => (d, Kind.topLeftToBottomRight)))
  have i4 := ite_len (ex .topLeftToBottomRight)
    ((dirLine W free c 1 (-1)).map (fun d => (d, Kind.topLeftToBottomRight)))
  have i5 := ite_len (ex .verticalOrHorizontal)
    ((dirLine W free c 0 2).map (fun d => (d, Kind.verticalOrHorizontal)))
  have i7 := ite_len (ex .verticalOrHorizontal)
    ((dirLine W free c 2 0).map (fun d => (d, Kind.verticalOrHorizontal)))
  rw [List.length_map] at i1 i2 i3 i4 i5 i7
  unfold Coord.extendedNeighbors
  simp only [bind, Except.bind]
  rw [scan_one hW hx hy _ (by omega) n1 (by omega) (by simp only [List.length_nil]; omega)]
  simp only
  rw [scan_one hW hx hy _ (by omega) n2 (by omega)
    (by simp only [List.length_append, List.length_nil]; omega)]
  simp only
  rw [scan_one hW hx hy _ (by omega) n3 (by omega)
    (by simp only [List.length_append, List.length_nil]; omega)]
  simp only
  rw [scan_one hW hx hy _ (by omega) n4 (by omega)
    (by simp only [List.length_append, List.length_nil]; omega)]
  simp only
  by_cases ht : c.isTop = true
  · simp only [ht, if_true]
    rw [scan_one hW hx hy _ (by omega) n5 (by omega)
      (by simp only [List.length_append, List.length_nil]; omega)]
    simp only
    rw [scan_one hW hx hy _ (by omega) n6 (by omega)
      (by simp only [List.length_append, List.length_nil]; omega)]
    unfold adjEx lineK
    simp only [ht, if_true]
    cases ex .bottomLeftToTopRight <;> cases ex .topLeftToBottomRight <;>
      cases ex .verticalOrHorizontal <;> simp
  · simp only [ht]
    rw [if_neg (by simp), scan_one hW hx hy _ (by omega) n7 (by omega)
      (by simp only [List.length_append, List.length_nil]; omega)]
    simp only
    rw [scan_one hW hx hy _ (by omega) n8 (by omega)
      (by simp only [List.length_append, List.length_nil]; omega)]
    unfold adjEx lineK
    simp only [ht]
    cases ex .bottomLeftToTopRight <;> cases ex .topLeftToBottomRight <;>
      cases ex .verticalOrHorizontal <;> simp

/-! ## Lines -/

theorem rel_shift {W : Nat} {c d : Coord} {dx dy : Int} {n : Nat} :
    rel W c (dx * n) (dy * n) = some d ↔ Shift c dx dy n d ∧ d.x < 2 * W ∧ d.y < 2 * W := by
  rw [rel_some, Shift, Int.mul_comm dx, Int.mul_comm dy]; tauto

/-- Directions, as a finite list of cases. -/
theorem StepDir.cases {c : Coord} {dx dy : Int} (h : StepDir c dx dy) :
    (dx = 1 ∧ dy = 1) ∨ (dx = -1 ∧ dy = -1) ∨ (dx = -1 ∧ dy = 1) ∨ (dx = 1 ∧ dy = -1) ∨
    (c.y % 2 = 1 ∧ dx = 0 ∧ dy = 2) ∨ (c.y % 2 = 1 ∧ dx = 0 ∧ dy = -2) ∨
    (c.y % 2 = 0 ∧ dx = 2 ∧ dy = 0) ∨ (c.y % 2 = 0 ∧ dx = -2 ∧ dy = 0) := by
  unfold StepDir at h
  rcases h with ⟨h1 | h1, h2 | h2⟩ | ⟨h0, h1, h2 | h2⟩ | ⟨h0, h1 | h1, h2⟩ <;> simp [*]

theorem Shift.parity {c d : Coord} {dx dy : Int} {n : Nat} (hd : StepDir c dx dy)
    (h : Shift c dx dy n d) : (d.x + d.y) % 2 = (c.x + c.y) % 2 := by
  unfold Shift at h
  rcases StepDir.cases hd with h' | h' | h' | h' | h' | h' | h' | h' <;>
    simp only [h'] at h <;> omega

theorem mem_dirLine {W : Nat} {c d : Coord} {free : Coord → Bool} {dx dy : Int} (hW : W ≤ 32)
    (hc : Valid W c) (hd : StepDir c dx dy) :
    d ∈ dirLine W free c dx dy ↔ OnLine W (fun c => free c = true) c dx dy d := by
  unfold dirLine
  rw [mem_line]
  constructor
  · rintro ⟨j, hj, h1, h2⟩
    refine ⟨1 + j, by omega, (rel_shift.1 h1).1, ?_⟩
    intro i hi1 hi2
    obtain ⟨e, he, hf⟩ := h2 (i - 1) (by omega)
    rw [show 1 + (i - 1) = i by omega] at he
    have he' := rel_shift.1 he
    exact ⟨e, he'.1, ⟨he'.2.1, he'.2.2, by rw [Shift.parity hd he'.1]; exact hc.2.2⟩, hf⟩
  · rintro ⟨n, hn, h1, h2⟩
    obtain ⟨e, he1, he2, he3⟩ := h2 n hn (by omega)
    have heq : e = d := by
      cases e; cases d; unfold Shift at h1 he1; simp only [Coord.mk.injEq] at *; omega
    subst heq
    refine ⟨n - 1, ?_, ?_, ?_⟩
    · unfold Shift at h1
      obtain ⟨c1, c2, c3⟩ := hc
      obtain ⟨e1, e2, e3⟩ := he2
      rcases StepDir.cases hd with h' | h' | h' | h' | h' | h' | h' | h' <;>
        simp only [h'] at h1 <;> omega
    · rw [show 1 + (n - 1) = n by omega]
      exact rel_shift.2 ⟨h1, he2.1, he2.2.1⟩
    · intro k hk
      obtain ⟨g, hg1, hg2, hg3⟩ := h2 (1 + k) (by omega) (by omega)
      exact ⟨g, rel_shift.2 ⟨hg1, hg2.1, hg2.2.1⟩, hg3⟩

/-- Direction pair of a kind. -/
def kindDir (c : Coord) : Kind → Int × Int
  | .bottomLeftToTopRight => (1, 1)
  | .topLeftToBottomRight => (-1, 1)
  | .verticalOrHorizontal => if c.y % 2 = 1 then (0, 2) else (2, 0)

theorem StepDir_kindDir (c : Coord) (k : Kind) :
    StepDir c (kindDir c k).1 (kindDir c k).2 ∧ StepDir c (-(kindDir c k).1) (-(kindDir c k).2) := by
  unfold StepDir kindDir
  cases k with
  | bottomLeftToTopRight => simp
  | topLeftToBottomRight => simp
  | verticalOrHorizontal =>
    by_cases h : c.y % 2 = 1
    · simp [h]
    · have : c.y % 2 = 0 := by omega
      simp [this]

theorem mem_lineK {W : Nat} {c d : Coord} {free : Coord → Bool} (hW : W ≤ 32) (hc : Valid W c) (k : Kind) :
    d ∈ lineK W free c k ↔
      OnLine W (fun c => free c = true) c (kindDir c k).1 (kindDir c k).2 d ∨
      OnLine W (fun c => free c = true) c (-(kindDir c k).1) (-(kindDir c k).2) d := by
  have h1 := mem_dirLine (free := free) (d := d) hW hc (StepDir_kindDir c k).1
  have h2 := mem_dirLine (free := free) (d := d) hW hc (StepDir_kindDir c k).2
  rw [← h1, ← h2]
  unfold lineK kindDir
  cases k with
  | bottomLeftToTopRight => simp
  | topLeftToBottomRight => simp
  | verticalOrHorizontal =>
    by_cases ht : c.y % 2 = 1
    · simp [isTop_iff.2 ht, ht]
    · have : c.isTop = false := by
        by_contra h; exact ht (isTop_iff.1 (by simpa using h))
      simp only [this, ht]; simp

theorem mem_adj {W : Nat} {c d : Coord} {free : Coord → Bool} (hW : W ≤ 32) (hc : Valid W c) :
    d ∈ adj W free c ↔ Run W (fun c => free c = true) c d := by
  unfold adj Run
  simp only [List.mem_append, mem_lineK hW hc]
  constructor
  · rintro (((h | h) | (h | h)) | (h | h))
    all_goals
      refine ⟨_, _, ?_, h⟩
      first | exact (StepDir_kindDir c _).1 | exact (StepDir_kindDir c _).2
  · rintro ⟨dx, dy, hd, h⟩
    rcases StepDir.cases hd with h' | h' | h' | h' | h' | h' | h' | h'
    · left; left; left; simpa [kindDir, h'] using h
    · left; left; right; simpa [kindDir, h'] using h
    · left; right; left; simpa [kindDir, h'] using h
    · left; right; right; simpa [kindDir, h'] using h
    · right; left; simpa [kindDir, h'] using h
    · right; right; simpa [kindDir, h'] using h
    · right; left; simpa [kindDir, h'] using h
    · right; right; simpa [kindDir, h'] using h

theorem OnLine.valid {W free dx dy} {c d : Coord} (h : OnLine W free c dx dy d) :
    Valid W d ∧ free d := by
  obtain ⟨n, hn, h1, h2⟩ := h
  obtain ⟨e, he1, he2, he3⟩ := h2 n hn (by omega)
  have heq : e = d := by
    cases e; cases d; unfold Shift at h1 he1; simp only [Coord.mk.injEq] at *; omega
  subst heq; exact ⟨he2, he3⟩

theorem adj_valid {W : Nat} {c d : Coord} {free : Coord → Bool} (hW : W ≤ 32) (hc : Valid W c)
    (h : d ∈ adj W free c) : Valid W d ∧ free d = true := by
  obtain ⟨dx, dy, -, h⟩ := (mem_adj hW hc).1 h
  exact OnLine.valid h

/-- On the same line through an intermediate position. -/
theorem OnLine.trans {W : Nat} {free : Coord → Prop} {u v w : Coord} {dx dy : Int} {s : Int}
    (hu : Valid W u) (hs : s = 1 ∨ s = -1)
    (huv : OnLine W free u dx dy v) (hvw : OnLine W free v (s * dx) (s * dy) w) :
    w = u ∨ OnLine W free u dx dy w ∨ OnLine W free u (-dx) (-dy) w := by
  obtain ⟨n, hn, h1, h2⟩ := huv
  obtain ⟨m, hm, h3, h4⟩ := hvw
  unfold Shift at h1 h3
  have hcomp : ∀ {a : Int} {k : Nat}, ((n : Int) + s * a) = k → True := fun _ => trivial
  rcases hs with rfl | rfl
  · right; left
    refine ⟨n + m, by omega, ?_, ?_⟩
    · unfold Shift; push_cast; constructor
      · rw [h3.1, h1.1]; ring_nf
      · rw [h3.2, h1.2]; ring_nf
    · intro i hi1 hi2
      by_cases hin : i ≤ n
      · exact h2 i hi1 hin
      · obtain ⟨e, he1, he2⟩ := h4 (i - n) (by omega) (by omega)
        refine ⟨e, ?_, he2⟩
        unfold Shift at he1 ⊢
        have : ((i - n : Nat) : Int) = i - n := by omega
        rw [this] at he1
        constructor
        · rw [he1.1, h1.1]; ring
        · rw [he1.2, h1.2]; ring
  · rcases Nat.lt_trichotomy m n with hmn | hmn | hmn
    · right; left
      refine ⟨n - m, by omega, ?_, fun i hi1 hi2 => h2 i hi1 (by omega)⟩
      have : ((n - m : Nat) : Int) = n - m := by omega
      unfold Shift; rw [this]; constructor
      · rw [h3.1, h1.1]; ring
      · rw [h3.2, h1.2]; ring
    · left; subst hmn
      have hx : (w.x : Int) = u.x := by rw [h3.1, h1.1]; ring
      have hy : (w.y : Int) = u.y := by rw [h3.2, h1.2]; ring
      cases w; cases u; simp only [Coord.mk.injEq] at *; omega
    · right; right
      refine ⟨m - n, by omega, ?_, ?_⟩
      · have : ((m - n : Nat) : Int) = m - n := by omega
        unfold Shift; rw [this]; constructor
        · rw [h3.1, h1.1]; ring
        · rw [h3.2, h1.2]; ring
      · intro i hi1 hi2
        obtain ⟨e, he1, he2⟩ := h4 (i + n) (by omega) (by omega)
        refine ⟨e, ?_, he2⟩
        unfold Shift at he1 ⊢
        push_cast at he1
        constructor
        · rw [he1.1, h1.1]; ring
        · rw [he1.2, h1.2]; ring

theorem kindDir_of_mem {W : Nat} {c d : Coord} {free : Coord → Bool} (hW : W ≤ 32) (hc : Valid W c)
    {k : Kind} (h : d ∈ lineK W free c k) : kindDir d k = kindDir c k := by
  cases k with
  | bottomLeftToTopRight => rfl
  | topLeftToBottomRight => rfl
  | verticalOrHorizontal =>
    have : d.y % 2 = c.y % 2 := by
      rcases (mem_lineK hW hc _).1 h with ⟨n, -, h1, -⟩ | ⟨n, -, h1, -⟩ <;>
      · unfold Shift kindDir at h1
        simp only at h1
        split at h1 <;> simp only at h1 <;> omega
    simp [kindDir, this]

/-- Two positions on the same line see the same line, apart from themselves. -/
theorem lineK_trans {W : Nat} {u v w : Coord} {free : Coord → Bool} (hW : W ≤ 32) (hu : Valid W u)
    {k : Kind} (huv : v ∈ lineK W free u k) (hvw : w ∈ lineK W free v k) :
    w = u ∨ w ∈ lineK W free u k := by
  have hk := kindDir_of_mem hW hu huv
  rw [mem_lineK hW hu] at huv ⊢
  have hv : Valid W v := by rcases huv with h | h <;> exact (OnLine.valid h).1
  rw [mem_lineK hW hv, hk] at hvw
  rcases huv with huv | huv <;> rcases hvw with hvw | hvw
  · have := OnLine.trans (s := 1) hu (.inl rfl) huv (by simpa using hvw); tauto
  · have := OnLine.trans (s := -1) hu (.inr rfl) huv (by simpa using hvw); tauto
  · have := OnLine.trans (s := -1) hu (.inr rfl) huv (by simpa using hvw)
    simp only [neg_neg] at this; tauto
  · have := OnLine.trans (s := 1) hu (.inl rfl) huv (by simpa using hvw)
    simp only [neg_neg] at this; tauto

/-! ## No duplicates -/

theorem line_nodup {W : Nat} {c : Coord} {free : Coord → Bool} {dx dy : Int} (hd : StepDir c dx dy) :
    ∀ (f i : Nat), (line W free c dx dy f i).Nodup
  | 0, _ => by simp [line]
  | f + 1, i => by
    unfold line
    split
    · rename_i d hr
      split
      · rw [List.nodup_cons]
        refine ⟨?_, line_nodup hd f (i + 1)⟩
        rw [mem_line]
        rintro ⟨j, -, hj, -⟩
        have h1 := (rel_shift.1 hr).1
        have h2 := (rel_shift.1 hj).1
        unfold Shift at h1 h2
        rcases StepDir.cases hd with h' | h' | h' | h' | h' | h' | h' | h' <;>
          simp only [h'] at h1 h2 <;> omega
      · simp
    · simp

theorem adj_nodup {W : Nat} {c : Coord} {free : Coord → Bool} (hW : W ≤ 32) (hc : Valid W c) :
    (adj W free c).Nodup := by
  have h1 : StepDir c 1 1 := by unfold StepDir; omega
  have h2 : StepDir c (-1) (-1) := by unfold StepDir; omega
  have h3 : StepDir c (-1) 1 := by unfold StepDir; omega
  have h4 : StepDir c 1 (-1) := by unfold StepDir; omega
  have m : ∀ {dx dy d}, StepDir c dx dy → d ∈ dirLine W free c dx dy →
      ∃ n : Nat, 1 ≤ n ∧ (d.x : Int) = c.x + n * dx ∧ (d.y : Int) = c.y + n * dy := by
    intro dx dy d hd h
    obtain ⟨n, hn, hs, -⟩ := (mem_dirLine hW hc hd).1 h
    exact ⟨n, hn, hs⟩
  have nd : ∀ {dx dy}, StepDir c dx dy → (dirLine W free c dx dy).Nodup :=
    fun hd => line_nodup hd _ _
  have dj : ∀ {dx dy dx' dy'}, StepDir c dx dy → StepDir c dx' dy' → (dx, dy) ≠ (dx', dy') →
      ∀ d, d ∈ dirLine W free c dx dy → d ∉ dirLine W free c dx' dy' := by
    intro dx dy dx' dy' hd hd' hne d hm hm'
    obtain ⟨n, hn, e1, e2⟩ := m hd hm
    obtain ⟨n', hn', e1', e2'⟩ := m hd' hm'
    have hne' : ¬ (dx = dx' ∧ dy = dy') := by simpa using hne
    rcases StepDir.cases hd with h | h | h | h | h | h | h | h <;>
      rcases StepDir.cases hd' with h' | h' | h' | h' | h' | h' | h' | h' <;>
        simp only [h, h'] at e1 e2 e1' e2' <;> omega
  unfold adj lineK
  by_cases ht : c.isTop = true
  · have hy := isTop_iff.1 ht
    have h5 : StepDir c 0 2 := by unfold StepDir; omega
    have h6 : StepDir c 0 (-2) := by unfold StepDir; omega
    simp only [ht, if_true]
    simp only [List.nodup_append, nd h1, nd h2, nd h3, nd h4, nd h5, nd h6, List.mem_append, true_and]
    have := dj h1 h2 (by simp); have := dj h1 h3 (by simp); have := dj h1 h4 (by simp)
    have := dj h1 h5 (by simp); have := dj h1 h6 (by simp); have := dj h2 h3 (by simp)
    have := dj h2 h4 (by simp); have := dj h2 h5 (by simp); have := dj h2 h6 (by simp)
    have := dj h3 h4 (by simp); have := dj h3 h5 (by simp); have := dj h3 h6 (by simp)
    have := dj h4 h5 (by simp); have := dj h4 h6 (by simp); have := dj h5 h6 (by simp)
    grind
  · have hy : c.y % 2 = 0 := by have := mt isTop_iff.2 ht; omega
    have h5 : StepDir c 2 0 := by unfold StepDir; omega
    have h6 : StepDir c (-2) 0 := by unfold StepDir; omega
    simp only [ht]
    simp only [Bool.false_eq_true, if_false]
    simp only [List.nodup_append, nd h1, nd h2, nd h3, nd h4, nd h5, nd h6, List.mem_append, true_and]
    have := dj h1 h2 (by simp); have := dj h1 h3 (by simp); have := dj h1 h4 (by simp)
    have := dj h1 h5 (by simp); have := dj h1 h6 (by simp); have := dj h2 h3 (by simp)
    have := dj h2 h4 (by simp); have := dj h2 h5 (by simp); have := dj h2 h6 (by simp)
    have := dj h3 h4 (by simp); have := dj h3 h5 (by simp); have := dj h3 h6 (by simp)
    have := dj h4 h5 (by simp); have := dj h4 h6 (by simp); have := dj h5 h6 (by simp)
    grind

end Verif.Grid
