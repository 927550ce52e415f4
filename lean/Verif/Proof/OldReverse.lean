import Verif.Proof.OldGraph
/-! Moves driven backwards. -/
namespace Verif.Proof.OldN
open Verif Verif.Run Verif.Spec Verif.Old Verif.Proof

variable {W : Nat} {n m : Node} {isWall : Search.Coord → Bool}

/-- Two axis-parallel unit vectors at a right angle. -/
def Axes (f s : V) : Prop :=
  (f = (1, 0) ∧ s = (0, 1)) ∨ (f = (1, 0) ∧ s = (0, -1)) ∨ (f = (-1, 0) ∧ s = (0, 1)) ∨ (f = (-1, 0) ∧ s = (0, -1)) ∨
  (f = (0, 1) ∧ s = (1, 0)) ∨ (f = (0, 1) ∧ s = (-1, 0)) ∨ (f = (0, -1) ∧ s = (1, 0)) ∨ (f = (0, -1) ∧ s = (-1, 0))

theorem frame_centre (hn : Legal W n) (hc : n.x % 2 = 0 ∧ n.y % 2 = 0) (f s : V) :
    Frame n f s ↔ Axes f s ∧ heading n.posture = f := by
  obtain ⟨x, y, p⟩ := n
  obtain ⟨-, -, ⟨h1, h2, hp⟩ | ⟨h1, hp⟩⟩ := hn
  · unfold Frame
    simp only
    rw [if_pos hc]
    unfold Axes
    constructor
    · rintro ⟨rfl, h⟩
      refine ⟨?_, rfl⟩
      cases p <;> simp [heading] at hp h ⊢ <;> tauto
    · rintro ⟨h, rfl⟩
      refine ⟨rfl, ?_⟩
      cases p <;> simp [heading] at hp h ⊢ <;> tauto
  · simp only at h1 hc; omega

theorem frame_bound (hn : Legal W n) (hc : ¬ (n.x % 2 = 0 ∧ n.y % 2 = 0)) (f s : V) :
    Frame n f s ↔ Axes f s ∧ heading n.posture = (f.1 + s.1, f.2 + s.2) ∧ (n.x % 2 = 1 ↔ f.2 = 0) := by
  obtain ⟨x, y, p⟩ := n
  obtain ⟨-, -, ⟨h1, h2, hp⟩ | ⟨h1, hp⟩⟩ := hn
  · exact absurd ⟨h1, h2⟩ hc
  · unfold Frame
    simp only
    rw [if_neg hc]
    simp only at hp
    by_cases hx : x % 2 = 1
    · rw [if_pos hx]
      constructor
      · rintro ⟨rfl, rfl⟩
        unfold Axes
        cases p <;> simp [heading, hx] at hp ⊢
      · rintro ⟨h, hh, he⟩
        have he := he.mp hx
        unfold Axes at h
        rw [hh]
        rcases h with ⟨rfl, rfl⟩ | ⟨rfl, rfl⟩ | ⟨rfl, rfl⟩ | ⟨rfl, rfl⟩ | ⟨rfl, rfl⟩ | ⟨rfl, rfl⟩ | ⟨rfl, rfl⟩ | ⟨rfl, rfl⟩ <;>
          simp at he ⊢
    · rw [if_neg hx]
      constructor
      · rintro ⟨rfl, rfl⟩
        unfold Axes
        cases p <;> simp [heading, hx] at hp ⊢
      · rintro ⟨h, hh, he⟩
        have he := (not_congr he).mp hx
        unfold Axes at h
        rw [hh]
        rcases h with ⟨rfl, rfl⟩ | ⟨rfl, rfl⟩ | ⟨rfl, rfl⟩ | ⟨rfl, rfl⟩ | ⟨rfl, rfl⟩ | ⟨rfl, rfl⟩ | ⟨rfl, rfl⟩ | ⟨rfl, rfl⟩ <;>
          simp at he ⊢

theorem heading_reversed : heading (reversed n).posture = (-(heading n.posture).1, -(heading n.posture).2) := by
  obtain ⟨x, y, p⟩ := n
  cases p <;> rfl

theorem openAt_shift {d d' : V} (hx : (m.x : Int) + d.1 = n.x + d'.1) (hy : (m.y : Int) + d.2 = n.y + d'.2)
    (h : OpenAt W isWall m d) : OpenAt W isWall n d' := by
  obtain ⟨c, h1, h2, h3⟩ := h
  exact ⟨c, by omega, by omega, h3⟩

/-- The parity of an axis vector. -/
theorem Axes.parity {f s : V} (h : Axes f s) : (f.1 % 2 = 1 ∧ f.2 = 0 ∧ s.1 = 0 ∧ s.2 % 2 = 1) ∨
    (f.1 = 0 ∧ f.2 % 2 = 1 ∧ s.1 % 2 = 1 ∧ s.2 = 0) := by
  rcases h with ⟨rfl, rfl⟩ | ⟨rfl, rfl⟩ | ⟨rfl, rfl⟩ | ⟨rfl, rfl⟩ | ⟨rfl, rfl⟩ | ⟨rfl, rfl⟩ | ⟨rfl, rfl⟩ | ⟨rfl, rfl⟩ <;> decide

theorem Axes.fs {f s : V} (h : Axes f s) (a b : Bool) :
    Axes (if a then f else (-f.1, -f.2)) (if b then s else (-s.1, -s.2)) ∧
    Axes (if a then s else (-s.1, -s.2)) (if b then f else (-f.1, -f.2)) := by
  rcases h with ⟨rfl, rfl⟩ | ⟨rfl, rfl⟩ | ⟨rfl, rfl⟩ | ⟨rfl, rfl⟩ | ⟨rfl, rfl⟩ | ⟨rfl, rfl⟩ | ⟨rfl, rfl⟩ | ⟨rfl, rfl⟩ <;>
    cases a <;> cases b <;> simp [Axes]

/-- A move driven backwards, with all that has to be shown. -/
theorem back_mk {k : EdgeKind} (hm : Legal W m) (f' s' fin' head' : V) (cr' : List V) (hF : Frame (reversed n) f' s')
    (hS : Shape (reversed n) k fin' head' cr') (hx : (m.x : Int) = n.x + (inFrame f' s' fin').1)
    (hy : (m.y : Int) = n.y + (inFrame f' s' fin').2) (hh : heading (reversed m).posture = inFrame f' s' head')
    (ho : ∀ d ∈ cr', OpenAt W isWall n (inFrame f' s' d)) : Drivable W isWall (reversed n) k (reversed m) := by
  refine ⟨_, ⟨f', s', fin', head', cr', hF, hS, hx, hy, hh, rfl⟩, hm.1, hm.2.1, ?_⟩
  intro d hd
  obtain ⟨c, hc, rfl⟩ := List.mem_map.mp hd
  exact openAt_shift rfl rfl (ho c hc)

/-- The same for a move that ends in a cell. -/
theorem back_cell {k : EdgeKind} (hm : Legal W m) (hn : Legal W n) (hc : n.x % 2 = 0 ∧ n.y % 2 = 0) (f' s' fin' head' : V)
    (cr' : List V) (hA : Axes f' s') (hf : heading (reversed n).posture = f') (hS : FromCentre k fin' head' cr')
    (hx : (m.x : Int) = n.x + (inFrame f' s' fin').1) (hy : (m.y : Int) = n.y + (inFrame f' s' fin').2)
    (hh : heading (reversed m).posture = inFrame f' s' head') (ho : ∀ d ∈ cr', OpenAt W isWall n (inFrame f' s' d)) :
    Drivable W isWall (reversed n) k (reversed m) ∧ OpenHere W isWall n :=
  ⟨back_mk hm f' s' fin' head' cr' ((frame_centre (legal_reversed hn) hc _ _).mpr ⟨hA, hf⟩)
    (by unfold Shape; rw [if_pos (show (reversed n).x % 2 = 0 ∧ (reversed n).y % 2 = 0 from hc)]; exact hS) hx hy hh ho, Or.inl hc⟩

/-- The same for a move that ends on a wall. -/
theorem back_bound {k : EdgeKind} (hm : Legal W m) (hn : Legal W n) (hc : ¬ (n.x % 2 = 0 ∧ n.y % 2 = 0)) (f' s' fin' head' : V)
    (cr' : List V) (hA : Axes f' s') (hf : heading (reversed n).posture = (f'.1 + s'.1, f'.2 + s'.2)) (hp : n.x % 2 = 1 ↔ f'.2 = 0)
    (hS : FromWall k fin' head' cr')
    (hx : (m.x : Int) = n.x + (inFrame f' s' fin').1) (hy : (m.y : Int) = n.y + (inFrame f' s' fin').2)
    (hh : heading (reversed m).posture = inFrame f' s' head') (ho : ∀ d ∈ cr', OpenAt W isWall n (inFrame f' s' d))
    (hl : OpenAt W isWall n (0, 0)) :
    Drivable W isWall (reversed n) k (reversed m) ∧ OpenHere W isWall n :=
  ⟨back_mk hm f' s' fin' head' cr' ((frame_bound (legal_reversed hn) hc _ _).mpr ⟨hA, hf, hp⟩)
    (by unfold Shape; rw [if_neg (show ¬ ((reversed n).x % 2 = 0 ∧ (reversed n).y % 2 = 0) from hc)]; exact hS) hx hy hh ho, Or.inr hl⟩

/-- Displacements in both frames. -/
theorem shift_open {f s f' s' : V} {d d' e : V} (hx : (n.x : Int) = m.x + (inFrame f s e).1)
    (hy : (n.y : Int) = m.y + (inFrame f s e).2) (h : OpenAt W isWall m (inFrame f s d))
    (he : (inFrame f s d).1 = (inFrame f s e).1 + (inFrame f' s' d').1 ∧
      (inFrame f s d).2 = (inFrame f s e).2 + (inFrame f' s' d').2) : OpenAt W isWall n (inFrame f' s' d') :=
  openAt_shift (by omega) (by omega) h

theorem drivable_back {k : EdgeKind} (hm : Legal W m) (h : Drivable W isWall m k n) (ho : OpenHere W isWall m) :
    Drivable W isWall (reversed n) k (reversed m) ∧ OpenHere W isWall n := by
  have hn := drivable_legal hm k n h
  obtain ⟨cr, ⟨f, s, fin, head, c, hF, hS, hx, hy, hh, rfl⟩, h1, h2, hopen⟩ := h
  have hopen' : ∀ d ∈ c, OpenAt W isWall m (inFrame f s d) := fun d hd => hopen _ (List.mem_map.mpr ⟨d, hd, rfl⟩)
  have hh' := heading_reversed (n := n)
  rw [hh] at hh'
  have hm' := heading_reversed (n := m)
  clear hopen hh
  unfold Shape at hS
  by_cases hc : m.x % 2 = 0 ∧ m.y % 2 = 0
  · rw [if_pos hc] at hS
    obtain ⟨hA, hf⟩ := (frame_centre hm hc f s).mp hF
    rw [hf] at hm'
    cases hS with
    | straight j hj =>
      refine back_cell hm hn ?_ (-f.1, -f.2) s (2 * j, 0) (1, 0) _ (hA.fs false true).1 ?_ (.straight j hj) ?_ ?_ ?_ ?_
      · rcases hA with ⟨rfl, rfl⟩ | ⟨rfl, rfl⟩ | ⟨rfl, rfl⟩ | ⟨rfl, rfl⟩ | ⟨rfl, rfl⟩ | ⟨rfl, rfl⟩ | ⟨rfl, rfl⟩ | ⟨rfl, rfl⟩ <;>
        simp [inFrame] at hx hy ⊢ <;> omega
      · rw [hh']; simp [inFrame]
      · simp only [inFrame] at hx ⊢; rw [hx]; ring
      · simp only [inFrame] at hy ⊢; rw [hy]; ring
      · rw [hm']; simp [inFrame]
      · intro d hd
        obtain ⟨i, hi, rfl⟩ := List.mem_map.mp hd
        rw [List.mem_range] at hi
        refine shift_open hx hy (hopen' (2 * ((j - 1 - i : Nat) : Int) + 1, 0) (List.mem_map.mpr ⟨j - 1 - i, by rw [List.mem_range]; omega, rfl⟩)) ?_
        have : ((j - 1 - i : Nat) : Int) = j - 1 - i := by omega
        rw [this]
        simp only [inFrame]
        constructor <;> ring
    | slalom45 =>
      refine back_bound hm hn ?_ (-s.1, -s.2) (-f.1, -f.2) (1, 2) (0, 1) _ (hA.fs false false).2 ?_ ?_ .slalom45 ?_ ?_ ?_ ?_ ?_
      · rcases hA with ⟨rfl, rfl⟩ | ⟨rfl, rfl⟩ | ⟨rfl, rfl⟩ | ⟨rfl, rfl⟩ | ⟨rfl, rfl⟩ | ⟨rfl, rfl⟩ | ⟨rfl, rfl⟩ | ⟨rfl, rfl⟩ <;>
        simp [inFrame] at hx hy ⊢ <;> omega
      · rw [hh']; simp [inFrame]
      · rcases hA with ⟨rfl, rfl⟩ | ⟨rfl, rfl⟩ | ⟨rfl, rfl⟩ | ⟨rfl, rfl⟩ | ⟨rfl, rfl⟩ | ⟨rfl, rfl⟩ | ⟨rfl, rfl⟩ | ⟨rfl, rfl⟩ <;>
        simp [inFrame] at hx hy ⊢ <;> omega
      · simp only [inFrame] at hx ⊢; rw [hx]; ring
      · simp only [inFrame] at hy ⊢; rw [hy]; ring
      · rw [hm']; simp [inFrame]
      · intro d hd
        have : d = (1, 1) := by simpa using hd
        subst this
        refine shift_open hx hy (hopen' (1, 0) (by simp)) ?_
        simp only [inFrame]; constructor <;> ring
      · have := hopen' (2, 1) (by simp)
        refine openAt_shift ?_ ?_ this <;> simp only <;> omega
    | slalom90 =>
      refine back_cell hm hn ?_ (-s.1, -s.2) (-f.1, -f.2) (2, 2) (0, 1) _ (hA.fs false false).2 ?_ .slalom90 ?_ ?_ ?_ ?_
      · rcases hA with ⟨rfl, rfl⟩ | ⟨rfl, rfl⟩ | ⟨rfl, rfl⟩ | ⟨rfl, rfl⟩ | ⟨rfl, rfl⟩ | ⟨rfl, rfl⟩ | ⟨rfl, rfl⟩ | ⟨rfl, rfl⟩ <;>
        simp [inFrame] at hx hy ⊢ <;> omega
      · rw [hh']; simp [inFrame]
      · simp only [inFrame] at hx ⊢; rw [hx]; ring
      · simp only [inFrame] at hy ⊢; rw [hy]; ring
      · rw [hm']; simp [inFrame]
      · intro d hd
        rcases (by simpa using hd : d = (1, 0) ∨ d = (2, 1)) with rfl | rfl
        · refine shift_open hx hy (hopen' (2, 1) (by simp)) ?_
          simp only [inFrame]; constructor <;> ring
        · refine shift_open hx hy (hopen' (1, 0) (by simp)) ?_
          simp only [inFrame]; constructor <;> ring
    | slalom135 =>
      refine back_bound hm hn ?_ f (-s.1, -s.2) (-1, 2) (-1, 0) _ (hA.fs true false).1 ?_ ?_ .slalom135 ?_ ?_ ?_ ?_ ?_
      · rcases hA with ⟨rfl, rfl⟩ | ⟨rfl, rfl⟩ | ⟨rfl, rfl⟩ | ⟨rfl, rfl⟩ | ⟨rfl, rfl⟩ | ⟨rfl, rfl⟩ | ⟨rfl, rfl⟩ | ⟨rfl, rfl⟩ <;>
        simp [inFrame] at hx hy ⊢ <;> omega
      · rw [hh']; simp [inFrame]; constructor <;> ring
      · rcases hA with ⟨rfl, rfl⟩ | ⟨rfl, rfl⟩ | ⟨rfl, rfl⟩ | ⟨rfl, rfl⟩ | ⟨rfl, rfl⟩ | ⟨rfl, rfl⟩ | ⟨rfl, rfl⟩ | ⟨rfl, rfl⟩ <;>
        simp [inFrame] at hx hy ⊢ <;> omega
      · simp only [inFrame] at hx ⊢; rw [hx]; ring
      · simp only [inFrame] at hy ⊢; rw [hy]; ring
      · rw [hm']; simp [inFrame]
      · intro d hd
        rcases (by simpa using hd : d = (1, 1) ∨ d = (0, 2)) with rfl | rfl
        · refine shift_open hx hy (hopen' (2, 1) (by simp)) ?_
          simp only [inFrame]; constructor <;> ring
        · refine shift_open hx hy (hopen' (1, 0) (by simp)) ?_
          simp only [inFrame]; constructor <;> ring
      · have := hopen' (1, 2) (by simp)
        refine openAt_shift ?_ ?_ this <;> simp only <;> omega
    | slalom180 =>
      refine back_cell hm hn ?_ f (-s.1, -s.2) (0, 2) (-1, 0) _ (hA.fs true false).1 ?_ .slalom180 ?_ ?_ ?_ ?_
      · rcases hA with ⟨rfl, rfl⟩ | ⟨rfl, rfl⟩ | ⟨rfl, rfl⟩ | ⟨rfl, rfl⟩ | ⟨rfl, rfl⟩ | ⟨rfl, rfl⟩ | ⟨rfl, rfl⟩ | ⟨rfl, rfl⟩ <;>
        simp [inFrame] at hx hy ⊢ <;> omega
      · rw [hh']; simp [inFrame]
      · simp only [inFrame] at hx ⊢; rw [hx]; ring
      · simp only [inFrame] at hy ⊢; rw [hy]; ring
      · rw [hm']; simp [inFrame]
      · intro d hd
        rcases (by simpa using hd : d = (1, 0) ∨ d = (2, 1) ∨ d = (1, 2)) with rfl | rfl | rfl
        · refine shift_open hx hy (hopen' (1, 2) (by simp)) ?_
          simp only [inFrame]; constructor <;> ring
        · refine shift_open hx hy (hopen' (2, 1) (by simp)) ?_
          simp only [inFrame]; constructor <;> ring
        · refine shift_open hx hy (hopen' (1, 0) (by simp)) ?_
          simp only [inFrame]; constructor <;> ring
  · rw [if_neg hc] at hS
    obtain ⟨hA, hf, hp⟩ := (frame_bound hm hc f s).mp hF
    rw [hf] at hm'
    have hodd := odd_sum hm hc
    have ho : OpenAt W isWall m (0, 0) := ho.resolve_left hc
    cases hS with
    | straightDiagonal j hj =>
      have hno : ¬ (n.x % 2 = 0 ∧ n.y % 2 = 0) := by
        rcases hA with ⟨rfl, rfl⟩ | ⟨rfl, rfl⟩ | ⟨rfl, rfl⟩ | ⟨rfl, rfl⟩ | ⟨rfl, rfl⟩ | ⟨rfl, rfl⟩ | ⟨rfl, rfl⟩ | ⟨rfl, rfl⟩ <;>
        simp [inFrame] at hx hy ⊢ <;> omega
      have hlast : OpenAt W isWall n (0, 0) := by
        have := hopen' ((j : Int), (j : Int)) (List.mem_map.mpr ⟨j - 1, by rw [List.mem_range]; omega, by
          simp only [Prod.mk.injEq]; omega⟩)
        refine openAt_shift ?_ ?_ this <;> simp only <;> omega
      have hcr : ∀ d ∈ (List.range j).map fun i : Nat => ((i : Int) + 1, (i : Int) + 1),
          OpenAt W isWall n (-(inFrame f s d).1, -(inFrame f s d).2) := by
        intro d hd
        obtain ⟨i, hi, rfl⟩ := List.mem_map.mp hd
        rw [List.mem_range] at hi
        by_cases hij : i + 1 = j
        · refine openAt_shift ?_ ?_ ho
          · subst hij; push_cast at *; simp only [inFrame] at *; omega
          · subst hij; push_cast at *; simp only [inFrame] at *; omega
        · have := hopen' (((j - 2 - i : Nat) : Int) + 1, ((j - 2 - i : Nat) : Int) + 1)
            (List.mem_map.mpr ⟨j - 2 - i, by rw [List.mem_range]; omega, rfl⟩)
          have e : ((j - 2 - i : Nat) : Int) = j - 2 - i := by omega
          rw [e] at this
          refine openAt_shift ?_ ?_ this
          · simp only [inFrame] at *; rw [hx]; ring
          · simp only [inFrame] at *; rw [hy]; ring
      by_cases hev : j % 2 = 0
      · refine back_bound hm hn hno (-f.1, -f.2) (-s.1, -s.2) (j, j) (1, 1) _ (hA.fs false false).1 ?_ ?_ (.straightDiagonal j hj) ?_ ?_ ?_ ?_ hlast
        · rw [hh']; simp [inFrame]; constructor <;> ring
        · rcases hA with ⟨rfl, rfl⟩ | ⟨rfl, rfl⟩ | ⟨rfl, rfl⟩ | ⟨rfl, rfl⟩ | ⟨rfl, rfl⟩ | ⟨rfl, rfl⟩ | ⟨rfl, rfl⟩ | ⟨rfl, rfl⟩ <;>
        simp [inFrame] at hx hy hp ⊢ <;> omega
        · simp only [inFrame] at hx ⊢; rw [hx]; ring
        · simp only [inFrame] at hy ⊢; rw [hy]; ring
        · rw [hm']; simp [inFrame]; constructor <;> ring
        · intro d hd
          refine openAt_shift ?_ ?_ (hcr d hd)
          · simp only [inFrame]; ring
          · simp only [inFrame]; ring
      · refine back_bound hm hn hno (-s.1, -s.2) (-f.1, -f.2) (j, j) (1, 1) _ (hA.fs false false).2 ?_ ?_ (.straightDiagonal j hj) ?_ ?_ ?_ ?_ hlast
        · rw [hh']; simp [inFrame]
        · rcases hA with ⟨rfl, rfl⟩ | ⟨rfl, rfl⟩ | ⟨rfl, rfl⟩ | ⟨rfl, rfl⟩ | ⟨rfl, rfl⟩ | ⟨rfl, rfl⟩ | ⟨rfl, rfl⟩ | ⟨rfl, rfl⟩ <;>
        simp [inFrame] at hx hy hp ⊢ <;> omega
        · simp only [inFrame] at hx ⊢; rw [hx]; ring
        · simp only [inFrame] at hy ⊢; rw [hy]; ring
        · rw [hm']; simp [inFrame]
        · intro d hd
          obtain ⟨i, hi, rfl⟩ := List.mem_map.mp hd
          refine openAt_shift ?_ ?_ (hcr _ hd)
          · simp only [inFrame]; ring
          · simp only [inFrame]; ring
    | slalom45 =>
      refine back_cell hm hn ?_ (-s.1, -s.2) (-f.1, -f.2) (2, 1) (1, 1) _ (hA.fs false false).2 ?_ .slalom45 ?_ ?_ ?_ ?_
      · rcases hA with ⟨rfl, rfl⟩ | ⟨rfl, rfl⟩ | ⟨rfl, rfl⟩ | ⟨rfl, rfl⟩ | ⟨rfl, rfl⟩ | ⟨rfl, rfl⟩ | ⟨rfl, rfl⟩ | ⟨rfl, rfl⟩ <;>
        simp [inFrame] at hx hy hp ⊢ <;> omega
      · rw [hh']; simp [inFrame]
      · simp only [inFrame] at hx ⊢; rw [hx]; ring
      · simp only [inFrame] at hy ⊢; rw [hy]; ring
      · rw [hm']; simp [inFrame]
      · intro d hd
        rcases (by simpa using hd : d = (1, 0) ∨ d = (2, 1)) with rfl | rfl
        · refine shift_open hx hy (hopen' (1, 1) (by simp)) ?_
          simp only [inFrame]; constructor <;> ring
        · refine openAt_shift ?_ ?_ ho
          · simp only [inFrame] at *; rw [hx]; ring
          · simp only [inFrame] at *; rw [hy]; ring
    | slalomDiagonal90 =>
      refine back_bound hm hn ?_ f (-s.1, -s.2) (0, 2) (-1, 1) _ (hA.fs true false).1 ?_ ?_ .slalomDiagonal90 ?_ ?_ ?_ ?_ ?_
      · rcases hA with ⟨rfl, rfl⟩ | ⟨rfl, rfl⟩ | ⟨rfl, rfl⟩ | ⟨rfl, rfl⟩ | ⟨rfl, rfl⟩ | ⟨rfl, rfl⟩ | ⟨rfl, rfl⟩ | ⟨rfl, rfl⟩ <;>
        simp [inFrame] at hx hy hp ⊢ <;> omega
      · rw [hh']; simp [inFrame]; constructor <;> ring
      · rcases hA with ⟨rfl, rfl⟩ | ⟨rfl, rfl⟩ | ⟨rfl, rfl⟩ | ⟨rfl, rfl⟩ | ⟨rfl, rfl⟩ | ⟨rfl, rfl⟩ | ⟨rfl, rfl⟩ | ⟨rfl, rfl⟩ <;>
        simp [inFrame] at hx hy hp ⊢ <;> omega
      · simp only [inFrame] at hx ⊢; rw [hx]; ring
      · simp only [inFrame] at hy ⊢; rw [hy]; ring
      · rw [hm']; simp [inFrame]; constructor <;> ring
      · intro d hd
        rcases (by simpa using hd : d = (1, 1) ∨ d = (0, 2)) with rfl | rfl
        · refine shift_open hx hy (hopen' (1, 1) (by simp)) ?_
          simp only [inFrame]; constructor <;> ring
        · refine openAt_shift ?_ ?_ ho
          · simp only [inFrame] at *; rw [hx]; ring
          · simp only [inFrame] at *; rw [hy]; ring
      · have := hopen' (0, 2) (by simp)
        refine openAt_shift ?_ ?_ this <;> simp only <;> omega
    | slalom135 =>
      refine back_cell hm hn ?_ f (-s.1, -s.2) (1, 2) (-1, 1) _ (hA.fs true false).1 ?_ .slalom135 ?_ ?_ ?_ ?_
      · rcases hA with ⟨rfl, rfl⟩ | ⟨rfl, rfl⟩ | ⟨rfl, rfl⟩ | ⟨rfl, rfl⟩ | ⟨rfl, rfl⟩ | ⟨rfl, rfl⟩ | ⟨rfl, rfl⟩ | ⟨rfl, rfl⟩ <;>
        simp [inFrame] at hx hy hp ⊢ <;> omega
      · rw [hh']; simp [inFrame]
      · simp only [inFrame] at hx ⊢; rw [hx]; ring
      · simp only [inFrame] at hy ⊢; rw [hy]; ring
      · rw [hm']; simp [inFrame]; constructor <;> ring
      · intro d hd
        rcases (by simpa using hd : d = (1, 0) ∨ d = (2, 1) ∨ d = (1, 2)) with rfl | rfl | rfl
        · refine shift_open hx hy (hopen' (0, 2) (by simp)) ?_
          simp only [inFrame]; constructor <;> ring
        · refine shift_open hx hy (hopen' (1, 1) (by simp)) ?_
          simp only [inFrame]; constructor <;> ring
        · refine openAt_shift ?_ ?_ ho
          · simp only [inFrame] at *; rw [hx]; ring
          · simp only [inFrame] at *; rw [hy]; ring

theorem openHere_reversed : OpenHere W isWall (reversed n) ↔ OpenHere W isWall n := Iff.rfl

/-- A move can be driven in the one direction exactly if it can be driven in the other, apart from the walls on which
it begins and ends. -/
theorem drivable_reversed {k : EdgeKind} (hm : Legal W m) (hn : Legal W n) :
    (Drivable W isWall (reversed n) k (reversed m) ∧ OpenHere W isWall n) ↔ (Drivable W isWall m k n ∧ OpenHere W isWall m) := by
  constructor
  · rintro ⟨h, ho⟩
    have := drivable_back (legal_reversed hn) h ho
    rw [reversed_reversed, reversed_reversed] at this
    exact this
  · rintro ⟨h, ho⟩
    exact drivable_back hm h ho

end Verif.Proof.OldN
