import Verif.Spec.OldExplore
import Verif.Spec.OldNode
import Verif.Proof.OldTour
import Verif.Proof.OldCells
import Mathlib.Data.Finset.Prod
import Mathlib.Data.Finset.Card
/-! Every simple way from cell to cell can be driven with the moves of a fast run. -/
namespace Verif.Proof.OldR
open Verif Verif.Run Verif.Spec Verif.Proof Verif.Old

variable {W : Nat} {isWall : Search.Coord → Bool} {cost : Pattern → Nat}

def units : List V := [(0, 1), (1, 0), (0, -1), (-1, 0)]

/-- The posture with a heading. -/
def facing (h : V) : Posture :=
  if h = (0, 1) then .north else if h = (1, 1) then .northEast else if h = (1, 0) then .east else if h = (1, -1) then .southEast
  else if h = (0, -1) then .south else if h = (-1, -1) then .southWest else if h = (-1, 0) then .west else .northWest

/-- The pose at a position with a heading. -/
def pose (P h : V) : Node := ⟨P.1.toNat, P.2.toNat, facing h⟩

def InRange (W : Nat) (P : V) : Prop := 0 ≤ P.1 ∧ P.1 < 2 * W ∧ 0 ≤ P.2 ∧ P.2 < 2 * W

def Even (P : V) : Prop := P.1 % 2 = 0 ∧ P.2 % 2 = 0

/-- There is an open wall position. -/
def OpenPos (W : Nat) (isWall : Search.Coord → Bool) (p : V) : Prop :=
  ∃ c : Search.Coord, (c.x : Int) = p.1 ∧ (c.y : Int) = p.2 ∧ Valid W c ∧ isWall c = false

def Perp (e s : V) : Prop := s = (e.2, -e.1) ∨ s = (-e.2, e.1)

def add (P d : V) : V := (P.1 + d.1, P.2 + d.2)
def neg (e : V) : V := (-e.1, -e.2)
/-- The cell next to a cell. -/
def next (C e : V) : V := (C.1 + 2 * e.1, C.2 + 2 * e.2)

theorem facing_unit : ∀ e ∈ units, heading (facing e) = e := by decide
theorem facing_axis : ∀ e ∈ units, facing e ∈ [Posture.north, .east, .south, .west] := by decide

theorem facing_head {e s : V} (he : e ∈ units) (hs : Perp e s) {k : EdgeKind} {fin head : V} {cr : List V}
    (h : FromCentre k fin head cr ∨ FromWall k fin head cr) : heading (facing (inFrame e s head)) = inFrame e s head := by
  have hh : head ∈ [((1, 0) : V), (1, 1), (0, 1), (-1, 1), (-1, 0)] := by
    rcases h with h | h <;> cases h <;> decide
  clear h
  revert hh
  revert head
  have k1 : ∀ e ∈ units, ∀ head ∈ [((1, 0) : V), (1, 1), (0, 1), (-1, 1), (-1, 0)],
    heading (facing (inFrame e (e.2, -e.1) head)) = inFrame e (e.2, -e.1) head := by decide
  have k2 : ∀ e ∈ units, ∀ head ∈ [((1, 0) : V), (1, 1), (0, 1), (-1, 1), (-1, 0)],
    heading (facing (inFrame e (-e.2, e.1) head)) = inFrame e (-e.2, e.1) head := by decide
  rcases hs with rfl | rfl
  · exact k1 _ he
  · exact k2 _ he

theorem pose_x {P : V} (h : InRange W P) (d : V) : ((pose P d).x : Int) = P.1 := Int.toNat_of_nonneg h.1
theorem pose_y {P : V} (h : InRange W P) (d : V) : ((pose P d).y : Int) = P.2 := Int.toNat_of_nonneg h.2.2.1
theorem pose_range {P : V} (h : InRange W P) (d : V) : (pose P d).x < 2 * W ∧ (pose P d).y < 2 * W := by
  have h1 := pose_x h d
  have h2 := pose_y h d
  obtain ⟨_, _, _, _⟩ := h
  omega

theorem centre_move {C e s : V} (he : e ∈ units) (hs : Perp e s) (hC : Even C) (hr : InRange W C) {k : EdgeKind} {fin head : V} {cr : List V}
    (h : FromCentre k fin head cr) (ho : ∀ d ∈ cr, OpenPos W isWall (add C (inFrame e s d))) (hend : InRange W (add C (inFrame e s fin))) :
    Drivable W isWall (pose C e) k (pose (add C (inFrame e s fin)) (inFrame e s head)) := by
  have c1 := pose_x hr e
  have c2 := pose_y hr e
  have c3 : (pose C e).x % 2 = 0 ∧ (pose C e).y % 2 = 0 := by have := hC.1; have := hC.2; omega
  refine ⟨cr.map (inFrame e s), ⟨e, s, fin, head, cr, ?_, ?_, ?_, ?_, ?_, rfl⟩, (pose_range hend _).1, (pose_range hend _).2, ?_⟩
  · unfold Frame
    simp only
    rw [if_pos c3, show heading (pose C e).posture = e from facing_unit _ he]
    exact ⟨rfl, hs⟩
  · unfold Shape
    rw [if_pos c3]
    exact h
  · rw [c1, pose_x hend]; rfl
  · rw [c2, pose_y hend]; rfl
  · exact facing_head he hs (Or.inl h)
  · intro d hd
    obtain ⟨d', hd', rfl⟩ := List.mem_map.mp hd
    obtain ⟨c, e1, e2, e3⟩ := ho d' hd'
    exact ⟨c, by rw [e1, c1]; rfl, by rw [e2, c2]; rfl, e3⟩

theorem wall_move {C f s : V} (hf : f ∈ units) (hs : Perp f s) (hC : Even C) (hr : InRange W (add C f)) {k : EdgeKind} {fin head : V}
    {cr : List V} (h : FromWall k fin head cr) (ho : ∀ d ∈ cr, OpenPos W isWall (add (add C f) (inFrame f s d)))
    (hend : InRange W (add (add C f) (inFrame f s fin))) :
    Drivable W isWall (pose (add C f) (add f s)) k (pose (add (add C f) (inFrame f s fin)) (inFrame f s head)) := by
  have c1 := pose_x hr (add f s)
  have c2 := pose_y hr (add f s)
  have hh : heading (facing (add f s)) = add f s := by
    have k1 : ∀ f ∈ units, heading (facing (add f (f.2, -f.1))) = add f (f.2, -f.1) := by decide
    have k2 : ∀ f ∈ units, heading (facing (add f (-f.2, f.1))) = add f (-f.2, f.1) := by decide
    rcases hs with rfl | rfl
    · exact k1 _ hf
    · exact k2 _ hf
  have hpar : ((pose (add C f) (add f s)).x % 2 = 1 ∧ (pose (add C f) (add f s)).y % 2 = 0 ∧ f.2 = 0 ∧ s.1 = 0) ∨
      ((pose (add C f) (add f s)).x % 2 = 0 ∧ (pose (add C f) (add f s)).y % 2 = 1 ∧ f.1 = 0 ∧ s.2 = 0) := by
    have hu : ∀ f ∈ units, (f.1 = 0 ∧ f.2 % 2 = 1) ∨ (f.2 = 0 ∧ f.1 % 2 = 1) := by decide
    obtain ⟨h1, h2⟩ := hC
    have e1 : (add C f).1 = C.1 + f.1 := rfl
    have e2 : (add C f).2 = C.2 + f.2 := rfl
    rcases hu f hf with ⟨a, b⟩ | ⟨a, b⟩ <;> rcases hs with rfl | rfl <;> simp only at * <;> omega
  refine ⟨cr.map (inFrame f s), ⟨f, s, fin, head, cr, ?_, ?_, ?_, ?_, ?_, rfl⟩, (pose_range hend _).1, (pose_range hend _).2, ?_⟩
  · unfold Frame
    simp only
    rw [show heading (pose (add C f) (add f s)).posture = add f s from hh]
    rcases hpar with ⟨a, b, p, q⟩ | ⟨a, b, p, q⟩
    · rw [if_neg (by omega), if_pos a]
      refine ⟨Prod.ext ?_ p, Prod.ext q ?_⟩ <;> simp [add, p, q]
    · rw [if_neg (by omega), if_neg (by omega)]
      refine ⟨Prod.ext p ?_, Prod.ext ?_ q⟩ <;> simp [add, p, q]
  · unfold Shape
    rw [if_neg (by omega)]
    exact h
  · rw [c1, pose_x hend]; rfl
  · rw [c2, pose_y hend]; rfl
  · exact facing_head hf hs (Or.inr h)
  · intro d hd
    obtain ⟨d', hd', rfl⟩ := List.mem_map.mp hd
    obtain ⟨c, e1, e2, e3⟩ := ho d' hd'
    exact ⟨c, by rw [e1, c1]; rfl, by rw [e2, c2]; rfl, e3⟩

/-! ## Walks -/

/-- The steps lead through openings. -/
def Walk (W : Nat) (isWall : Search.Coord → Bool) : V → List V → Prop
  | _, [] => True
  | C, e :: es => e ∈ units ∧ OpenPos W isWall (add C e) ∧ InRange W (next C e) ∧ Walk W isWall (next C e) es

def endOf : V → List V → V
  | C, [] => C
  | C, e :: es => endOf (next C e) es

/-- No step back, and no round of four steps. -/
def Good : List V → Prop
  | [] => True
  | e :: es => (∀ e1 es', es = e1 :: es' → e1 ≠ neg e) ∧ (∀ e1 e2 e3 es', es = e1 :: e2 :: e3 :: es' → ¬ (e2 = neg e ∧ e3 = neg e1)) ∧ Good es

theorem four {e s u : V} (he : e ∈ units) (hs : Perp e s) (hu : u ∈ units) : u = e ∨ u = neg e ∨ u = s ∨ u = neg s := by
  have k1 : ∀ e ∈ units, ∀ u ∈ units, u = e ∨ u = neg e ∨ u = (e.2, -e.1) ∨ u = neg (e.2, -e.1) := by decide
  have k2 : ∀ e ∈ units, ∀ u ∈ units, u = e ∨ u = neg e ∨ u = (-e.2, e.1) ∨ u = neg (-e.2, e.1) := by decide
  rcases hs with rfl | rfl
  · exact k1 _ he _ hu
  · exact k2 _ he _ hu

theorem two {e u : V} (he : e ∈ units) (hu : u ∈ units) : u = e ∨ u = neg e ∨ Perp e u := by
  have k1 : ∀ e ∈ units, ∀ u ∈ units, u = e ∨ u = neg e ∨ (u = (e.2, -e.1) ∨ u = (-e.2, e.1)) := by decide
  exact k1 _ he _ hu

theorem perp_symm {e s : V} (h : Perp e s) : Perp s e := by
  rcases h with rfl | rfl
  · right; simp
  · left; simp

theorem perp_neg {e s : V} (h : Perp e s) : Perp (neg e) s := by
  rcases h with rfl | rfl
  · right; simp [neg]
  · left; simp [neg]

theorem neg_unit {e : V} (h : e ∈ units) : neg e ∈ units := by
  have : ∀ e ∈ units, neg e ∈ units := by decide
  exact this e h

theorem even_next {C e : V} (h : Even C) : Even (next C e) := by
  unfold Even next at *
  simp only
  omega

theorem openPos_range {p : V} (h : OpenPos W isWall p) : InRange W p := by
  obtain ⟨c, h1, h2, h3, -⟩ := h
  have := h3.1
  have := h3.2.1
  unfold InRange
  omega

/-- The mouse can drive from `n` to the cell `D`, charged at most `k` times `M`. -/
def Goes (W : Nat) (isWall : Search.Coord → Bool) (cost : Pattern → Nat) (goal : Node) (M : Nat) (n : Node) (D : V) (k : Nat) : Prop :=
  ∃ path h c, path.head? = some n ∧ path.getLast? = some (pose D h) ∧ h ∈ units ∧ ChargedPath W isWall cost goal path c ∧ c ≤ k * M

variable {goal : Node} {M : Nat}

/-- The moves used below. -/
def plain : List EdgeKind := [.straight 1, .straightDiagonal 1, .slalom45, .slalom90, .slalom135, .slalom180, .slalomDiagonal90]

/-- `M` is enough for a move. -/
def Enough (W : Nat) (cost : Pattern → Nat) (goal : Node) (M : Nat) : Prop :=
  ∀ k ∈ plain, ∀ m : Node, m.x < 2 * W → m.y < 2 * W → cost (patternOf k) + cost (.straight (cellsApart m goal)) ≤ M

theorem goes_step (hM : Enough W cost goal M) {n m : Node} {k : EdgeKind} (hk : k ∈ plain) (hd : Drivable W isWall n k m) {D : V} {i j : Nat}
    (h : Goes W isWall cost goal M m D i) (hij : i + 1 ≤ j) : Goes W isWall cost goal M n D j := by
  obtain ⟨path, h', c, h1, h2, h3, h4, h5⟩ := h
  cases path with
  | nil => cases h1
  | cons a l =>
    obtain rfl : a = m := by simpa using h1
    have hx := hM k hk a (by obtain ⟨_, _, h, _⟩ := hd; exact h) (by obtain ⟨_, _, _, h, _⟩ := hd; exact h)
    refine ⟨n :: a :: l, h', _, rfl, by simpa using h2, h3, .cons n a k l c hd h4, ?_⟩
    have : (i + 1) * M ≤ j * M := Nat.mul_le_mul_right _ hij
    rw [Nat.add_mul] at this
    omega

theorem goes_stay {D h : V} (hh : h ∈ units) (k : Nat) : Goes W isWall cost goal M (pose D h) D k :=
  ⟨[pose D h], h, 0, rfl, rfl, hh, .single _, Nat.zero_le _⟩

theorem inFrame_eq (f s c : V) : inFrame f s c = (c.1 * f.1 + c.2 * s.1, c.1 * f.2 + c.2 * s.2) := rfl

/-! ## The moves in coordinates -/

section moves
variable {C e s : V} (he : e ∈ units) (hs : Perp e s) (hC : Even C) (hr : InRange W C)

private theorem veq {a b : V} (h1 : a.1 = b.1) (h2 : a.2 = b.2) : a = b := Prod.ext h1 h2

include he in
theorem mv_straight (hC : Even C) (hr : InRange W C) (o1 : OpenPos W isWall (add C e)) (r : InRange W (next C e)) :
    Drivable W isWall (pose C e) (.straight 1) (pose (next C e) e) := by
  have e1 : add C (inFrame e (e.2, -e.1) (2 * (1 : Nat), 0)) = next C e := by simp [add, inFrame_eq, next]
  have e2 : inFrame e (e.2, -e.1) (1, 0) = e := by simp [inFrame_eq]
  have h := centre_move (W := W) (isWall := isWall) (e := e) he (Or.inl rfl) hC hr (FromCentre.straight 1 (le_refl _)) ?_ (by rw [e1]; exact r)
  · rwa [e1, e2] at h
  · intro d hd
    obtain rfl : d = (1, 0) := by simpa using hd
    rw [e2]; exact o1

include he hs hC hr in
theorem mv_slalom90 (o1 : OpenPos W isWall (add C e)) (o2 : OpenPos W isWall (add (next C e) s)) (r : InRange W (next (next C e) s)) :
    Drivable W isWall (pose C e) .slalom90 (pose (next (next C e) s) s) := by
  have e1 : add C (inFrame e s (2, 2)) = next (next C e) s := by simp [add, inFrame_eq, next]; constructor <;> ring
  have e2 : inFrame e s (0, 1) = s := by simp [inFrame_eq]
  have h := centre_move (W := W) (isWall := isWall) he hs hC hr FromCentre.slalom90 ?_ (by rw [e1]; exact r)
  · rwa [e1, e2] at h
  · intro d hd
    simp only [List.mem_cons, List.not_mem_nil, or_false] at hd
    rcases hd with rfl | rfl
    · rw [show inFrame e s (1, 0) = e by simp [inFrame_eq]]; exact o1
    · rw [show add C (inFrame e s (2, 1)) = add (next C e) s by simp [add, inFrame_eq, next]; constructor <;> ring]; exact o2

include he hs hC hr in
theorem mv_slalom45 (o1 : OpenPos W isWall (add C e)) (o2 : OpenPos W isWall (add (next C e) s)) :
    Drivable W isWall (pose C e) .slalom45 (pose (add (next C e) s) (add e s)) := by
  have e1 : add C (inFrame e s (2, 1)) = add (next C e) s := by simp [add, inFrame_eq, next]; constructor <;> ring
  have e2 : inFrame e s (1, 1) = add e s := by simp [inFrame_eq, add]
  have h := centre_move (W := W) (isWall := isWall) he hs hC hr FromCentre.slalom45 ?_ (by rw [e1]; exact openPos_range o2)
  · rwa [e1, e2] at h
  · intro d hd
    simp only [List.mem_cons, List.not_mem_nil, or_false] at hd
    rcases hd with rfl | rfl
    · rw [show inFrame e s (1, 0) = e by simp [inFrame_eq]]; exact o1
    · rw [e1]; exact o2

include he hs hC hr in
theorem mv_slalom180 (o1 : OpenPos W isWall (add C e)) (o2 : OpenPos W isWall (add (next C e) s))
    (o3 : OpenPos W isWall (add (next (next C e) s) (neg e))) (r : InRange W (next (next (next C e) s) (neg e))) :
    Drivable W isWall (pose C e) .slalom180 (pose (next (next (next C e) s) (neg e)) (neg e)) := by
  have e1 : add C (inFrame e s (0, 2)) = next (next (next C e) s) (neg e) := by simp [add, inFrame_eq, next, neg]; constructor <;> ring
  have e2 : inFrame e s (-1, 0) = neg e := by simp [inFrame_eq, neg]
  have h := centre_move (W := W) (isWall := isWall) he hs hC hr FromCentre.slalom180 ?_ (by rw [e1]; exact r)
  · rwa [e1, e2] at h
  · intro d hd
    simp only [List.mem_cons, List.not_mem_nil, or_false] at hd
    rcases hd with rfl | rfl | rfl
    · rw [show inFrame e s (1, 0) = e by simp [inFrame_eq]]; exact o1
    · rw [show add C (inFrame e s (2, 1)) = add (next C e) s by simp [add, inFrame_eq, next]; constructor <;> ring]; exact o2
    · rw [show add C (inFrame e s (1, 2)) = add (next (next C e) s) (neg e) by simp [add, inFrame_eq, next, neg]; constructor <;> ring]; exact o3

include he hs hC hr in
theorem mv_slalom135 (o1 : OpenPos W isWall (add C e)) (o2 : OpenPos W isWall (add (next C e) s))
    (o3 : OpenPos W isWall (add (next (next C e) s) (neg e))) :
    Drivable W isWall (pose C e) .slalom135 (pose (add (next (next C e) s) (neg e)) (add (neg e) s)) := by
  have e1 : add C (inFrame e s (1, 2)) = add (next (next C e) s) (neg e) := by simp [add, inFrame_eq, next, neg]; constructor <;> ring
  have e2 : inFrame e s (-1, 1) = add (neg e) s := by simp [inFrame_eq, neg, add]
  have h := centre_move (W := W) (isWall := isWall) he hs hC hr FromCentre.slalom135 ?_ (by rw [e1]; exact openPos_range o3)
  · rwa [e1, e2] at h
  · intro d hd
    simp only [List.mem_cons, List.not_mem_nil, or_false] at hd
    rcases hd with rfl | rfl | rfl
    · rw [show inFrame e s (1, 0) = e by simp [inFrame_eq]]; exact o1
    · rw [show add C (inFrame e s (2, 1)) = add (next C e) s by simp [add, inFrame_eq, next]; constructor <;> ring]; exact o2
    · rw [e1]; exact o3

include he hs hC in
theorem mw_slalom45 (o1 : OpenPos W isWall (add C e)) (o2 : OpenPos W isWall (add (next C e) s)) (r : InRange W (next (next C e) s)) :
    Drivable W isWall (pose (add C e) (add e s)) .slalom45 (pose (next (next C e) s) s) := by
  have e1 : add (add C e) (inFrame e s (1, 2)) = next (next C e) s := by simp [add, inFrame_eq, next]; constructor <;> ring
  have e2 : inFrame e s (0, 1) = s := by simp [inFrame_eq]
  have h := wall_move (W := W) (isWall := isWall) he hs hC (openPos_range o1) FromWall.slalom45 ?_ (by rw [e1]; exact r)
  · rwa [e1, e2] at h
  · intro d hd
    obtain rfl : d = (1, 1) := by simpa using hd
    rw [show add (add C e) (inFrame e s (1, 1)) = add (next C e) s by simp [add, inFrame_eq, next]; constructor <;> ring]; exact o2

include he hs hC in
theorem mw_diagonal (o1 : OpenPos W isWall (add C e)) (o2 : OpenPos W isWall (add (next C e) s)) :
    Drivable W isWall (pose (add C e) (add e s)) (.straightDiagonal 1) (pose (add (next C e) s) (add s e)) := by
  have e1 : add (add C e) (inFrame e s ((1 : Nat), (1 : Nat))) = add (next C e) s := by simp [add, inFrame_eq, next]; constructor <;> ring
  have e2 : inFrame e s (1, 1) = add s e := by simp [inFrame_eq, add, add_comm]
  have h := wall_move (W := W) (isWall := isWall) he hs hC (openPos_range o1) (FromWall.straightDiagonal 1 (le_refl _)) ?_
    (by rw [e1]; exact openPos_range o2)
  · rwa [e1, e2] at h
  · intro d hd
    obtain rfl : d = (1, 1) := by simpa using hd
    rw [show add (add C e) (inFrame e s (1, 1)) = add (next C e) s by simp [add, inFrame_eq, next]; constructor <;> ring]; exact o2

include he hs hC in
theorem mw_slalom135 (o1 : OpenPos W isWall (add C e)) (o2 : OpenPos W isWall (add (next C e) s))
    (o3 : OpenPos W isWall (add (next (next C e) s) (neg e))) (r : InRange W (next (next (next C e) s) (neg e))) :
    Drivable W isWall (pose (add C e) (add e s)) .slalom135 (pose (next (next (next C e) s) (neg e)) (neg e)) := by
  have e1 : add (add C e) (inFrame e s (-1, 2)) = next (next (next C e) s) (neg e) := by
    simp [add, inFrame_eq, next, neg]; constructor <;> ring
  have e2 : inFrame e s (-1, 0) = neg e := by simp [inFrame_eq, neg]
  have h := wall_move (W := W) (isWall := isWall) he hs hC (openPos_range o1) FromWall.slalom135 ?_ (by rw [e1]; exact r)
  · rwa [e1, e2] at h
  · intro d hd
    simp only [List.mem_cons, List.not_mem_nil, or_false] at hd
    rcases hd with rfl | rfl
    · rw [show add (add C e) (inFrame e s (1, 1)) = add (next C e) s by simp [add, inFrame_eq, next]; constructor <;> ring]; exact o2
    · rw [show add (add C e) (inFrame e s (0, 2)) = add (next (next C e) s) (neg e) by
        simp [add, inFrame_eq, next, neg]; constructor <;> ring]; exact o3

include he hs hC in
theorem mw_diagonal90 (o1 : OpenPos W isWall (add C e)) (o2 : OpenPos W isWall (add (next C e) s))
    (o3 : OpenPos W isWall (add (next (next C e) s) (neg e))) :
    Drivable W isWall (pose (add C e) (add e s)) .slalomDiagonal90 (pose (add (next (next C e) s) (neg e)) (add (neg e) s)) := by
  have e1 : add (add C e) (inFrame e s (0, 2)) = add (next (next C e) s) (neg e) := by
    simp [add, inFrame_eq, next, neg]; constructor <;> ring
  have e2 : inFrame e s (-1, 1) = add (neg e) s := by simp [inFrame_eq, neg, add]
  have h := wall_move (W := W) (isWall := isWall) he hs hC (openPos_range o1) FromWall.slalomDiagonal90 ?_
    (by rw [e1]; exact openPos_range o3)
  · rwa [e1, e2] at h
  · intro d hd
    simp only [List.mem_cons, List.not_mem_nil, or_false] at hd
    rcases hd with rfl | rfl
    · rw [show add (add C e) (inFrame e s (1, 1)) = add (next C e) s by simp [add, inFrame_eq, next]; constructor <;> ring]; exact o2
    · rw [e1]; exact o3

end moves

theorem neg_neg' (e : V) : neg (neg e) = e := by simp [neg]

theorem good_tail {e : V} {es : List V} (h : Good (e :: es)) : Good es := h.2.2

/-- From a cell and from a wall on the way the rest of the way can be driven. -/
theorem goes_all (hM : Enough W cost goal M) (N : Nat) :
    (∀ C e es, es.length < N → Even C → InRange W C → Walk W isWall C (e :: es) → Good (e :: es) →
      Goes W isWall cost goal M (pose C e) (endOf C (e :: es)) (es.length + 1)) ∧
    (∀ C e s es, es.length < N → Even C → Perp e s → Walk W isWall C (e :: s :: es) → Good (e :: s :: es) →
      Goes W isWall cost goal M (pose (add C e) (add e s)) (endOf C (e :: s :: es)) (es.length + 1)) := by
  induction N with
  | zero => exact ⟨fun _ _ _ h => absurd h (Nat.not_lt_zero _), fun _ _ _ _ h => absurd h (Nat.not_lt_zero _)⟩
  | succ N ih =>
    obtain ⟨ihA, ihB⟩ := ih
    constructor
    · intro C e es hN hC hr hw hg
      obtain ⟨he, o1, r1, hw⟩ := hw
      cases es with
      | nil => exact goes_step hM (by decide) (mv_straight he hC hr o1 r1) (goes_stay he 0) (by simp)
      | cons s es =>
        have hw' := hw
        obtain ⟨hs, o2, r2, hw2⟩ := hw
        simp only [List.length_cons] at hN ⊢
        rcases two he hs with rfl | rfl | hp
        · exact goes_step hM (by decide) (mv_straight he hC hr o1 r1) (ihA _ _ es (by omega) (even_next hC) r1 hw' (good_tail hg)) (le_refl _)
        · exact absurd rfl (hg.1 _ _ rfl)
        · cases es with
          | nil => exact goes_step hM (by decide) (mv_slalom90 he hp hC hr o1 o2 r2) (goes_stay hs 0) (by simp)
          | cons e2 es =>
            have hw2' := hw2
            obtain ⟨he2, o3, r3, hw3⟩ := hw2
            simp only [List.length_cons] at hN ⊢
            rcases four he hp he2 with rfl | rfl | rfl | rfl
            · -- diagonal
              have hB := ihB (next C e2) s e2 es (by omega) (even_next hC) (perp_symm hp) hw' (good_tail hg)
              rw [show add s e2 = add e2 s by simp [add, add_comm]] at hB
              exact goes_step hM (by decide) (mv_slalom45 he hp hC hr o1 o2) hB (by omega)
            · -- back
              cases es with
              | nil => exact goes_step hM (by decide) (mv_slalom180 he hp hC hr o1 o2 o3 r3) (goes_stay he2 0) (by simp)
              | cons e3 es =>
                have hw3' := hw3
                obtain ⟨he3, o4, r4, hw4⟩ := hw3
                simp only [List.length_cons] at hN ⊢
                rcases four he hp he3 with rfl | rfl | rfl | rfl
                · exact absurd (neg_neg' _).symm ((good_tail (good_tail hg)).1 _ _ rfl)
                · exact goes_step hM (by decide) (mv_slalom180 he hp hC hr o1 o2 o3 r3)
                    (ihA _ _ es (by omega) (even_next (even_next (even_next hC))) r3 hw3' (good_tail (good_tail (good_tail hg)))) (by omega)
                · exact goes_step hM (by decide) (mv_slalom135 he hp hC hr o1 o2 o3)
                    (ihB (next (next C e) e3) (neg e) e3 es (by omega) (even_next (even_next hC)) (perp_neg hp) hw2' (good_tail (good_tail hg)))
                    (by omega)
                · exact absurd ⟨rfl, rfl⟩ (hg.2.1 _ _ _ _ rfl)
            · exact goes_step hM (by decide) (mv_slalom90 he hp hC hr o1 o2 r2)
                (ihA _ _ es (by omega) (even_next (even_next hC)) r2 hw2' (good_tail (good_tail hg))) (by omega)
            · exact absurd rfl ((good_tail hg).1 _ _ rfl)
    · intro C e s es hN hC hp hw hg
      have hw0 := hw
      obtain ⟨he, o1, r1, hw⟩ := hw
      have hw' := hw
      obtain ⟨hs, o2, r2, hw2⟩ := hw
      cases es with
      | nil => exact goes_step hM (by decide) (mw_slalom45 he hp hC o1 o2 r2) (goes_stay hs 0) (by simp)
      | cons e2 es =>
        have hw2' := hw2
        obtain ⟨he2, o3, r3, hw3⟩ := hw2
        simp only [List.length_cons] at hN ⊢
        rcases four he hp he2 with rfl | rfl | rfl | rfl
        · exact goes_step hM (by decide) (mw_diagonal he hp hC o1 o2)
            (ihB (next C e2) s e2 es (by omega) (even_next hC) (perp_symm hp) hw' (good_tail hg)) (by omega)
        · cases es with
          | nil => exact goes_step hM (by decide) (mw_slalom135 he hp hC o1 o2 o3 r3) (goes_stay he2 0) (by simp)
          | cons e3 es =>
            have hw3' := hw3
            obtain ⟨he3, o4, r4, hw4⟩ := hw3
            simp only [List.length_cons] at hN ⊢
            rcases four he hp he3 with rfl | rfl | rfl | rfl
            · exact absurd (neg_neg' _).symm ((good_tail (good_tail hg)).1 _ _ rfl)
            · exact goes_step hM (by decide) (mw_slalom135 he hp hC o1 o2 o3 r3)
                (ihA _ _ es (by omega) (even_next (even_next (even_next hC))) r3 hw3' (good_tail (good_tail (good_tail hg)))) (by omega)
            · exact goes_step hM (by decide) (mw_diagonal90 he hp hC o1 o2 o3)
                (ihB (next (next C e) e3) (neg e) e3 es (by omega) (even_next (even_next hC)) (perp_neg hp) hw2' (good_tail (good_tail hg)))
                (by omega)
            · exact absurd ⟨rfl, rfl⟩ (hg.2.1 _ _ _ _ rfl)
        · exact goes_step hM (by decide) (mw_slalom45 he hp hC o1 o2 r2)
            (ihA _ _ es (by omega) (even_next (even_next hC)) r2 hw2' (good_tail (good_tail hg))) (by omega)
        · exact absurd rfl ((good_tail hg).1 _ _ rfl)

/-! ## Simple ways -/

theorem exists_simple {α : Type} {r : α → α → Prop} [DecidableEq α] {a b : α} (h : Relation.ReflTransGen r a b) :
    ∃ l : List α, (a :: l).IsChain r ∧ (a :: l).getLast? = some b ∧ (a :: l).Nodup := by
  induction h using Relation.ReflTransGen.head_induction_on with
  | refl => exact ⟨[], .singleton _, rfl, by simp⟩
  | head hac _ ih =>
    rename_i a c _
    obtain ⟨l, h1, h2, h3⟩ := ih
    by_cases ha : a ∈ c :: l
    · obtain ⟨s, t, hst⟩ := List.append_of_mem ha
      rw [hst] at h1 h2 h3
      exact ⟨t, (List.isChain_append.mp h1).2.1, by simpa using h2, (List.nodup_append.mp h3).2.1⟩
    · exact ⟨c :: l, .cons_cons hac h1, by simpa using h2, List.nodup_cons.mpr ⟨ha, h3⟩⟩

/-- The cells of a walk. -/
def cellsOf : V → List V → List V
  | C, [] => [C]
  | C, e :: es => C :: cellsOf (next C e) es

theorem cellsOf_length (es : List V) : ∀ C, (cellsOf C es).length = es.length + 1 := by
  induction es with
  | nil => intro C; rfl
  | cons e es ih => intro C; simp [cellsOf, ih]

theorem good_of_nodup (es : List V) : ∀ C, (cellsOf C es).Nodup → Good es := by
  induction es with
  | nil => intro C _; trivial
  | cons e es ih =>
    intro C h
    have h0 : C ∉ cellsOf (next C e) es := (List.nodup_cons.mp h).1
    refine ⟨?_, ?_, ih _ (List.nodup_cons.mp h).2⟩
    · rintro e1 es' rfl rfl
      apply h0
      have : next (next C e) (neg e) = C := by simp [next, neg]
      cases es' <;> simp [cellsOf, this]
    · rintro e1 e2 e3 es' rfl ⟨rfl, rfl⟩
      apply h0
      have : next (next (next (next C e) e1) (neg e)) (neg e1) = C := by
        ext <;> simp [next, neg] <;> ring
      cases es' <;> simp [cellsOf, this]

theorem closed_joined {blocked : Wall → Bool} (hc : Closed W blocked) {C D : V} (hC : InRange W C)
    (h : Joined W (posBlocked blocked) C D) : InRange W D := by
  obtain ⟨c, ⟨h1, h2, e, he, hx, hy, rfl⟩, ⟨v1, v2, v3⟩, ho⟩ := h
  obtain ⟨x, y⟩ := c
  unfold posBlocked oldWallAt at ho
  obtain ⟨a, b, c, d⟩ := hC
  simp only at hx hy v1 v2 v3 ho
  simp only [List.mem_cons, List.not_mem_nil, or_false] at he
  unfold InRange
  rcases he with rfl | rfl | rfl | rfl <;> simp only at hx hy ⊢
  · have : y ≠ 2 * W - 1 := by
      rintro rfl
      have := (hc (x / 2) (by omega)).1
      rw [show (2 * W - 1) / 2 = W - 1 by omega, show decide (x % 2 = 0) = true by simp; omega] at ho
      rw [ho] at this; cases this
    omega
  · have : x ≠ 2 * W - 1 := by
      rintro rfl
      have := (hc (y / 2) (by omega)).2
      rw [show (2 * W - 1) / 2 = W - 1 by omega, show decide ((2 * W - 1) % 2 = 0) = false by simp; omega] at ho
      rw [ho] at this; cases this
    omega
  · omega
  · omega

theorem walk_of_chain {blocked : Wall → Bool} (hc : Closed W blocked) (l : List V) : ∀ C, InRange W C → (C :: l).IsChain (Joined W (posBlocked blocked)) →
    ∃ es, Walk W (posBlocked blocked) C es ∧ cellsOf C es = C :: l ∧ some (endOf C es) = (C :: l).getLast? ∧
      ∀ D ∈ l, InRange W D ∧ Even D := by
  induction l with
  | nil => intro C _ _; exact ⟨[], trivial, rfl, rfl, by simp⟩
  | cons D l ih =>
    intro C hC h
    obtain ⟨hj, h⟩ := List.isChain_cons_cons.mp h
    have hD := closed_joined hc hC hj
    obtain ⟨es, h1, h2, h3, h4⟩ := ih D hD h
    obtain ⟨c, ⟨p1, p2, e, he, hx, hy, rfl⟩, hv, ho⟩ := hj
    refine ⟨e :: es, ⟨he, ⟨c, hx, hy, hv, ho⟩, hD, h1⟩, by simp only [cellsOf]; rw [← h2]; rfl, ?_, ?_⟩
    · simp only [endOf, List.getLast?_cons_cons]
      exact h3
    · intro D' hD'
      rcases List.mem_cons.mp hD' with rfl | hD'
      · exact ⟨hD, even_next ⟨p1, p2⟩⟩
      · exact h4 D' hD'

theorem few_cells (l : List V) (hn : l.Nodup) (h : ∀ D ∈ l, InRange W D ∧ Even D) : l.length ≤ W * W := by
  have hs : l.toFinset ⊆ (Finset.range W ×ˢ Finset.range W).image (fun p => (((2 * p.1 : Nat) : Int), ((2 * p.2 : Nat) : Int))) := by
    intro D hD
    obtain ⟨⟨a, b, c, d⟩, e, f⟩ := h D (List.mem_toFinset.mp hD)
    rw [Finset.mem_image]
    refine ⟨(D.1.toNat / 2, D.2.toNat / 2), by simp; omega, Prod.ext ?_ ?_⟩ <;> simp only <;> omega
  have h1 := Finset.card_le_card hs
  rw [List.toFinset_card_of_nodup hn] at h1
  have h2 := Finset.card_image_le (s := Finset.range W ×ˢ Finset.range W) (f := fun p : Nat × Nat => (((2 * p.1 : Nat) : Int), ((2 * p.2 : Nat) : Int)))
  rw [Finset.card_product, Finset.card_range] at h2
  omega

/-- Connected cells: from one heading in the first, that looks at an opening, the other can be driven to. -/
theorem connected_goes {blocked : Wall → Bool} (hc : Closed W blocked) (hM : Enough W cost goal M) {C D : V} (hC : Even C) (hr : InRange W C)
    (hne : C ≠ D) (h : Connected W (posBlocked blocked) C D) :
    ∃ e ∈ units, OpenPos W (posBlocked blocked) (add C e) ∧ ∃ k, k + 1 ≤ W * W ∧ Goes W (posBlocked blocked) cost goal M (pose C e) D k := by
  obtain ⟨l, h1, h2, h3⟩ := exists_simple h
  obtain ⟨es, w1, w2, w3, w4⟩ := walk_of_chain hc l C hr h1
  have hlen : es.length + 1 ≤ W * W := by
    rw [← cellsOf_length es C, w2]
    refine few_cells _ h3 ?_
    intro D' hD'
    rcases List.mem_cons.mp hD' with rfl | hD'
    · exact ⟨hr, hC⟩
    · exact w4 D' hD'
  have hend : endOf C es = D := by rw [h2] at w3; exact Option.some.inj w3
  cases es with
  | nil => exact absurd hend hne
  | cons e es =>
    refine ⟨e, w1.1, w1.2.1, es.length + 1, hlen, ?_⟩
    have := (goes_all (isWall := posBlocked blocked) hM (es.length + 1)).1 C e es (by omega) hC hr w1 (good_of_nodup _ C (by rw [w2]; exact h3))
    rwa [hend] at this

/-! ## The converse -/

theorem vw_connected {a b : V} {l : List V} (h : OldS.VW a l b) (ha : Even a) (ho : ∀ p ∈ l, OpenPos W isWall p) : Connected W isWall a b := by
  induction h with
  | nil a => exact .refl
  | cons a e b l he h ih =>
    obtain ⟨c, h1, h2, h3, h4⟩ := ho _ (List.mem_cons_self ..)
    exact .head ⟨c, ⟨ha.1, ha.2, e, he, h1, h2, rfl⟩, h3, h4⟩ (ih (even_next ha) fun p hp => ho p (List.mem_cons_of_mem _ hp))

theorem path_connected {path : List Node} {c : Nat} {cost : EdgeKind → Nat} (h : FastPath W isWall cost path c) : ∀ {n g : Node},
    path.head? = some n → Legal W n → path.getLast? = some g → Connected W isWall (OldS.aheadOf n) (OldS.aheadOf g) := by
  induction h with
  | single x =>
    intro n g h1 _ h2
    cases h1; cases h2
    exact .refl
  | cons x m k l c hd _ ih =>
    intro n g h1 hn h2
    obtain rfl : x = n := by simpa using h1
    refine .trans ?_ (ih rfl (drivable_legal hn _ _ hd) (by simpa using h2))
    obtain ⟨crossed, hR, -, -, ho⟩ := hd
    refine vw_connected (OldS.move_walk hn hR) (OldS.aheadOf_even hn) ?_
    intro p hp
    obtain ⟨d, hd', rfl⟩ := List.mem_map.mp hp
    exact ho d hd'

theorem ahead_cell {n : Node} (h : CellPose W n) : OldS.aheadOf n = cellOf n := by
  unfold OldS.aheadOf
  rw [if_pos h.2]
  rfl

end Verif.Proof.OldR
