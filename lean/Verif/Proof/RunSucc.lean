import Verif.Proof.RunFlow
/-! The successors computed by the run planner are the drivable moves. -/
namespace Verif.Proof
open Verif Verif.Run Verif.Spec

variable {W : Nat} {isWall : Search.Coord → Bool} {n : Node}

theorem nodeAt_iff (d : V) (p : Posture) (m : Node) :
    ((m.x : Int) = n.x + (inFrame (e1 n.posture) (e2 n.posture) d).1 ∧
     (m.y : Int) = n.y + (inFrame (e1 n.posture) (e2 n.posture) d).2 ∧
     heading m.posture = inFrame (e1 n.posture) (e2 n.posture) (heading p) ∧ m.x < 2 * W ∧ m.y < 2 * W) ↔
    (InAt W n d ∧ m = nodeAt n d p) := by
  unfold InAt nodeAt
  rw [← heading_turned]
  generalize inFrame (e1 n.posture) (e2 n.posture) d = v
  obtain ⟨x, y, q⟩ := m
  constructor
  · rintro ⟨h1, h2, h3, h4, h5⟩
    have := heading_inj _ _ h3
    simp only at h1 h2 h4 h5 this
    subst this
    refine ⟨by simp only; omega, ?_⟩
    simp only [Node.mk.injEq, and_true]
    omega
  · rintro ⟨h, h'⟩
    simp only [Node.mk.injEq] at h h'
    obtain ⟨h1, h2, rfl⟩ := h'
    simp only [and_true, true_and]
    omega

theorem heading_eq_iff (p : Posture) (h : V) (q : Posture) (hq : heading q = h) :
    (∃ r : Posture, heading r = h ∧ r = p) ↔ p = q := by
  constructor
  · rintro ⟨r, h1, rfl⟩; exact heading_inj _ _ (h1.trans hq.symm)
  · rintro rfl; exact ⟨p, hq, rfl⟩

theorem centre_frame (hn : Legal W n) (hc : n.x % 2 = 0 ∧ n.y % 2 = 0) (f s : V) :
    Frame n f s ↔ ∃ σ : Int, (σ = 1 ∨ σ = -1) ∧ f = e2 n.posture ∧
      s = (σ * (e1 n.posture).1, σ * (e1 n.posture).2) := by
  obtain ⟨_, _, ⟨-, -, hp⟩ | ⟨h, -⟩⟩ := hn
  · unfold Frame
    simp only
    rw [if_pos hc]
    constructor
    · rintro ⟨rfl, rfl | rfl⟩
      · refine ⟨1, Or.inl rfl, ?_, ?_⟩ <;> (revert hp; cases n.posture <;> simp [heading, e1, e2])
      · refine ⟨-1, Or.inr rfl, ?_, ?_⟩ <;> (revert hp; cases n.posture <;> simp [heading, e1, e2])
    · rintro ⟨σ, rfl | rfl, rfl, rfl⟩ <;>
        (revert hp; cases n.posture <;> simp [heading, e1, e2])
  · omega

theorem inFrame_centre (p : Posture) (σ : Int) (c : V) :
    inFrame (e2 p) (σ * (e1 p).1, σ * (e1 p).2) c = inFrame (e1 p) (e2 p) (σ * c.2, c.1) := by
  unfold inFrame
  simp only [Prod.mk.injEq]
  constructor <;> ring

/-- The moves from a cell centre in the frame of the code. -/
def CentreSet (W : Nat) (isWall : Search.Coord → Bool) (n : Node) (σ : Int) (k : EdgeKind) (m : Node) : Prop :=
  (∃ j : Nat, 1 ≤ j ∧ k = .straight j ∧ (InAt W n (0, 2 * j) ∧ m = nodeAt n (0, 2 * j) .north) ∧
    ∀ i : Nat, i < j → OpenD W isWall n (0, 2 * i + 1)) ∨
  (k = .slalom45 ∧ (InAt W n (σ, 2) ∧ m = nodeAt n (σ, 2) (if σ = 1 then .northEast else .northWest)) ∧
    OpenD W isWall n (0, 1) ∧ OpenD W isWall n (σ, 2)) ∨
  (k = .slalom90 ∧ (InAt W n (σ * 2, 2) ∧ m = nodeAt n (σ * 2, 2) (if σ = 1 then .east else .west)) ∧
    OpenD W isWall n (0, 1) ∧ OpenD W isWall n (σ, 2)) ∨
  (k = .slalom135 ∧ (InAt W n (σ * 2, 1) ∧ m = nodeAt n (σ * 2, 1) (if σ = 1 then .southEast else .southWest)) ∧
    OpenD W isWall n (0, 1) ∧ OpenD W isWall n (σ, 2) ∧ OpenD W isWall n (σ * 2, 1)) ∨
  (k = .slalom180 ∧ (InAt W n (σ * 2, 0) ∧ m = nodeAt n (σ * 2, 0) .south) ∧
    OpenD W isWall n (0, 1) ∧ OpenD W isWall n (σ, 2) ∧ OpenD W isWall n (σ * 2, 1))

theorem drivable_centre (hn : Legal W n) (hc : n.x % 2 = 0 ∧ n.y % 2 = 0) (k : EdgeKind) (m : Node) :
    Drivable W isWall n k m ↔ ∃ σ : Int, (σ = 1 ∨ σ = -1) ∧ CentreSet W isWall n σ k m := by
  unfold Drivable Related Shape
  rw [if_pos hc]
  constructor
  · rintro ⟨crossed, ⟨f, s, fin, head, cr, hf, hsh, hx, hy, hh, rfl⟩, hmx, hmy, hopen⟩
    obtain ⟨σ, hσ, rfl, rfl⟩ := (centre_frame hn hc f s).mp hf
    refine ⟨σ, hσ, ?_⟩
    rw [inFrame_centre] at hx hy hh
    simp only [List.mem_map, forall_exists_index, and_imp, forall_apply_eq_imp_iff₂, inFrame_centre] at hopen
    have key : ∀ p : Posture, heading p = (σ * head.2, head.1) →
        InAt W n (σ * fin.2, fin.1) ∧ m = nodeAt n (σ * fin.2, fin.1) p := fun p hp =>
      (nodeAt_iff _ p m).mp ⟨hx, hy, by rw [hh, hp], hmx, hmy⟩
    cases hsh with
    | straight j hj =>
      refine Or.inl ⟨j, hj, rfl, ?_, ?_⟩
      · have := key .north (by simp [heading])
        simpa using this
      · intro i hi
        have := hopen (2 * i + 1, 0) (by simpa using hi)
        simpa [OpenD] using this
    | slalom45 =>
      refine Or.inr (Or.inl ⟨rfl, ?_, ?_, ?_⟩)
      · have := key (if σ = 1 then .northEast else .northWest) (by rcases hσ with rfl | rfl <;> rfl)
        simpa using this
      · simpa [OpenD] using hopen (1, 0) (by simp)
      · simpa [OpenD] using hopen (2, 1) (by simp)
    | slalom90 =>
      refine Or.inr (Or.inr (Or.inl ⟨rfl, ?_, ?_, ?_⟩))
      · have := key (if σ = 1 then .east else .west) (by rcases hσ with rfl | rfl <;> rfl)
        simpa using this
      · simpa [OpenD] using hopen (1, 0) (by simp)
      · simpa [OpenD] using hopen (2, 1) (by simp)
    | slalom135 =>
      refine Or.inr (Or.inr (Or.inr (Or.inl ⟨rfl, ?_, ?_, ?_, ?_⟩)))
      · have := key (if σ = 1 then .southEast else .southWest) (by rcases hσ with rfl | rfl <;> rfl)
        simpa using this
      · simpa [OpenD] using hopen (1, 0) (by simp)
      · simpa [OpenD] using hopen (2, 1) (by simp)
      · simpa [OpenD] using hopen (1, 2) (by simp)
    | slalom180 =>
      refine Or.inr (Or.inr (Or.inr (Or.inr ⟨rfl, ?_, ?_, ?_, ?_⟩)))
      · have := key .south (by rcases hσ with rfl | rfl <;> rfl)
        simpa using this
      · simpa [OpenD] using hopen (1, 0) (by simp)
      · simpa [OpenD] using hopen (2, 1) (by simp)
      · simpa [OpenD] using hopen (1, 2) (by simp)
  · rintro ⟨σ, hσ, h⟩
    have hf := (centre_frame hn hc _ _).mpr ⟨σ, hσ, rfl, rfl⟩
    have key : ∀ (p : Posture) (fin head : V) (cr : List V), FromCentre k fin head cr →
        heading p = (σ * head.2, head.1) → (InAt W n (σ * fin.2, fin.1) ∧ m = nodeAt n (σ * fin.2, fin.1) p) →
        (∀ c ∈ cr, OpenD W isWall n (σ * c.2, c.1)) →
        ∃ crossed, (∃ f s fin head cr, Frame n f s ∧ FromCentre k fin head cr ∧
          (m.x : Int) = n.x + (inFrame f s fin).1 ∧ (m.y : Int) = n.y + (inFrame f s fin).2 ∧
          heading m.posture = inFrame f s head ∧ crossed = cr.map (inFrame f s)) ∧
          m.x < 2 * W ∧ m.y < 2 * W ∧ ∀ d ∈ crossed, OpenAt W isWall n d := by
      intro p fin head cr hk hp hm ho
      obtain ⟨h1, h2, h3, h4, h5⟩ := (nodeAt_iff _ p m).mpr hm
      refine ⟨_, ⟨_, _, fin, head, cr, hf, hk, ?_, ?_, ?_, rfl⟩, h4, h5, ?_⟩
      · rw [inFrame_centre]; exact h1
      · rw [inFrame_centre]; exact h2
      · rw [inFrame_centre, h3, hp]
      · intro d hd
        obtain ⟨c, hc, rfl⟩ := List.mem_map.mp hd
        rw [inFrame_centre]
        exact ho c hc
    rcases h with ⟨j, hj, rfl, hm, ho⟩ | ⟨rfl, hm, h1, h2⟩ | ⟨rfl, hm, h1, h2⟩ | ⟨rfl, hm, h1, h2, h3⟩ |
      ⟨rfl, hm, h1, h2, h3⟩
    · refine key .north _ _ _ (.straight j hj) (by simp [heading]) (by simpa using hm) ?_
      intro c hc
      obtain ⟨i, hi, rfl⟩ := List.mem_map.mp hc
      simpa using ho i (by simpa using hi)
    · refine key (if σ = 1 then .northEast else .northWest) _ _ _ .slalom45 (by rcases hσ with rfl | rfl <;> rfl) (by simpa using hm) ?_
      intro c hc
      simp only [List.mem_cons, List.not_mem_nil, or_false] at hc
      rcases hc with rfl | rfl <;> simpa
    · refine key (if σ = 1 then .east else .west) _ _ _ .slalom90 (by rcases hσ with rfl | rfl <;> rfl) (by simpa using hm) ?_
      intro c hc
      simp only [List.mem_cons, List.not_mem_nil, or_false] at hc
      rcases hc with rfl | rfl <;> simpa
    · refine key (if σ = 1 then .southEast else .southWest) _ _ _ .slalom135 (by rcases hσ with rfl | rfl <;> rfl) (by simpa using hm) ?_
      intro c hc
      simp only [List.mem_cons, List.not_mem_nil, or_false] at hc
      rcases hc with rfl | rfl | rfl <;> simpa
    · refine key .south _ _ _ .slalom180 (by rcases hσ with rfl | rfl <;> rfl) (by simpa using hm) ?_
      intro c hc
      simp only [List.mem_cons, List.not_mem_nil, or_false] at hc
      rcases hc with rfl | rfl | rfl <;> simpa


/-- Coordinates in the frame of the code of a vector given in the frame (across, along) of a wall. -/
def sw (L : Bool) (c : V) : V := if L then c else (c.2, c.1)

/-- The pose is on a wall and the next turn (towards the wall line) is to the left. -/
def IsLeft (n : Node) : Bool :=
  decide (n.x % 2 = 1) == decide (n.posture = .northEast ∨ n.posture = .southWest)

theorem wall_frame (hn : Legal W n) (hc : ¬ (n.x % 2 = 0 ∧ n.y % 2 = 0)) (f s : V) :
    Frame n f s ↔ f = (if IsLeft n then e1 n.posture else e2 n.posture) ∧
      s = (if IsLeft n then e2 n.posture else e1 n.posture) := by
  obtain ⟨_, _, ⟨h, h', -⟩ | ⟨h, hp⟩⟩ := hn
  · omega
  · unfold Frame IsLeft
    simp only
    rw [if_neg hc]
    by_cases hx : n.x % 2 = 1
    · rw [if_pos hx]
      revert hp
      cases n.posture <;> simp [heading, e1, e2, hx]
    · rw [if_neg hx]
      revert hp
      cases n.posture <;> simp [heading, e1, e2, hx]

theorem inFrame_wall (L : Bool) (p : Posture) (c : V) :
    inFrame (if L then e1 p else e2 p) (if L then e2 p else e1 p) c = inFrame (e1 p) (e2 p) (sw L c) := by
  unfold inFrame sw
  cases L
  · simp only [Bool.false_eq_true, if_false, Prod.mk.injEq]
    constructor <;> ring
  · rfl

/-- The moves from a wall in the frame of the code. -/
def WallSet (W : Nat) (isWall : Search.Coord → Bool) (n : Node) (L : Bool) (k : EdgeKind) (m : Node) : Prop :=
  (∃ j : Nat, 1 ≤ j ∧ k = .straightDiagonal j ∧ (InAt W n (j, j) ∧ m = nodeAt n (j, j) .northEast) ∧
    ∀ i : Nat, i < j → OpenD W isWall n (i + 1, i + 1)) ∨
  (k = .slalom45 ∧ (InAt W n (sw L (1, 2)) ∧ m = nodeAt n (sw L (1, 2)) (if L then .north else .east)) ∧
    OpenD W isWall n (1, 1)) ∨
  (k = .slalomDiagonal90 ∧ (InAt W n (sw L (0, 2)) ∧ m = nodeAt n (sw L (0, 2)) (if L then .northWest else .southEast)) ∧
    OpenD W isWall n (1, 1) ∧ OpenD W isWall n (sw L (0, 2))) ∨
  (k = .slalom135 ∧ (InAt W n (sw L (-1, 2)) ∧ m = nodeAt n (sw L (-1, 2)) (if L then .west else .south)) ∧
    OpenD W isWall n (1, 1) ∧ OpenD W isWall n (sw L (0, 2)))

theorem drivable_wall (hn : Legal W n) (hc : ¬ (n.x % 2 = 0 ∧ n.y % 2 = 0)) (k : EdgeKind) (m : Node) :
    Drivable W isWall n k m ↔ WallSet W isWall n (IsLeft n) k m := by
  have swd : ∀ (L : Bool) (i : Int), sw L (i, i) = (i, i) := fun L i => by cases L <;> rfl
  unfold Drivable Related Shape
  rw [if_neg hc]
  have hfr := wall_frame hn hc
  generalize IsLeft n = L at *
  constructor
  · rintro ⟨crossed, ⟨f, s, fin, head, cr, hf, hsh, hx, hy, hh, rfl⟩, hmx, hmy, hopen⟩
    obtain ⟨rfl, rfl⟩ := (hfr f s).mp hf
    rw [inFrame_wall] at hx hy hh
    simp only [List.mem_map, forall_exists_index, and_imp, forall_apply_eq_imp_iff₂, inFrame_wall] at hopen
    have key : ∀ p : Posture, heading p = sw L head →
        InAt W n (sw L fin) ∧ m = nodeAt n (sw L fin) p := fun p hp =>
      (nodeAt_iff _ p m).mp ⟨hx, hy, by rw [hh, hp], hmx, hmy⟩
    cases hsh with
    | straightDiagonal j hj =>
      refine Or.inl ⟨j, hj, rfl, ?_, ?_⟩
      · have := key .northEast (by cases L <;> rfl)
        rwa [swd] at this
      · intro i hi
        have := hopen (i + 1, i + 1) (by simpa using hi)
        rwa [swd] at this
    | slalom45 =>
      refine Or.inr (Or.inl ⟨rfl, key _ (by cases L <;> rfl), ?_⟩)
      have := hopen (1, 1) (by simp)
      rwa [swd] at this
    | slalomDiagonal90 =>
      refine Or.inr (Or.inr (Or.inl ⟨rfl, key _ (by cases L <;> rfl), ?_, hopen (0, 2) (by simp)⟩))
      have := hopen (1, 1) (by simp)
      rwa [swd] at this
    | slalom135 =>
      refine Or.inr (Or.inr (Or.inr ⟨rfl, key _ (by cases L <;> rfl), ?_, hopen (0, 2) (by simp)⟩))
      have := hopen (1, 1) (by simp)
      rwa [swd] at this
  · intro h
    have hf := (hfr _ _).mpr ⟨rfl, rfl⟩
    have key : ∀ (p : Posture) (fin head : V) (cr : List V), FromWall k fin head cr →
        heading p = sw L head → (InAt W n (sw L fin) ∧ m = nodeAt n (sw L fin) p) →
        (∀ c ∈ cr, OpenD W isWall n (sw L c)) →
        ∃ crossed, (∃ f s fin head cr, Frame n f s ∧ FromWall k fin head cr ∧
          (m.x : Int) = n.x + (inFrame f s fin).1 ∧ (m.y : Int) = n.y + (inFrame f s fin).2 ∧
          heading m.posture = inFrame f s head ∧ crossed = cr.map (inFrame f s)) ∧
          m.x < 2 * W ∧ m.y < 2 * W ∧ ∀ d ∈ crossed, OpenAt W isWall n d := by
      intro p fin head cr hk hp hm ho
      obtain ⟨h1, h2, h3, h4, h5⟩ := (nodeAt_iff _ p m).mpr hm
      refine ⟨_, ⟨_, _, fin, head, cr, hf, hk, ?_, ?_, ?_, rfl⟩, h4, h5, ?_⟩
      · rw [inFrame_wall]; exact h1
      · rw [inFrame_wall]; exact h2
      · rw [inFrame_wall, h3, hp]
      · intro d hd
        obtain ⟨c, hc, rfl⟩ := List.mem_map.mp hd
        rw [inFrame_wall]
        exact ho c hc
    rcases h with ⟨j, hj, rfl, hm, ho⟩ | ⟨rfl, hm, h1⟩ | ⟨rfl, hm, h1, h2⟩ | ⟨rfl, hm, h1, h2⟩
    · refine key .northEast _ _ _ (.straightDiagonal j hj) (by cases L <;> rfl) (by rwa [swd]) ?_
      intro c hc
      obtain ⟨i, hi, rfl⟩ := List.mem_map.mp hc
      rw [swd]
      exact ho i (by simpa using hi)
    · refine key (if L then .north else .east) _ _ _ .slalom45 (by cases L <;> rfl) hm ?_
      intro c hc
      simp only [List.mem_cons, List.not_mem_nil, or_false] at hc
      rw [hc, swd]; exact h1
    · refine key (if L then .northWest else .southEast) _ _ _ .slalomDiagonal90 (by cases L <;> rfl) hm ?_
      intro c hc
      simp only [List.mem_cons, List.not_mem_nil, or_false] at hc
      rcases hc with rfl | rfl
      · rw [swd]; exact h1
      · exact h2
    · refine key (if L then .west else .south) _ _ _ .slalom135 (by cases L <;> rfl) hm ?_
      intro c hc
      simp only [List.mem_cons, List.not_mem_nil, or_false] at hc
      rcases hc with rfl | rfl
      · rw [swd]; exact h1
      · exact h2

end Verif.Proof
