import Verif.Proof.RunSucc
/-! The successors computed by the run planner, case by case. -/
namespace Verif.Proof
open Verif Verif.Run Verif.Spec

variable {W : Nat} {isWall : Search.Coord → Bool} {n : Node}

theorem not_inAt_far (hW : Supported W) (hn : Legal W n) (d : V) (h : 2 * (W : Int) ≤ d.2) : ¬ InAt W n d := by
  obtain ⟨h1, h2, -⟩ := hn
  obtain ⟨d1, d2⟩ := d
  obtain ⟨x, y, p⟩ := n
  unfold InAt
  cases p <;> simp only [inFrame, e1, e2] at * <;> omega

theorem inAt_mix {a b c d : Int} (h1 : InAt W n (a, b)) (h2 : InAt W n (c, d)) : InAt W n (c, b) := by
  obtain ⟨x, y, p⟩ := n
  unfold InAt at *
  cases p <;> simp only [inFrame, e1, e2] at * <;> omega

theorem straight_loop (hW : Supported W) (hn : Legal W n) (hc : n.x % 2 = 0 ∧ n.y % 2 = 0) :
    Yields (tryForEach (fun i => (n.cont W isWall 0 (2 * i - 1)).then
        (n.add W 0 (2 * i) .north (.straight i))) 63 1) False
      (fun e => ∃ j : Nat, 1 ≤ j ∧ (∀ k : Nat, 1 ≤ k → k ≤ j → OpenD W isWall n (0, 2 * k - 1) ∧ InAt W n (0, 2 * k)) ∧
        e = (nodeAt n (0, 2 * j) .north, .straight j)) W := by
  have := hW.le
  have := hW.pos
  refine loop_yields hW hn (fun i : Nat => (0, 2 * (i : Int) - 1)) (fun i : Nat => (0, 2 * (i : Int))) .north
    (fun i => .straight i) (W + 1) 63 (by omega) (by omega) ?_ ?_ ?_
  · intro i h1 h2; simp only; omega
  · intro i h1 h2; simp only; omega
  · exact not_inAt_far hW hn _ (by simp only; omega)

theorem diagonal_loop (hW : Supported W) (hn : Legal W n) (hc : ¬ (n.x % 2 = 0 ∧ n.y % 2 = 0)) :
    Yields (tryForEach (fun i => (n.cont W isWall i i).then
        (n.add W i i .northEast (.straightDiagonal i))) 127 1) False
      (fun e => ∃ j : Nat, 1 ≤ j ∧ (∀ k : Nat, 1 ≤ k → k ≤ j → OpenD W isWall n (k, k) ∧ InAt W n (k, k)) ∧
        e = (nodeAt n (j, j) .northEast, .straightDiagonal j)) (2 * W - 1) := by
  have := hW.le
  have := hW.pos
  refine loop_yields hW hn (fun i : Nat => ((i : Int), (i : Int))) (fun i : Nat => ((i : Int), (i : Int))) .northEast
    (fun i => .straightDiagonal i) (2 * W) 127 (by omega) (by omega) ?_ ?_ ?_
  · intro i h1 h2
    have : (n.x + n.y) % 2 = 1 := by
      obtain ⟨_, _, h | h⟩ := hn
      · exact absurd ⟨h.1, h.2.1⟩ hc
      · exact h.1
    simp only; omega
  · intro i h1 h2; simp only; omega
  · exact not_inAt_far hW hn _ (by simp only; omega)

theorem centre_yields (hW : Supported W) (hn : Legal W n) (hc : n.x % 2 = 0 ∧ n.y % 2 = 0) :
    Yields (n.flowCentre W isWall) False
      (fun e => ∃ σ : Int, (σ = 1 ∨ σ = -1) ∧ CentreSet W isWall n σ e.2 e.1) (W + 8) := by
  have C : ∀ dx dy : Int, -2 ≤ dx → dx ≤ 2 → -2 ≤ dy → dy ≤ 2 → (dx + dy) % 2 = 1 →
      Yields (n.cont W isWall dx dy) (OpenD W isWall n (dx, dy)) (fun _ => False) 0 := fun dx dy a b c d e =>
    cont_yields' hW hn dx dy (by omega) (by omega) (by omega) (by omega) (by omega)
  have A : ∀ (dx dy : Int) (p : Posture) (k : EdgeKind), -2 ≤ dx → dx ≤ 2 → -2 ≤ dy → dy ≤ 2 →
      Yields (n.add W dx dy p k) (InAt W n (dx, dy))
      (fun e => InAt W n (dx, dy) ∧ e = (nodeAt n (dx, dy) p, k)) 1 := fun dx dy p k a b c d =>
    add_yields hW hn dx dy p k (by omega) (by omega) (by omega) (by omega)
  have side : ∀ σ : Int, σ = 1 ∨ σ = -1 → ∀ p45 p90 p135 p180 : Posture, 
      Yields ((n.cont W isWall σ 2).then <| (n.add W σ 2 p45 .slalom45).then <|
        (n.add W (σ * 2) 2 p90 .slalom90).then <| (n.cont W isWall (σ * 2) 1).then <|
        (n.add W (σ * 2) 1 p135 .slalom135).then (n.add W (σ * 2) 0 p180 .slalom180)) 
        (OpenD W isWall n (σ, 2) ∧ InAt W n (σ * 2, 2) ∧ OpenD W isWall n (σ * 2, 1) ∧ InAt W n (σ * 2, 0))
        (fun e => OpenD W isWall n (σ, 2) ∧ (e = (nodeAt n (σ, 2) p45, .slalom45) ∨ 
          (InAt W n (σ * 2, 2) ∧ (e = (nodeAt n (σ * 2, 2) p90, .slalom90) ∨ 
            (OpenD W isWall n (σ * 2, 1) ∧ (e = (nodeAt n (σ * 2, 1) p135, .slalom135) ∨ 
              (InAt W n (σ * 2, 0) ∧ e = (nodeAt n (σ * 2, 0) p180, .slalom180)))))))) 4 := by
    intro σ hσ p45 p90 p135 p180
    refine Yields.congr ((C σ 2 (by omega) (by omega) (by omega) (by omega) (by omega)).then fun _ =>
      (A σ 2 p45 .slalom45 (by omega) (by omega) (by omega) (by omega)).then fun _ =>
      (A (σ * 2) 2 p90 .slalom90 (by omega) (by omega) (by omega) (by omega)).then fun _ =>
      (C (σ * 2) 1 (by omega) (by omega) (by omega) (by omega) (by omega)).then fun _ =>
      (A (σ * 2) 1 p135 .slalom135 (by omega) (by omega) (by omega) (by omega)).then fun _ =>
      (A (σ * 2) 0 p180 .slalom180 (by omega) (by omega) (by omega) (by omega))) ?_ ?_ (by omega)
    · have h1 : OpenD W isWall n (σ, 2) → InAt W n (σ, 2) := openD_in
      have h2 : OpenD W isWall n (σ * 2, 1) → InAt W n (σ * 2, 1) := openD_in
      tauto
    · intro e
      have h1 : OpenD W isWall n (σ, 2) → InAt W n (σ, 2) := openD_in
      have h2 : OpenD W isWall n (σ * 2, 1) → InAt W n (σ * 2, 1) := openD_in
      tauto
  have right := side 1 (Or.inl rfl) .northEast .east .southEast .south
  have left := side (-1) (Or.inr rfl) .northWest .west .southWest .south
  refine Yields.congr ((C 0 1 (by omega) (by omega) (by omega) (by omega) (by omega)).then fun _ =>
    (straight_loop hW hn hc).andThen (right.andThen (left.andThen Yields.stop))) (by simp) ?_ (by omega)
  rintro ⟨m, k⟩
  constructor
  · rintro (h | ⟨h01, ⟨j, hj, hk, he⟩ | h | h | h⟩)
    · exact h.elim
    · simp only [Prod.mk.injEq] at he
      refine ⟨1, Or.inl rfl, Or.inl ⟨j, hj, he.2, ⟨(hk j hj (Nat.le_refl _)).2, he.1⟩, ?_⟩⟩
      intro i hi
      have := (hk (i + 1) (by omega) (by omega)).1
      push_cast at this
      rwa [show 2 * ((i : Int) + 1) - 1 = 2 * i + 1 by omega] at this
    · refine ⟨1, Or.inl rfl, Or.inr ?_⟩
      obtain ⟨ho, he | ⟨h22, he | ⟨ho2, he | ⟨h20, he⟩⟩⟩⟩ := h <;> simp only [Prod.mk.injEq] at he
      · exact Or.inl ⟨he.2, ⟨openD_in ho, he.1⟩, h01, ho⟩
      · exact Or.inr (Or.inl ⟨he.2, ⟨h22, he.1⟩, h01, ho⟩)
      · exact Or.inr (Or.inr (Or.inl ⟨he.2, ⟨openD_in ho2, he.1⟩, h01, ho, ho2⟩))
      · exact Or.inr (Or.inr (Or.inr ⟨he.2, ⟨h20, he.1⟩, h01, ho, ho2⟩))
    · refine ⟨-1, Or.inr rfl, Or.inr ?_⟩
      obtain ⟨ho, he | ⟨h22, he | ⟨ho2, he | ⟨h20, he⟩⟩⟩⟩ := h <;> simp only [Prod.mk.injEq] at he
      · exact Or.inl ⟨he.2, ⟨openD_in ho, he.1⟩, h01, ho⟩
      · exact Or.inr (Or.inl ⟨he.2, ⟨h22, he.1⟩, h01, ho⟩)
      · exact Or.inr (Or.inr (Or.inl ⟨he.2, ⟨openD_in ho2, he.1⟩, h01, ho, ho2⟩))
      · exact Or.inr (Or.inr (Or.inr ⟨he.2, ⟨h20, he.1⟩, h01, ho, ho2⟩))
    · exact h.elim
  · rintro ⟨σ, hσ, ⟨j, hj, rfl, ⟨hin, rfl⟩, ho⟩ | h⟩
    · have h01 := ho 0 (by omega)
      refine Or.inr ⟨by simpa using h01, Or.inl ⟨j, hj, ?_, rfl⟩⟩
      intro k h1 h2
      have hk := ho (k - 1) (by omega)
      rw [show 2 * ((k - 1 : Nat) : Int) + 1 = 2 * k - 1 by omega] at hk
      refine ⟨hk, ?_⟩
      exact inAt_convex (0, 1) (2 * k - 1) (2 * j) (2 * k) (by simp) (by simp) (by simp) (openD_in hk) hin (by simp)
        (by simp) (by omega) (by omega)
    · have key : OpenD W isWall n (0, 1) ∧ (OpenD W isWall n (σ, 2) ∧
          ((m, k) = (nodeAt n (σ, 2) (if σ = 1 then .northEast else .northWest), EdgeKind.slalom45) ∨
          (InAt W n (σ * 2, 2) ∧ ((m, k) = (nodeAt n (σ * 2, 2) (if σ = 1 then .east else .west), EdgeKind.slalom90) ∨
            (OpenD W isWall n (σ * 2, 1) ∧ ((m, k) = (nodeAt n (σ * 2, 1) (if σ = 1 then .southEast else .southWest), EdgeKind.slalom135) ∨
              (InAt W n (σ * 2, 0) ∧ (m, k) = (nodeAt n (σ * 2, 0) .south, EdgeKind.slalom180)))))))) := by
        rcases h with ⟨rfl, ⟨hin, rfl⟩, h1, h2⟩ | ⟨rfl, ⟨hin, rfl⟩, h1, h2⟩ | ⟨rfl, ⟨hin, rfl⟩, h1, h2, h3⟩ |
          ⟨rfl, ⟨hin, rfl⟩, h1, h2, h3⟩
        · exact ⟨h1, h2, Or.inl rfl⟩
        · exact ⟨h1, h2, Or.inr ⟨hin, Or.inl rfl⟩⟩
        · exact ⟨h1, h2, Or.inr ⟨inAt_mix (openD_in h2) (openD_in h3), Or.inr ⟨h3, Or.inl rfl⟩⟩⟩
        · exact ⟨h1, h2, Or.inr ⟨inAt_mix (openD_in h2) (openD_in h3), Or.inr ⟨h3, Or.inr ⟨hin, rfl⟩⟩⟩⟩
      rcases hσ with rfl | rfl
      · exact Or.inr ⟨key.1, Or.inr (Or.inl key.2)⟩
      · exact Or.inr ⟨key.1, Or.inr (Or.inr (Or.inl key.2))⟩

theorem wall_yields_aux (hW : Supported W) (hn : Legal W n) (hc : ¬ (n.x % 2 = 0 ∧ n.y % 2 = 0)) (L : Bool)
    (F : Flow)
    (hF : F = (n.cont W isWall 1 1).then
      ((tryForEach (fun i => (n.cont W isWall i i).then (n.add W i i .northEast (.straightDiagonal i))) 127 1).andThen
      ((n.add W (sw L (1, 2)).1 (sw L (1, 2)).2 (if L then .north else .east) .slalom45).then
      ((n.cont W isWall (sw L (0, 2)).1 (sw L (0, 2)).2).then
      ((n.add W (sw L (0, 2)).1 (sw L (0, 2)).2 (if L then .northWest else .southEast) .slalomDiagonal90).then
      ((n.add W (sw L (-1, 2)).1 (sw L (-1, 2)).2 (if L then .west else .south) .slalom135).then
        fun l => .ok (l, false))))))) :
    Yields F False (fun e => WallSet W isWall n L e.2 e.1) (2 * W + 2) := by
  have := hW.pos
  have hpar : (n.x + n.y) % 2 = 1 := by
    obtain ⟨_, _, h | h⟩ := hn
    · exact absurd ⟨h.1, h.2.1⟩ hc
    · exact h.1
  have C : ∀ dx dy : Int, -2 ≤ dx → dx ≤ 2 → -2 ≤ dy → dy ≤ 2 → (dx + dy) % 2 = 0 →
      Yields (n.cont W isWall dx dy) (OpenD W isWall n (dx, dy)) (fun _ => False) 0 := fun dx dy a b c d e =>
    cont_yields' hW hn dx dy (by omega) (by omega) (by omega) (by omega) (by omega)
  have A : ∀ (d : V) (p : Posture) (k : EdgeKind), -2 ≤ d.1 → d.1 ≤ 2 → -2 ≤ d.2 → d.2 ≤ 2 →
      Yields (n.add W d.1 d.2 p k) (InAt W n d)
      (fun e => InAt W n d ∧ e = (nodeAt n d p, k)) 1 := fun d p k a b c d' =>
    add_yields hW hn d.1 d.2 p k (by omega) (by omega) (by omega) (by omega)
  subst hF
  refine Yields.congr ((C 1 1 (by omega) (by omega) (by omega) (by omega) (by omega)).then fun _ =>
    (diagonal_loop hW hn hc).andThen
    ((A (sw L (1, 2)) _ _ (by cases L <;> decide) (by cases L <;> decide) (by cases L <;> decide) (by cases L <;> decide)).then
      fun _ => (C (sw L (0, 2)).1 (sw L (0, 2)).2 (by cases L <;> decide) (by cases L <;> decide) (by cases L <;> decide)
        (by cases L <;> decide) (by cases L <;> decide)).then
      fun _ => (A (sw L (0, 2)) _ _ (by cases L <;> decide) (by cases L <;> decide) (by cases L <;> decide) (by cases L <;> decide)).then
      fun _ => (A (sw L (-1, 2)) _ _ (by cases L <;> decide) (by cases L <;> decide) (by cases L <;> decide) (by cases L <;> decide)).then
      fun _ => Yields.stop)) (by simp) ?_ (by omega)
  rintro ⟨m, k⟩
  have hco : ∀ {a b c : V}, InAt W n a → InAt W n b → (a.1 = c.1 ∧ b.2 = c.2 ∨ a.2 = c.2 ∧ b.1 = c.1) → InAt W n c := by
    rintro ⟨a1, a2⟩ ⟨b1, b2⟩ ⟨c1, c2⟩ ha hb (⟨rfl, rfl⟩ | ⟨rfl, rfl⟩)
    · exact inAt_mix hb ha
    · exact inAt_mix ha hb
  constructor
  · rintro (h | ⟨h01, ⟨j, hj, hk, he⟩ | h⟩)
    · exact h.elim
    · simp only [Prod.mk.injEq] at he
      refine Or.inl ⟨j, hj, he.2, ⟨(hk j hj (Nat.le_refl _)).2, he.1⟩, ?_⟩
      intro i hi
      have := (hk (i + 1) (by omega) (by omega)).1
      push_cast at this
      exact this
    · refine Or.inr ?_
      obtain ⟨hin, he⟩ | ⟨h12, h | ⟨ho, ⟨hin, he⟩ | ⟨_, ⟨hin, he⟩ | ⟨_, h⟩⟩⟩⟩ := h
      · simp only [Prod.mk.injEq] at he
        exact Or.inl ⟨he.2, ⟨hin, he.1⟩, h01⟩
      · exact h.elim
      · simp only [Prod.mk.injEq] at he
        exact Or.inr (Or.inl ⟨he.2, ⟨hin, he.1⟩, h01, ho⟩)
      · simp only [Prod.mk.injEq] at he
        exact Or.inr (Or.inr ⟨he.2, ⟨hin, he.1⟩, h01, ho⟩)
      · exact h.elim
  · rintro (⟨j, hj, rfl, ⟨hin, rfl⟩, ho⟩ | ⟨rfl, ⟨hin, rfl⟩, h01⟩ | ⟨rfl, ⟨hin, rfl⟩, h01, ho⟩ | ⟨rfl, ⟨hin, rfl⟩, h01, ho⟩)
    · have h01 := ho 0 (by omega)
      refine Or.inr ⟨by simpa using h01, Or.inl ⟨j, hj, ?_, rfl⟩⟩
      intro k h1 h2
      have hk := ho (k - 1) (by omega)
      rw [show ((k - 1 : Nat) : Int) + 1 = k by omega] at hk
      exact ⟨hk, openD_in hk⟩
    · exact Or.inr ⟨h01, Or.inr (Or.inl ⟨hin, rfl⟩)⟩
    · have h12 : InAt W n (sw L (1, 2)) := hco (openD_in h01) (openD_in ho) (by cases L <;> simp [sw])
      exact Or.inr ⟨h01, Or.inr (Or.inr ⟨h12, Or.inr ⟨ho, Or.inl ⟨hin, rfl⟩⟩⟩)⟩
    · have h12 : InAt W n (sw L (1, 2)) := hco (openD_in h01) (openD_in ho) (by cases L <;> simp [sw])
      exact Or.inr ⟨h01, Or.inr (Or.inr ⟨h12, Or.inr ⟨ho, Or.inr ⟨openD_in ho, Or.inl ⟨hin, rfl⟩⟩⟩⟩)⟩

theorem nodeAt_legal (hn : Legal W n) (d : V) (p : Posture) (hin : InAt W n d)
    (h : (n.x % 2 = 0 ∧ n.y % 2 = 0 ∧ ((d.1 % 2 = 0 ∧ d.2 % 2 = 0 ∧ p ∈ [.north, .east, .south, .west]) ∨
        ((d.1 + d.2) % 2 = 1 ∧ p ∈ [.northEast, .southEast, .southWest, .northWest]))) ∨
      ((n.x + n.y) % 2 = 1 ∧ (d.1 + d.2) % 2 = 0 ∧ p ∈ [.northEast, .southEast, .southWest, .northWest]) ∨
      ((n.x + n.y) % 2 = 1 ∧ p ∈ [.north, .east, .south, .west] ∧
        (n.x + (inFrame (e1 n.posture) (e2 n.posture) d).1) % 2 = 0 ∧
        (n.y + (inFrame (e1 n.posture) (e2 n.posture) d).2) % 2 = 0)) :
    Legal W (nodeAt n d p) := by
  obtain ⟨x, y, q⟩ := n
  obtain ⟨d1, d2⟩ := d
  unfold InAt at hin
  unfold nodeAt Legal
  simp only at *
  refine ⟨by omega, by omega, ?_⟩
  have hax : p ∈ [Posture.north, .east, .south, .west] → turned q p ∈ [Posture.north, .east, .south, .west] := by
    cases p <;> cases q <;> decide
  have hdi : p ∈ [Posture.northEast, .southEast, .southWest, .northWest] →
      turned q p ∈ [Posture.northEast, .southEast, .southWest, .northWest] := by
    cases p <;> cases q <;> decide
  rcases h with ⟨h1, h2, ⟨h3, h4, h5⟩ | ⟨h3, h5⟩⟩ | ⟨h1, h3, h5⟩ | ⟨h1, h5, h3, h4⟩
  · refine Or.inl ⟨?_, ?_, hax h5⟩ <;> (clear hax hdi; revert hin; cases q <;> simp only [inFrame, e1, e2] <;> omega)
  · refine Or.inr ⟨?_, hdi h5⟩; clear hax hdi; revert hin; cases q <;> simp only [inFrame, e1, e2] <;> omega
  · refine Or.inr ⟨?_, hdi h5⟩; clear hax hdi; revert hin; cases q <;> simp only [inFrame, e1, e2] <;> omega
  · exact Or.inl ⟨by omega, by omega, hax h5⟩

theorem left_even (hn : Legal W n) (hc : ¬ (n.x % 2 = 0 ∧ n.y % 2 = 0)) (a : Int) (ha : a % 2 = 1) :
    ((n.x : Int) + (inFrame (e1 n.posture) (e2 n.posture) (sw (IsLeft n) (a, 2))).1) % 2 = 0 ∧
    ((n.y : Int) + (inFrame (e1 n.posture) (e2 n.posture) (sw (IsLeft n) (a, 2))).2) % 2 = 0 := by
  obtain ⟨x, y, q⟩ := n
  obtain ⟨_, _, ⟨h, h', hp⟩ | ⟨h, hp⟩⟩ := hn
  · exact absurd ⟨h, h'⟩ hc
  · unfold IsLeft
    simp only at *
    by_cases hx : x % 2 = 1 <;> cases q <;> simp [hx, sw, inFrame, e1, e2] at hp ⊢ <;> omega

theorem drivable_legal (hn : Legal W n) (k : EdgeKind) (m : Node) (h : Drivable W isWall n k m) : Legal W m := by
  by_cases hc : n.x % 2 = 0 ∧ n.y % 2 = 0
  · obtain ⟨σ, hσ, h⟩ := (drivable_centre hn hc k m).mp h
    rcases h with ⟨j, hj, rfl, ⟨hin, rfl⟩, ho⟩ | ⟨rfl, ⟨hin, rfl⟩, h1, h2⟩ | ⟨rfl, ⟨hin, rfl⟩, h1, h2⟩ |
      ⟨rfl, ⟨hin, rfl⟩, h1, h2, h3⟩ | ⟨rfl, ⟨hin, rfl⟩, h1, h2, h3⟩
    · exact nodeAt_legal hn _ _ hin (Or.inl ⟨hc.1, hc.2, Or.inl ⟨by simp, by simp, by decide⟩⟩)
    · exact nodeAt_legal hn _ _ hin (Or.inl ⟨hc.1, hc.2, Or.inr ⟨by rcases hσ with rfl | rfl <;> decide,
        by rcases hσ with rfl | rfl <;> decide⟩⟩)
    · exact nodeAt_legal hn _ _ hin (Or.inl ⟨hc.1, hc.2, Or.inl ⟨by simp, by simp,
        by rcases hσ with rfl | rfl <;> decide⟩⟩)
    · exact nodeAt_legal hn _ _ hin (Or.inl ⟨hc.1, hc.2, Or.inr ⟨by rcases hσ with rfl | rfl <;> decide,
        by rcases hσ with rfl | rfl <;> decide⟩⟩)
    · exact nodeAt_legal hn _ _ hin (Or.inl ⟨hc.1, hc.2, Or.inl ⟨by simp, by simp, by decide⟩⟩)
  · have h := (drivable_wall hn hc k m).mp h
    have hpar : (n.x + n.y) % 2 = 1 := by
      obtain ⟨_, _, h | h⟩ := hn
      · exact absurd ⟨h.1, h.2.1⟩ hc
      · exact h.1
    have hl := left_even hn hc
    generalize IsLeft n = L at *
    rcases h with ⟨j, hj, rfl, ⟨hin, rfl⟩, ho⟩ | ⟨rfl, ⟨hin, rfl⟩, h01⟩ | ⟨rfl, ⟨hin, rfl⟩, h01, ho⟩ |
      ⟨rfl, ⟨hin, rfl⟩, h01, ho⟩
    · exact nodeAt_legal hn _ _ hin (Or.inr (Or.inl ⟨hpar, by simp only; omega, by decide⟩))
    · exact nodeAt_legal hn _ _ hin (Or.inr (Or.inr ⟨hpar, by cases L <;> decide, hl 1 (by decide)⟩))
    · exact nodeAt_legal hn _ _ hin (Or.inr (Or.inl ⟨hpar, by cases L <;> decide, by cases L <;> decide⟩))
    · exact nodeAt_legal hn _ _ hin (Or.inr (Or.inr ⟨hpar, by cases L <;> decide, hl (-1) (by decide)⟩))

/-- The successors of a legal pose are exactly the poses that can be driven to. -/
theorem successors_iff (hW : Supported W) (hn : Legal W n) :
    ∃ l, n.successors W isWall = .ok l ∧ l.length ≤ max (W + 8) (2 * W + 2) ∧ ∀ m k, (m, k) ∈ l ↔ Drivable W isWall n k m := by
  have fin : ∀ F : Flow, n.succsFlow W isWall = F →
      Yields F False (fun e => Drivable W isWall n e.2 e.1) (max (W + 8) (2 * W + 2)) →
      ∃ l, n.successors W isWall = .ok l ∧ l.length ≤ max (W + 8) (2 * W + 2) ∧ ∀ m k, (m, k) ∈ l ↔ Drivable W isWall n k m := by
    intro F hF hY
    obtain ⟨l, b, h, -, hS, hlen⟩ := hY [] (by have := hW.le; show 0 + _ ≤ 68; omega)
    refine ⟨l, ?_, hlen, fun m k => hS (m, k)⟩
    unfold Node.successors
    rw [hF, h]
    rfl
  by_cases hc : n.x % 2 = 0 ∧ n.y % 2 = 0
  · refine fin (n.flowCentre W isWall) ?_ (Yields.congr (centre_yields hW hn hc) Iff.rfl
      (fun e => (drivable_centre hn hc e.2 e.1).symm) (Nat.le_max_left _ _))
    obtain ⟨_, _, ⟨h, h', hp⟩ | ⟨h, hp⟩⟩ := hn
    · unfold Node.succsFlow
      rw [and_one, and_one, h, h']
      cases hq : n.posture <;> simp [hq] at hp ⊢
    · omega
  · have hY := fun F hF => Yields.congr (wall_yields_aux (isWall := isWall) hW hn hc (IsLeft n) F hF) Iff.rfl
      (fun e => (drivable_wall hn hc e.2 e.1).symm) (Nat.le_max_right (W + 8) (2 * W + 2))
    obtain ⟨_, _, ⟨h, h', hp⟩ | ⟨h, hp⟩⟩ := hn
    · omega
    · refine fin (if IsLeft n then n.flowLeft W isWall else n.flowRight W isWall) ?_ (hY _ ?_)
      · unfold Node.succsFlow IsLeft
        rw [and_one, and_one]
        have : (n.x % 2 = 1 ∧ n.y % 2 = 0) ∨ (n.x % 2 = 0 ∧ n.y % 2 = 1) := by omega
        rcases this with ⟨a, b⟩ | ⟨a, b⟩ <;> rw [a, b] <;> cases hq : n.posture <;> simp [hq] at hp ⊢
      · cases IsLeft n <;> rfl

end Verif.Proof
