import Verif.Proof.OldNode
/-! The neighbours of the run nodes of the former core crate are the drivable moves. -/
namespace Verif.Proof.OldN
open Verif Verif.Run Verif.Spec Verif.Old Verif.Proof

variable {W : Nat} {n : Node} {blocked : Wall → Bool}

/-! ## Loops -/

/-- The statements of the rounds `a + 1, …, a + k` of a loop. -/
def rounds (body : Nat → List Stmt) (a k : Nat) : List Stmt := (List.range' a k).flatMap fun i => body (i + 1)

theorem rounds_succ (body : Nat → List Stmt) (a k : Nat) : rounds body a (k + 1) = body (a + 1) ++ rounds body (a + 1) k := by
  unfold rounds
  rw [List.range'_succ, List.flatMap_cons]

theorem rounds_range (body : Nat → List Stmt) (k : Nat) :
    ((List.range k).flatMap fun i => body (i + 1)) = rounds body 0 k := by
  unfold rounds
  rw [List.range_eq_range']

theorem emit_le (s : Bool) : ∀ l : List Stmt, (emit W n s l).length ≤ l.length
  | [] => Nat.le_refl _
  | st :: rest => by
    unfold emit
    have := emit_le s rest
    split <;> simp <;> omega

/-- A loop whose round `a + m + 1` begins by leaving the maze. -/
theorem loop_stops (s : Bool) (f g : Nat → Stmt) : ∀ (m a k : Nat), m < k → ¬ InAt W n (Stmt.at s (f (a + m + 1))) →
    (emit W n s (rounds (fun i => [f i, g i]) a k)).length ≤ 2 * m ∧
    allIn W n s (rounds (fun i => [f i, g i]) a k) = false
  | 0, a, k + 1, _, h => by
    rw [rounds_succ]
    simp only [Nat.add_zero] at h
    constructor
    · show (if _ then _ else _ : List WallNode).length ≤ _
      rw [if_neg h]; simp
    · show (decide _ && _) = false
      simp [h]
  | m + 1, a, k + 1, hk, h => by
    have ih := loop_stops s f g m (a + 1) k (by omega) (by rwa [show a + 1 + m + 1 = a + (m + 1) + 1 by omega])
    rw [rounds_succ]
    show (emit W n s (f (a + 1) :: g (a + 1) :: rounds (fun i => [f i, g i]) (a + 1) k)).length ≤ _ ∧
      allIn W n s (f (a + 1) :: g (a + 1) :: rounds (fun i => [f i, g i]) (a + 1) k) = false
    constructor
    · unfold emit
      split
      · unfold emit
        split <;> simp <;> omega
      · simp
    · unfold allIn allIn
      rw [ih.2]; simp

theorem loop_good (s : Bool) (f g : Nat → Stmt) (hf : ∀ i, 1 ≤ i → (i = 1 ∨ InAt W n (Stmt.at s (g (i - 1)))) →
      GoodStmt W n s (f i) ∧ GoodStmt W n s (g i)) : ∀ k a, (a = 0 ∨ InAt W n (Stmt.at s (g a))) →
    Good W n s (rounds (fun i => [f i, g i]) a k)
  | 0, _, _ => trivial
  | k + 1, a, ha => by
    rw [rounds_succ]
    have := hf (a + 1) (by omega) (by rcases ha with rfl | h; exact Or.inl rfl; exact Or.inr h)
    exact ⟨this.1, fun _ => ⟨this.2, fun h => loop_good s f g hf k (a + 1) (Or.inr h)⟩⟩

/-- What is seen in a loop of walls and nodes. -/
theorem loop_visible (s : Bool) (w d : Nat → V) (dd : Rel) (p : Nat → Pattern)
    (hw : ∀ i, 1 ≤ i → (i = 1 ∨ InAt W n (sgn s (d (i - 1)))) → GoodStmt W n s (.wall (w i).1 (w i).2)) (e : Node × Pattern) :
    ∀ k a, (a = 0 ∨ InAt W n (sgn s (d a))) → ¬ InAt W n (sgn s (d (a + k + 1))) →
    (e ∈ visible blocked (emit W n s (rounds (fun i => [.wall (w i).1 (w i).2, .node (d i).1 (d i).2 dd (p i)]) a k)) ↔
      ∃ j, a < j ∧ (∀ i, a < i → i ≤ j → OpenD W (posBlocked blocked) n (sgn s (w i)) ∧ InAt W n (sgn s (d i))) ∧
        e = (nodeAt n (sgn s (d j)) (rotate (baseOf n) dd), p j))
  | 0, a, ha, hN => by
    rw [show rounds (fun i => [Stmt.wall (w i).1 (w i).2, .node (d i).1 (d i).2 dd (p i)]) a 0 = [] from rfl, visible_nil]
    simp only [false_iff, not_exists, not_and]
    intro j hj h _
    exact hN (h (a + 1) (by omega) (by omega)).2
  | k + 1, a, ha, hN => by
    rw [rounds_succ]
    have hg := hw (a + 1) (by omega) (by rcases ha with rfl | h; exact Or.inl rfl; exact Or.inr h)
    show e ∈ visible blocked (emit W n s (.wall (w (a + 1)).1 (w (a + 1)).2 :: .node (d (a + 1)).1 (d (a + 1)).2 dd (p (a + 1)) ::
      rounds (fun i => [.wall (w i).1 (w i).2, .node (d i).1 (d i).2 dd (p i)]) (a + 1) k)) ↔ _
    rw [visible_wall s hg, visible_node]
    show OpenD W (posBlocked blocked) n (sgn s (w (a + 1))) ∧ InAt W n (sgn s (d (a + 1))) ∧
      (e = (nodeAt n (sgn s (d (a + 1))) _, _) ∨ _) ↔ _
    constructor
    · rintro ⟨ho, hin, h⟩
      rcases h with rfl | h
      · exact ⟨a + 1, by omega, fun i h1 h2 => by rw [show i = a + 1 by omega]; exact ⟨ho, hin⟩, rfl⟩
      · obtain ⟨j, hj, hi, he⟩ := (loop_visible s w d dd p hw e k (a + 1) (Or.inr hin)
          (by rwa [show a + 1 + k + 1 = a + (k + 1) + 1 by omega])).mp h
        refine ⟨j, by omega, fun i h1 h2 => ?_, he⟩
        by_cases hia : i = a + 1
        · rw [hia]; exact ⟨ho, hin⟩
        · exact hi i (by omega) h2
    · rintro ⟨j, hj, hi, he⟩
      obtain ⟨ho, hin⟩ := hi (a + 1) (by omega) (by omega)
      refine ⟨ho, hin, ?_⟩
      by_cases hja : j = a + 1
      · exact Or.inl (by rw [he, hja])
      · exact Or.inr ((loop_visible s w d dd p hw e k (a + 1) (Or.inr hin)
          (by rwa [show a + 1 + k + 1 = a + (k + 1) + 1 by omega])).mpr
            ⟨j, by omega, fun i h1 h2 => hi i (by omega) h2, he⟩)

/-! ## The statement lists -/

def rightStmts : List Stmt :=
  [.wall 0 1, .wall 1 2, .node 1 2 .frontRight .fastRun45, .node 2 2 .right .fastRun90, .wall 2 1,
    .node 2 1 .backRight .fastRun135, .node 2 0 .back .fastRun180]
def leftStmts : List Stmt :=
  [.wall 0 1, .wall (-1) 2, .node (-1) 2 .frontLeft .fastRun45, .node (-2) 2 .left .fastRun90, .wall (-2) 1,
    .node (-2) 1 .backLeft .fastRun135, .node (-2) 0 .back .fastRun180]
def straightStmts : List Stmt :=
  rounds (fun dy : Nat => [.wall 0 (2 * dy - 1), .node 0 (2 * dy) .front (.straight dy)]) 0 63
def leftTurn : List Stmt :=
  [.wall 1 1, .node 1 2 .frontLeft .fastRun45, .wall 0 2, .node 0 2 .left .fastRunDiagonal90,
    .node (-1) 2 .backLeft .fastRun135]
def rightTurn : List Stmt :=
  [.wall 1 1, .node 2 1 .frontRight .fastRun45, .wall 2 0, .node 2 0 .right .fastRunDiagonal90,
    .node 2 (-1) .backRight .fastRun135]
def diagonalStmts : List Stmt :=
  rounds (fun i : Nat => [.wall i i, .node i i .front (.straightDiagonal i)]) 0 127

/-- The statement lists of a node. -/
def stmtsOf (n : Node) : List (List Stmt) :=
  if n.x % 2 = 0 ∧ n.y % 2 = 0 then [rightStmts, leftStmts, straightStmts]
  else if IsLeft n then [leftTurn, diagonalStmts] else [rightTurn, diagonalStmts]

theorem parity_centre (hc : n.x % 2 = 0 ∧ n.y % 2 = 0) (d : V) (h : (d.1 + d.2) % 2 = 1) :
    ((n.x : Int) + (inFrame (e1 n.posture) (e2 n.posture) d).1 +
      (n.y + (inFrame (e1 n.posture) (e2 n.posture) d).2)) % 2 = 1 := by
  obtain ⟨x, y, p⟩ := n
  obtain ⟨a, b⟩ := d
  simp only at h hc ⊢
  cases p <;> simp only [inFrame, e1, e2] <;> omega

theorem parity_wall (hc : (n.x + n.y) % 2 = 1) (d : V) (h : (d.1 + d.2) % 2 = 0) :
    ((n.x : Int) + (inFrame (e1 n.posture) (e2 n.posture) d).1 +
      (n.y + (inFrame (e1 n.posture) (e2 n.posture) d).2)) % 2 = 1 := by
  obtain ⟨x, y, p⟩ := n
  obtain ⟨a, b⟩ := d
  simp only at h hc ⊢
  cases p <;> simp only [inFrame, e1, e2] <;> omega

theorem inAt_snd {d : V} (h : InAt W n d) (hn : Legal W n) : d.2 < 2 * W := by
  obtain ⟨h1, h2, -⟩ := hn
  obtain ⟨d1, d2⟩ := d
  obtain ⟨x, y, p⟩ := n
  unfold InAt at h
  cases p <;> simp only [inFrame, e1, e2] at * <;> omega

theorem base_centre (hc : n.x % 2 = 0 ∧ n.y % 2 = 0) : baseOf n = .north := if_pos hc
theorem base_wall (hc : ¬ (n.x % 2 = 0 ∧ n.y % 2 = 0)) : baseOf n = .northEast := if_neg hc

section centre
variable (hW : Supported W) (hn : Legal W n) (hc : n.x % 2 = 0 ∧ n.y % 2 = 0)
include hn hc

theorem good_wall_c (dx dy : Int) (hd : Near (dx, dy)) (h : (dx + dy) % 2 = 1) : GoodStmt W n true (.wall dx dy) :=
  ⟨hd, parity_centre hc (dx, dy) h⟩

theorem good_node_c (dx dy : Int) (dd : Rel) (p : Pattern) (hd : Near (dx, dy))
    (h : (dx % 2 = 0 ∧ dy % 2 = 0 ∧ dd ∈ [Rel.front, .right, .back, .left]) ∨
      ((dx + dy) % 2 = 1 ∧ dd ∈ [Rel.frontRight, .backRight, .backLeft, .frontLeft])) :
    GoodStmt W n true (.node dx dy dd p) := by
  refine ⟨hd, fun hin => ?_⟩
  rw [base_centre hc]
  refine nodeAt_legal hn _ _ hin (Or.inl ⟨hc.1, hc.2, ?_⟩)
  rcases h with ⟨h1, h2, h3⟩ | ⟨h1, h3⟩
  · exact Or.inl ⟨h1, h2, by revert h3; cases dd <;> decide⟩
  · exact Or.inr ⟨h1, by revert h3; cases dd <;> decide⟩

theorem good_right : Good W n true rightStmts :=
  ⟨good_wall_c hn hc _ _ (by unfold Near; decide) (by decide), fun _ =>
   ⟨good_wall_c hn hc _ _ (by unfold Near; decide) (by decide), fun _ =>
   ⟨good_node_c hn hc _ _ _ _ (by unfold Near; decide) (by decide), fun _ =>
   ⟨good_node_c hn hc _ _ _ _ (by unfold Near; decide) (by decide), fun _ =>
   ⟨good_wall_c hn hc _ _ (by unfold Near; decide) (by decide), fun _ =>
   ⟨good_node_c hn hc _ _ _ _ (by unfold Near; decide) (by decide), fun _ =>
   ⟨good_node_c hn hc _ _ _ _ (by unfold Near; decide) (by decide), fun _ => trivial⟩⟩⟩⟩⟩⟩⟩

theorem good_left : Good W n true leftStmts :=
  ⟨good_wall_c hn hc _ _ (by unfold Near; decide) (by decide), fun _ =>
   ⟨good_wall_c hn hc _ _ (by unfold Near; decide) (by decide), fun _ =>
   ⟨good_node_c hn hc _ _ _ _ (by unfold Near; decide) (by decide), fun _ =>
   ⟨good_node_c hn hc _ _ _ _ (by unfold Near; decide) (by decide), fun _ =>
   ⟨good_wall_c hn hc _ _ (by unfold Near; decide) (by decide), fun _ =>
   ⟨good_node_c hn hc _ _ _ _ (by unfold Near; decide) (by decide), fun _ =>
   ⟨good_node_c hn hc _ _ _ _ (by unfold Near; decide) (by decide), fun _ => trivial⟩⟩⟩⟩⟩⟩⟩

include hW in
theorem straight_round (i : Nat) (h1 : 1 ≤ i) (h : i = 1 ∨ InAt W n (sgn true (0, 2 * ((i - 1 : Nat) : Int)))) :
    GoodStmt W n true (.wall 0 (2 * i - 1)) ∧ GoodStmt W n true (.node 0 (2 * i) .front (.straight i)) := by
  have := hW.le
  have hi : i ≤ 32 := by
    rcases h with rfl | h
    · omega
    · have := inAt_snd h hn
      simp only [sgn, if_true] at this
      omega
  constructor
  · refine good_wall_c hn hc _ _ ?_ (by omega)
    unfold Near; simp only; omega
  · refine good_node_c hn hc _ _ _ _ ?_ (Or.inl ⟨by omega, by omega, by decide⟩)
    unfold Near; simp only; omega

include hW in
theorem good_straight : Good W n true straightStmts :=
  loop_good true (fun i : Nat => .wall 0 (2 * i - 1)) (fun i : Nat => .node 0 (2 * i) .front (.straight i))
    (fun i h1 h => straight_round hW hn hc i h1 h) 63 0 (Or.inl rfl)

include hW in
theorem straight_stops : (emit W n true straightStmts).length ≤ 64 ∧ allIn W n true straightStmts = false := by
  have := hW.le
  have h := loop_stops (W := W) (n := n) true (fun i : Nat => .wall 0 (2 * i - 1)) (fun i : Nat => .node 0 (2 * i) .front (.straight i))
    W 0 63 (by omega) (fun h => by
      have := inAt_snd h hn
      simp only [Stmt.at, sgn, if_true] at this
      omega)
  exact ⟨by have := h.1; show (emit W n true (rounds _ 0 63)).length ≤ _; omega, h.2⟩

include hW in
theorem visible_straight (e : Node × Pattern) : e ∈ visible blocked (emit W n true straightStmts) ↔
    ∃ j : Nat, 1 ≤ j ∧ (∀ i : Nat, 1 ≤ i → i ≤ j → OpenD W (posBlocked blocked) n (0, 2 * i - 1) ∧ InAt W n (0, 2 * i)) ∧
      e = (nodeAt n (0, 2 * j) .north, .straight j) := by
  have := hW.le
  have h := loop_visible (W := W) (n := n) (blocked := blocked) true (fun i : Nat => (0, 2 * (i : Int) - 1)) (fun i : Nat => (0, 2 * (i : Int)))
    .front (fun i => .straight i) (fun i h1 h => (straight_round hW hn hc i h1 h).1) e 63 0 (Or.inl rfl)
    (fun h => by
      have := inAt_snd h hn
      simp only [sgn, if_true] at this
      omega)
  rw [base_centre hc] at h
  exact h

theorem visible_right (e : Node × Pattern) : e ∈ visible blocked (emit W n true rightStmts) ↔
    OpenD W (posBlocked blocked) n (0, 1) ∧ OpenD W (posBlocked blocked) n (1, 2) ∧ InAt W n (1, 2) ∧
      (e = (nodeAt n (1, 2) .northEast, .fastRun45) ∨ (InAt W n (2, 2) ∧ (e = (nodeAt n (2, 2) .east, .fastRun90) ∨
        (OpenD W (posBlocked blocked) n (2, 1) ∧ InAt W n (2, 1) ∧ (e = (nodeAt n (2, 1) .southEast, .fastRun135) ∨
          (InAt W n (2, 0) ∧ (e = (nodeAt n (2, 0) .south, .fastRun180) ∨ False))))))) := by
  have g := good_right (W := W) hn hc
  unfold rightStmts at g ⊢
  rw [visible_wall true g.1, visible_wall true (good_wall_c hn hc _ _ (by unfold Near; decide) (by decide)),
    visible_node, visible_node, visible_wall true (good_wall_c hn hc _ _ (by unfold Near; decide) (by decide)),
    visible_node, visible_node, visible_nil, base_centre hc]
  rfl

theorem visible_left (e : Node × Pattern) : e ∈ visible blocked (emit W n true leftStmts) ↔
    OpenD W (posBlocked blocked) n (0, 1) ∧ OpenD W (posBlocked blocked) n (-1, 2) ∧ InAt W n (-1, 2) ∧
      (e = (nodeAt n (-1, 2) .northWest, .fastRun45) ∨ (InAt W n (-2, 2) ∧ (e = (nodeAt n (-2, 2) .west, .fastRun90) ∨
        (OpenD W (posBlocked blocked) n (-2, 1) ∧ InAt W n (-2, 1) ∧ (e = (nodeAt n (-2, 1) .southWest, .fastRun135) ∨
          (InAt W n (-2, 0) ∧ (e = (nodeAt n (-2, 0) .south, .fastRun180) ∨ False))))))) := by
  have g := good_left (W := W) hn hc
  unfold leftStmts at g ⊢
  rw [visible_wall true g.1, visible_wall true (good_wall_c hn hc _ _ (by unfold Near; decide) (by decide)),
    visible_node, visible_node, visible_wall true (good_wall_c hn hc _ _ (by unfold Near; decide) (by decide)),
    visible_node, visible_node, visible_nil, base_centre hc]
  rfl

end centre

/-- What is seen from a cell. -/
theorem visible_centre (hW : Supported W) (hn : Legal W n) (hc : n.x % 2 = 0 ∧ n.y % 2 = 0) (m : Node) (p : Pattern) :
    ((m, p) ∈ visible blocked (emit W n true rightStmts) ∨ (m, p) ∈ visible blocked (emit W n true leftStmts) ∨
      (m, p) ∈ visible blocked (emit W n true straightStmts)) ↔
    ∃ k, p = patternOf k ∧ Drivable W (posBlocked blocked) n k m := by
  rw [visible_straight hW hn hc, visible_right hn hc, visible_left hn hc]
  simp only [drivable_centre hn hc]
  generalize posBlocked blocked = isWall
  constructor
  · rintro (h | h | ⟨j, hj, hk, he⟩)
    · obtain ⟨h01, ho, -, he | ⟨h22, he | ⟨ho2, -, he | ⟨h20, he | h⟩⟩⟩⟩ := h
      · simp only [Prod.mk.injEq] at he
        exact ⟨.slalom45, he.2, 1, Or.inl rfl, Or.inr (Or.inl ⟨rfl, ⟨openD_in ho, he.1⟩, h01, ho⟩)⟩
      · simp only [Prod.mk.injEq] at he
        exact ⟨.slalom90, he.2, 1, Or.inl rfl, Or.inr (Or.inr (Or.inl ⟨rfl, ⟨h22, he.1⟩, h01, ho⟩))⟩
      · simp only [Prod.mk.injEq] at he
        exact ⟨.slalom135, he.2, 1, Or.inl rfl, Or.inr (Or.inr (Or.inr (Or.inl ⟨rfl, ⟨openD_in ho2, he.1⟩, h01, ho, ho2⟩)))⟩
      · simp only [Prod.mk.injEq] at he
        exact ⟨.slalom180, he.2, 1, Or.inl rfl, Or.inr (Or.inr (Or.inr (Or.inr ⟨rfl, ⟨h20, he.1⟩, h01, ho, ho2⟩)))⟩
      · exact h.elim
    · obtain ⟨h01, ho, -, he | ⟨h22, he | ⟨ho2, -, he | ⟨h20, he | h⟩⟩⟩⟩ := h
      · simp only [Prod.mk.injEq] at he
        exact ⟨.slalom45, he.2, -1, Or.inr rfl, Or.inr (Or.inl ⟨rfl, ⟨openD_in ho, he.1⟩, h01, ho⟩)⟩
      · simp only [Prod.mk.injEq] at he
        exact ⟨.slalom90, he.2, -1, Or.inr rfl, Or.inr (Or.inr (Or.inl ⟨rfl, ⟨h22, he.1⟩, h01, ho⟩))⟩
      · simp only [Prod.mk.injEq] at he
        exact ⟨.slalom135, he.2, -1, Or.inr rfl, Or.inr (Or.inr (Or.inr (Or.inl ⟨rfl, ⟨openD_in ho2, he.1⟩, h01, ho, ho2⟩)))⟩
      · simp only [Prod.mk.injEq] at he
        exact ⟨.slalom180, he.2, -1, Or.inr rfl, Or.inr (Or.inr (Or.inr (Or.inr ⟨rfl, ⟨h20, he.1⟩, h01, ho, ho2⟩)))⟩
      · exact h.elim
    · simp only [Prod.mk.injEq] at he
      refine ⟨.straight j, he.2, 1, Or.inl rfl, Or.inl ⟨j, hj, rfl, ⟨(hk j hj (Nat.le_refl _)).2, he.1⟩, ?_⟩⟩
      intro i hi
      have := (hk (i + 1) (by omega) (by omega)).1
      push_cast at this
      rwa [show 2 * ((i : Int) + 1) - 1 = 2 * i + 1 by omega] at this
  · rintro ⟨k, rfl, σ, hσ, ⟨j, hj, rfl, ⟨hin, rfl⟩, ho⟩ | h⟩
    · refine Or.inr (Or.inr ⟨j, hj, ?_, rfl⟩)
      intro k h1 h2
      have hk := ho (k - 1) (by omega)
      rw [show 2 * ((k - 1 : Nat) : Int) + 1 = 2 * k - 1 by omega] at hk
      refine ⟨hk, ?_⟩
      exact inAt_convex (0, 1) (2 * k - 1) (2 * j) (2 * k) (by simp) (by simp) (by simp) (openD_in hk) hin (by simp)
        (by simp) (by omega) (by omega)
    · have key : OpenD W isWall n (0, 1) ∧ OpenD W isWall n (σ, 2) ∧ InAt W n (σ, 2) ∧
          ((m, patternOf k) = (nodeAt n (σ, 2) (if σ = 1 then .northEast else .northWest), Pattern.fastRun45) ∨
          (InAt W n (σ * 2, 2) ∧ ((m, patternOf k) = (nodeAt n (σ * 2, 2) (if σ = 1 then .east else .west), Pattern.fastRun90) ∨
            (OpenD W isWall n (σ * 2, 1) ∧ InAt W n (σ * 2, 1) ∧ ((m, patternOf k) = (nodeAt n (σ * 2, 1) (if σ = 1 then .southEast else .southWest), Pattern.fastRun135) ∨
              (InAt W n (σ * 2, 0) ∧ ((m, patternOf k) = (nodeAt n (σ * 2, 0) .south, Pattern.fastRun180) ∨ False))))))) := by
        rcases h with ⟨rfl, ⟨hin, rfl⟩, h1, h2⟩ | ⟨rfl, ⟨hin, rfl⟩, h1, h2⟩ | ⟨rfl, ⟨hin, rfl⟩, h1, h2, h3⟩ |
          ⟨rfl, ⟨hin, rfl⟩, h1, h2, h3⟩
        · exact ⟨h1, h2, openD_in h2, Or.inl rfl⟩
        · exact ⟨h1, h2, openD_in h2, Or.inr ⟨hin, Or.inl rfl⟩⟩
        · exact ⟨h1, h2, openD_in h2, Or.inr ⟨inAt_mix (openD_in h2) (openD_in h3), Or.inr ⟨h3, openD_in h3, Or.inl rfl⟩⟩⟩
        · exact ⟨h1, h2, openD_in h2, Or.inr ⟨inAt_mix (openD_in h2) (openD_in h3), Or.inr ⟨h3, openD_in h3, Or.inr ⟨hin, Or.inl rfl⟩⟩⟩⟩
      rcases hσ with rfl | rfl
      · exact Or.inl key
      · exact Or.inr (Or.inl key)

section wall
variable (hW : Supported W) (hn : Legal W n) (hc : ¬ (n.x % 2 = 0 ∧ n.y % 2 = 0))
include hn hc

theorem odd_sum : (n.x + n.y) % 2 = 1 := by
  obtain ⟨_, _, h | h⟩ := hn
  · exact absurd ⟨h.1, h.2.1⟩ hc
  · exact h.1

theorem good_wall_w (dx dy : Int) (hd : Near (dx, dy)) (h : (dx + dy) % 2 = 0) : GoodStmt W n true (.wall dx dy) :=
  ⟨hd, parity_wall (odd_sum hn hc) (dx, dy) h⟩

theorem good_node_w (dx dy : Int) (dd : Rel) (p : Pattern) (hd : Near (dx, dy))
    (h : ((dx + dy) % 2 = 0 ∧ dd ∈ [Rel.front, .right, .back, .left]) ∨
      ((∃ a : Int, a % 2 = 1 ∧ (dx, dy) = sw (IsLeft n) (a, 2)) ∧ dd ∈ [Rel.frontRight, .backRight, .backLeft, .frontLeft])) :
    GoodStmt W n true (.node dx dy dd p) := by
  refine ⟨hd, fun hin => ?_⟩
  rw [base_wall hc]
  refine nodeAt_legal hn _ _ hin (Or.inr ?_)
  rcases h with ⟨h1, h3⟩ | ⟨⟨a, h1, h2⟩, h3⟩
  · exact Or.inl ⟨odd_sum hn hc, h1, by revert h3; cases dd <;> decide⟩
  · refine Or.inr ⟨odd_sum hn hc, by revert h3; cases dd <;> decide, ?_⟩
    have := left_even hn hc a h1
    show ((n.x : Int) + (inFrame (e1 n.posture) (e2 n.posture) (dx, dy)).1) % 2 = 0 ∧
      ((n.y : Int) + (inFrame (e1 n.posture) (e2 n.posture) (dx, dy)).2) % 2 = 0
    rw [h2]
    exact this

theorem good_leftTurn (hL : IsLeft n = true) : Good W n true leftTurn :=
  ⟨good_wall_w hn hc _ _ (by unfold Near; decide) (by decide), fun _ =>
   ⟨good_node_w hn hc _ _ _ _ (by unfold Near; decide) (Or.inr ⟨⟨1, by decide, by rw [hL]; rfl⟩, by decide⟩), fun _ =>
   ⟨good_wall_w hn hc _ _ (by unfold Near; decide) (by decide), fun _ =>
   ⟨good_node_w hn hc _ _ _ _ (by unfold Near; decide) (Or.inl (by decide)), fun _ =>
   ⟨good_node_w hn hc _ _ _ _ (by unfold Near; decide) (Or.inr ⟨⟨-1, by decide, by rw [hL]; rfl⟩, by decide⟩), fun _ => trivial⟩⟩⟩⟩⟩

theorem good_rightTurn (hL : IsLeft n = false) : Good W n true rightTurn :=
  ⟨good_wall_w hn hc _ _ (by unfold Near; decide) (by decide), fun _ =>
   ⟨good_node_w hn hc _ _ _ _ (by unfold Near; decide) (Or.inr ⟨⟨1, by decide, by rw [hL]; rfl⟩, by decide⟩), fun _ =>
   ⟨good_wall_w hn hc _ _ (by unfold Near; decide) (by decide), fun _ =>
   ⟨good_node_w hn hc _ _ _ _ (by unfold Near; decide) (Or.inl (by decide)), fun _ =>
   ⟨good_node_w hn hc _ _ _ _ (by unfold Near; decide) (Or.inr ⟨⟨-1, by decide, by rw [hL]; rfl⟩, by decide⟩), fun _ => trivial⟩⟩⟩⟩⟩

include hW in
theorem diagonal_round (i : Nat) (h1 : 1 ≤ i) (h : i = 1 ∨ InAt W n (sgn true (((i - 1 : Nat) : Int), ((i - 1 : Nat) : Int)))) :
    GoodStmt W n true (.wall i i) ∧ GoodStmt W n true (.node i i .front (.straightDiagonal i)) := by
  have := hW.le
  have hi : i ≤ 64 := by
    rcases h with rfl | h
    · omega
    · have := inAt_snd h hn
      simp only [sgn, if_true] at this
      omega
  constructor
  · refine good_wall_w hn hc _ _ ?_ (by omega)
    unfold Near; simp only; omega
  · refine good_node_w hn hc _ _ _ _ ?_ (Or.inl ⟨by omega, by decide⟩)
    unfold Near; simp only; omega

include hW in
theorem good_diagonal : Good W n true diagonalStmts :=
  loop_good true (fun i : Nat => .wall i i) (fun i : Nat => .node i i .front (.straightDiagonal i))
    (fun i h1 h => diagonal_round hW hn hc i h1 h) 127 0 (Or.inl rfl)

include hW in
theorem diagonal_stops : (emit W n true diagonalStmts).length ≤ 126 ∧ allIn W n true diagonalStmts = false := by
  have := hW.le
  have := hW.pos
  have h := loop_stops (W := W) (n := n) true (fun i : Nat => .wall i i) (fun i : Nat => .node i i .front (.straightDiagonal i))
    (2 * W - 1) 0 127 (by omega) (fun h => by
      have := inAt_snd h hn
      simp only [Stmt.at, sgn, if_true] at this
      omega)
  exact ⟨by have := h.1; show (emit W n true (rounds _ 0 127)).length ≤ _; omega, h.2⟩

include hW in
theorem visible_diagonal (e : Node × Pattern) : e ∈ visible blocked (emit W n true diagonalStmts) ↔
    ∃ j : Nat, 1 ≤ j ∧ (∀ i : Nat, 1 ≤ i → i ≤ j → OpenD W (posBlocked blocked) n (i, i) ∧ InAt W n (i, i)) ∧
      e = (nodeAt n (j, j) .northEast, .straightDiagonal j) := by
  have := hW.le
  have h := loop_visible (W := W) (n := n) (blocked := blocked) true (fun i : Nat => ((i : Int), (i : Int))) (fun i : Nat => ((i : Int), (i : Int)))
    .front (fun i => .straightDiagonal i) (fun i h1 h => (diagonal_round hW hn hc i h1 h).1) e 127 0 (Or.inl rfl)
    (fun h => by
      have := inAt_snd h hn
      simp only [sgn, if_true] at this
      omega)
  rw [base_wall hc] at h
  exact h

theorem visible_leftTurn (hL : IsLeft n = true) (e : Node × Pattern) : e ∈ visible blocked (emit W n true leftTurn) ↔
    OpenD W (posBlocked blocked) n (1, 1) ∧ InAt W n (1, 2) ∧ (e = (nodeAt n (1, 2) .north, .fastRun45) ∨
      (OpenD W (posBlocked blocked) n (0, 2) ∧ InAt W n (0, 2) ∧ (e = (nodeAt n (0, 2) .northWest, .fastRunDiagonal90) ∨
        (InAt W n (-1, 2) ∧ (e = (nodeAt n (-1, 2) .west, .fastRun135) ∨ False))))) := by
  have g := good_leftTurn (W := W) hn hc hL
  unfold leftTurn at g ⊢
  rw [visible_wall true g.1, visible_node, visible_wall true (good_wall_w hn hc _ _ (by unfold Near; decide) (by decide)),
    visible_node, visible_node, visible_nil, base_wall hc]
  rfl

theorem visible_rightTurn (hL : IsLeft n = false) (e : Node × Pattern) : e ∈ visible blocked (emit W n true rightTurn) ↔
    OpenD W (posBlocked blocked) n (1, 1) ∧ InAt W n (2, 1) ∧ (e = (nodeAt n (2, 1) .east, .fastRun45) ∨
      (OpenD W (posBlocked blocked) n (2, 0) ∧ InAt W n (2, 0) ∧ (e = (nodeAt n (2, 0) .southEast, .fastRunDiagonal90) ∨
        (InAt W n (2, -1) ∧ (e = (nodeAt n (2, -1) .south, .fastRun135) ∨ False))))) := by
  have g := good_rightTurn (W := W) hn hc hL
  unfold rightTurn at g ⊢
  rw [visible_wall true g.1, visible_node, visible_wall true (good_wall_w hn hc _ _ (by unfold Near; decide) (by decide)),
    visible_node, visible_node, visible_nil, base_wall hc]
  rfl

end wall

/-- What is seen from a wall. -/
theorem visible_bound (hW : Supported W) (hn : Legal W n) (hc : ¬ (n.x % 2 = 0 ∧ n.y % 2 = 0)) (m : Node) (p : Pattern) :
    ((m, p) ∈ visible blocked (emit W n true (if IsLeft n then leftTurn else rightTurn)) ∨
      (m, p) ∈ visible blocked (emit W n true diagonalStmts)) ↔
    ∃ k, p = patternOf k ∧ Drivable W (posBlocked blocked) n k m := by
  have hturn : (m, p) ∈ visible blocked (emit W n true (if IsLeft n then leftTurn else rightTurn)) ↔
      OpenD W (posBlocked blocked) n (1, 1) ∧ InAt W n (sw (IsLeft n) (1, 2)) ∧
      ((m, p) = (nodeAt n (sw (IsLeft n) (1, 2)) (if IsLeft n then .north else .east), .fastRun45) ∨
      (OpenD W (posBlocked blocked) n (sw (IsLeft n) (0, 2)) ∧ InAt W n (sw (IsLeft n) (0, 2)) ∧
        ((m, p) = (nodeAt n (sw (IsLeft n) (0, 2)) (if IsLeft n then .northWest else .southEast), .fastRunDiagonal90) ∨
        (InAt W n (sw (IsLeft n) (-1, 2)) ∧
          ((m, p) = (nodeAt n (sw (IsLeft n) (-1, 2)) (if IsLeft n then .west else .south), .fastRun135) ∨ False))))) := by
    cases hL : IsLeft n with
    | true => exact visible_leftTurn hn hc hL (m, p)
    | false => exact visible_rightTurn hn hc hL (m, p)
  rw [hturn, visible_diagonal hW hn hc]
  simp only [drivable_wall hn hc]
  generalize posBlocked blocked = isWall
  generalize IsLeft n = L
  have hco : ∀ {a b c : V}, InAt W n a → InAt W n b → (a.1 = c.1 ∧ b.2 = c.2 ∨ a.2 = c.2 ∧ b.1 = c.1) → InAt W n c := by
    rintro ⟨a1, a2⟩ ⟨b1, b2⟩ ⟨c1, c2⟩ ha hb (⟨rfl, rfl⟩ | ⟨rfl, rfl⟩)
    · exact inAt_mix hb ha
    · exact inAt_mix ha hb
  constructor
  · rintro (h | ⟨j, hj, hk, he⟩)
    · obtain ⟨h01, hin, he | ⟨ho, hin, he | ⟨hin, he | h⟩⟩⟩ := h
      · simp only [Prod.mk.injEq] at he
        exact ⟨.slalom45, he.2, Or.inr (Or.inl ⟨rfl, ⟨hin, he.1⟩, h01⟩)⟩
      · simp only [Prod.mk.injEq] at he
        exact ⟨.slalomDiagonal90, he.2, Or.inr (Or.inr (Or.inl ⟨rfl, ⟨hin, he.1⟩, h01, ho⟩))⟩
      · simp only [Prod.mk.injEq] at he
        exact ⟨.slalom135, he.2, Or.inr (Or.inr (Or.inr ⟨rfl, ⟨hin, he.1⟩, h01, ho⟩))⟩
      · exact h.elim
    · simp only [Prod.mk.injEq] at he
      refine ⟨.straightDiagonal j, he.2, Or.inl ⟨j, hj, rfl, ⟨(hk j hj (Nat.le_refl _)).2, he.1⟩, ?_⟩⟩
      intro i hi
      have := (hk (i + 1) (by omega) (by omega)).1
      push_cast at this
      exact this
  · rintro ⟨k, rfl, ⟨j, hj, rfl, ⟨hin, rfl⟩, ho⟩ | ⟨rfl, ⟨hin, rfl⟩, h01⟩ | ⟨rfl, ⟨hin, rfl⟩, h01, ho⟩ | ⟨rfl, ⟨hin, rfl⟩, h01, ho⟩⟩
    · refine Or.inr ⟨j, hj, ?_, rfl⟩
      intro k h1 h2
      have hk := ho (k - 1) (by omega)
      rw [show ((k - 1 : Nat) : Int) + 1 = k by omega] at hk
      exact ⟨hk, openD_in hk⟩
    · exact Or.inl ⟨h01, hin, Or.inl rfl⟩
    · have h12 : InAt W n (sw L (1, 2)) := hco (openD_in h01) (openD_in ho) (by cases L <;> simp [sw])
      exact Or.inl ⟨h01, h12, Or.inr ⟨ho, hin, Or.inl rfl⟩⟩
    · have h12 : InAt W n (sw L (1, 2)) := hco (openD_in h01) (openD_in ho) (by cases L <;> simp [sw])
      exact Or.inl ⟨h01, h12, Or.inr ⟨ho, openD_in ho, Or.inr ⟨hin, Or.inl rfl⟩⟩⟩

/-! ## Driving backwards -/

def revPosture : Posture → Posture
  | .north => .south | .northEast => .southWest | .east => .west | .southEast => .northWest
  | .south => .north | .southWest => .northEast | .west => .east | .northWest => .southEast

theorem reversed_eq (n : Node) : reversed n = ⟨n.x, n.y, revPosture n.posture⟩ := by
  obtain ⟨x, y, p⟩ := n
  cases p <;> rfl

theorem reversed_reversed (n : Node) : reversed (reversed n) = n := by
  obtain ⟨x, y, p⟩ := n
  cases p <;> rfl

theorem legal_reversed (hn : Legal W n) : Legal W (reversed n) := by
  obtain ⟨x, y, p⟩ := n
  obtain ⟨h1, h2, h⟩ := hn
  rw [reversed_eq]
  refine ⟨h1, h2, ?_⟩
  rcases h with ⟨h3, h4, h5⟩ | ⟨h3, h5⟩
  · refine Or.inl ⟨h3, h4, ?_⟩
    revert h5; cases p <;> simp [revPosture]
  · refine Or.inr ⟨h3, ?_⟩
    revert h5; cases p <;> simp [revPosture]

theorem frame_reversed (p : Posture) (d : V) :
    inFrame (e1 p) (e2 p) (sgn false d) = inFrame (e1 (revPosture p)) (e2 (revPosture p)) d := by
  obtain ⟨a, b⟩ := d
  cases p <;> simp [inFrame, e1, e2, sgn, revPosture]

theorem inAt_reversed (d : V) : InAt W n (sgn false d) ↔ InAt W (reversed n) (sgn true d) := by
  rw [reversed_eq]
  unfold InAt
  rw [frame_reversed]
  rfl

theorem coordAt_reversed (d : V) : coordAt n (sgn false d) = coordAt (reversed n) (sgn true d) := by
  rw [reversed_eq]
  unfold coordAt
  rw [frame_reversed]
  rfl

theorem base_reversed : baseOf (reversed n) = baseOf n := by
  rw [reversed_eq]; rfl

theorem turned_reversed (p q : Posture) : turned p q = revPosture (turned (revPosture p) q) := by
  cases p <;> cases q <;> rfl

theorem nodeAt_reversed (d : V) (q : Posture) : nodeAt n (sgn false d) q = reversed (nodeAt (reversed n) (sgn true d) q) := by
  rw [reversed_eq n, reversed_eq (nodeAt _ _ _)]
  unfold nodeAt
  rw [frame_reversed, turned_reversed n.posture q]
  rfl

def revItem : WallNode → WallNode
  | .wall w => .wall w
  | .node m p => .node (reversed m) p

theorem at_reversed (st : Stmt) : InAt W n (Stmt.at false st) ↔ InAt W (reversed n) (Stmt.at true st) := by
  cases st <;> exact inAt_reversed _

theorem emit_reversed : ∀ l : List Stmt, emit W n false l = (emit W (reversed n) true l).map revItem
  | [] => rfl
  | st :: rest => by
    unfold emit
    by_cases h : InAt W n (Stmt.at false st)
    · rw [if_pos h, if_pos ((at_reversed st).mp h), List.map_cons, emit_reversed rest]
      congr 1
      cases st with
      | wall dx dy => show WallNode.wall _ = WallNode.wall _; rw [coordAt_reversed]
      | node dx dy dd p => show WallNode.node _ _ = WallNode.node _ _; rw [nodeAt_reversed, base_reversed]
    · rw [if_neg h, if_neg (fun h' => h ((at_reversed st).mpr h'))]
      rfl

theorem allIn_reversed : ∀ l : List Stmt, allIn W n false l = allIn W (reversed n) true l
  | [] => rfl
  | st :: rest => by
    unfold allIn
    rw [allIn_reversed rest, decide_eq_decide.mpr (at_reversed st)]

theorem goodStmt_reversed (st : Stmt) (h : GoodStmt W (reversed n) true st) : GoodStmt W n false st := by
  cases st with
  | wall dx dy =>
    refine ⟨h.1, ?_⟩
    have := h.2
    rw [reversed_eq] at this
    rw [frame_reversed]
    exact this
  | node dx dy dd p =>
    refine ⟨h.1, fun hin => ?_⟩
    have := h.2 ((inAt_reversed _).mp hin)
    rw [nodeAt_reversed, ← base_reversed]
    exact legal_reversed this

theorem good_reversed : ∀ l : List Stmt, Good W (reversed n) true l → Good W n false l
  | [], _ => trivial
  | st :: rest, ⟨h1, h2⟩ => ⟨goodStmt_reversed st h1, fun h => good_reversed rest (h2 ((at_reversed st).mp h))⟩

theorem visible_reversed (blocked : Wall → Bool) : ∀ l : List WallNode,
    visible blocked (l.map revItem) = (visible blocked l).map fun e => (reversed e.1, e.2)
  | [] => rfl
  | .wall w :: rest => by
    rw [List.map_cons]
    show visible blocked (.wall w :: _) = _
    rw [visible_wall_eq, visible_wall_eq, visible_reversed blocked rest]
    split <;> rfl
  | .node m p :: rest => by
    rw [List.map_cons]
    show visible blocked (.node (reversed m) p :: _) = _
    rw [visible_node_eq, visible_node_eq, visible_reversed blocked rest]
    rfl

end Verif.Proof.OldN
