import Verif.Proof.OldNeighbors
import Verif.Proof.RunNode
/-! The run graph of the former core crate. -/
namespace Verif.Proof.OldN
open Verif Verif.Run Verif.Spec Verif.Old Verif.Proof

variable {W : Nat} {n : Node} {blocked : Wall → Bool}

theorem isLeft_reversed : IsLeft (reversed n) = IsLeft n := by
  obtain ⟨x, y, p⟩ := n
  cases p <;> rfl

theorem stmtsOf_reversed : stmtsOf (reversed n) = stmtsOf n := by
  unfold stmtsOf
  rw [isLeft_reversed]
  rfl

theorem isLeft_posture (hn : Legal W n) (hc : ¬ (n.x % 2 = 0 ∧ n.y % 2 = 0)) :
    n.posture ∈ [Posture.northEast, .southEast, .southWest, .northWest] := by
  obtain ⟨_, _, h | h⟩ := hn
  · exact absurd ⟨h.1, h.2.1⟩ hc
  · exact h.2

theorem head_ne {l : List Stmt} {a b : Stmt} (h : l = straightStmts ∨ l = diagonalStmts) (ha : l.head? = some a) (hb : l[1]? = some b) :
    (∃ p, b = .node 0 2 .front p) ∨ ∃ p, b = .node 1 1 .front p := by
  rcases h with rfl | rfl
  · unfold straightStmts at hb
    rw [rounds_succ] at hb
    simp at hb
    exact Or.inl ⟨_, hb.symm⟩
  · unfold diagonalStmts at hb
    rw [rounds_succ] at hb
    simp at hb
    exact Or.inr ⟨_, hb.symm⟩

/-- All blocks of statements, forwards. -/
theorem good_true (hW : Supported W) (hn : Legal W n) : ∀ l ∈ stmtsOf n, Good W n true l ∧ (emit W n true l).length ≤ 126 ∧
    (l = straightStmts ∨ l = diagonalStmts → allIn W n true l = false) := by
  intro l hl
  unfold stmtsOf at hl
  by_cases hc : n.x % 2 = 0 ∧ n.y % 2 = 0
  · rw [if_pos hc] at hl
    simp only [List.mem_cons, List.not_mem_nil, or_false] at hl
    rcases hl with rfl | rfl | rfl
    · refine ⟨good_right hn hc, Nat.le_trans (emit_le _ _) (by decide), fun h => ?_⟩
      rcases head_ne h rfl rfl with ⟨p, hp⟩ | ⟨p, hp⟩ <;> simp at hp
    · refine ⟨good_left hn hc, Nat.le_trans (emit_le _ _) (by decide), fun h => ?_⟩
      rcases head_ne h rfl rfl with ⟨p, hp⟩ | ⟨p, hp⟩ <;> simp at hp
    · have := straight_stops hW hn hc
      exact ⟨good_straight hW hn hc, by omega, fun _ => this.2⟩
  · rw [if_neg hc] at hl
    cases hL : IsLeft n with
    | true =>
      rw [hL, if_pos rfl] at hl
      simp only [List.mem_cons, List.not_mem_nil, or_false] at hl
      rcases hl with rfl | rfl
      · refine ⟨good_leftTurn hn hc hL, Nat.le_trans (emit_le _ _) (by decide), fun h => ?_⟩
        rcases head_ne h rfl rfl with ⟨p, hp⟩ | ⟨p, hp⟩ <;> simp at hp
      · have := diagonal_stops hW hn hc
        exact ⟨good_diagonal hW hn hc, by omega, fun _ => this.2⟩
    | false =>
      rw [hL, if_neg (by decide)] at hl
      simp only [List.mem_cons, List.not_mem_nil, or_false] at hl
      rcases hl with rfl | rfl
      · refine ⟨good_rightTurn hn hc hL, Nat.le_trans (emit_le _ _) (by decide), fun h => ?_⟩
        rcases head_ne h rfl rfl with ⟨p, hp⟩ | ⟨p, hp⟩ <;> simp at hp
      · have := diagonal_stops hW hn hc
        exact ⟨good_diagonal hW hn hc, by omega, fun _ => this.2⟩

theorem good_all (hW : Supported W) (hn : Legal W n) (s : Bool) : ∀ l ∈ stmtsOf n, Good W n s l ∧
    (emit W n s l).length ≤ 126 ∧ (l = straightStmts ∨ l = diagonalStmts → allIn W n s l = false) := by
  cases s with
  | true => exact good_true hW hn
  | false =>
    intro l hl
    have := good_true hW (legal_reversed hn) l (by rwa [stmtsOf_reversed])
    rw [emit_reversed, allIn_reversed, List.length_map]
    exact ⟨good_reversed l this.1, this.2⟩

theorem block_eq (hW : Supported W) (hn : Legal W n) (s : Bool) (l : List Stmt) (hl : l ∈ stmtsOf n) :
    RunNode.block W n s (baseOf n) l = .ok (emit W n s l) := by
  obtain ⟨h1, h2, -⟩ := good_all hW hn s l hl
  unfold RunNode.block
  rw [execute_eq hW hn s l [] h1 (by simp only [List.length_nil, EDGE_MAX, WIDTH_MAX]; omega)]
  rfl

theorem endless_eq (hW : Supported W) (hn : Legal W n) (s : Bool) (k : Nat) (body : Nat → List Stmt)
    (hl : rounds body 0 k ∈ stmtsOf n) (h : rounds body 0 k = straightStmts ∨ rounds body 0 k = diagonalStmts) :
    RunNode.endless W n s (baseOf n) k body = .ok (emit W n s (rounds body 0 k)) := by
  obtain ⟨h1, h2, h3⟩ := good_all hW hn s _ hl
  unfold RunNode.endless
  rw [rounds_range, execute_eq hW hn s _ [] h1 (by simp only [List.length_nil, EDGE_MAX, WIDTH_MAX]; omega), h3 h]
  rfl

theorem neighbors_eq (hW : Supported W) (hn : Legal W n) (s : Bool) :
    RunNode.neighbors W n s = .ok ((stmtsOf n).map (emit W n s)) := by
  by_cases hc : n.x % 2 = 0 ∧ n.y % 2 = 0
  · have hloc : location n = .cell := by
      unfold location
      rw [if_pos (by rw [and_one]; exact hc.1), if_pos (by rw [and_one]; exact hc.2)]
    have e : stmtsOf n = [rightStmts, leftStmts, straightStmts] := if_pos hc
    unfold RunNode.neighbors
    rw [hloc]
    show RunNode.cellNeighbors W n s = _
    unfold RunNode.cellNeighbors
    have h1 := block_eq hW hn s rightStmts (by rw [e]; simp)
    have h2 := block_eq hW hn s leftStmts (by rw [e]; simp)
    have h3 := endless_eq hW hn s 63 (fun dy : Nat => [.wall 0 (2 * dy - 1), .node 0 (2 * dy) .front (.straight dy)])
      (by rw [e]; show straightStmts ∈ _; simp) (Or.inl rfl)
    rw [base_centre hc] at h1 h2 h3
    unfold rightStmts at h1
    unfold leftStmts at h2
    rw [h1, h2, h3, e]
    rfl
  · have hp := isLeft_posture hn hc
    have hodd := odd_sum hn hc
    have hd : ∀ hl : diagonalStmts ∈ stmtsOf n, RunNode.diagonal W n s = .ok (emit W n s diagonalStmts) := by
      intro hl
      have := endless_eq hW hn s 127 (fun i : Nat => [.wall i i, .node i i .front (.straightDiagonal i)])
        hl (Or.inr rfl)
      rw [base_wall hc] at this
      exact this
    have hleft : IsLeft n = true → RunNode.leftDiagonalNeighbors W n s = .ok ((stmtsOf n).map (emit W n s)) := by
      intro hL
      have e : stmtsOf n = [leftTurn, diagonalStmts] := by unfold stmtsOf; rw [if_neg hc, hL, if_pos rfl]
      have h1 := block_eq hW hn s leftTurn (by rw [e]; simp)
      rw [base_wall hc] at h1
      unfold leftTurn at h1
      unfold RunNode.leftDiagonalNeighbors
      rw [h1, hd (by rw [e]; simp), e]
      rfl
    have hright : IsLeft n = false → RunNode.rightDiagonalNeighbors W n s = .ok ((stmtsOf n).map (emit W n s)) := by
      intro hL
      have e : stmtsOf n = [rightTurn, diagonalStmts] := by unfold stmtsOf; rw [if_neg hc, hL, if_neg (by decide)]
      have h1 := block_eq hW hn s rightTurn (by rw [e]; simp)
      rw [base_wall hc] at h1
      unfold rightTurn at h1
      unfold RunNode.rightDiagonalNeighbors
      rw [h1, hd (by rw [e]; simp), e]
      rfl
    unfold RunNode.neighbors
    by_cases hx : n.x % 2 = 0
    · have hloc : location n = .horizontalBound := by
        unfold location
        rw [if_pos (by rw [and_one]; exact hx), if_neg (by rw [and_one]; omega)]
      rw [hloc]
      revert hp
      unfold IsLeft at hleft hright
      rw [show decide (n.x % 2 = 1) = false by simp [hx]] at hleft hright
      cases hpp : n.posture <;> simp only [hpp] at hleft hright <;> first
        | (intro h; exact absurd h (by decide))
        | (intro _; first | exact hleft (by decide) | exact hright (by decide))
    · have hloc : location n = .verticalBound := by
        unfold location
        rw [if_neg (by rw [and_one]; omega), if_pos (by rw [and_one]; omega)]
      rw [hloc]
      revert hp
      unfold IsLeft at hleft hright
      rw [show decide (n.x % 2 = 1) = true by simp; omega] at hleft hright
      cases hpp : n.posture <;> simp only [hpp] at hleft hright <;> first
        | (intro h; exact absurd h (by decide))
        | (intro _; first | exact hleft (by decide) | exact hright (by decide))

/-! ## The edges -/

/-- What is seen from a node in one direction of travel. -/
def seen (W : Nat) (blocked : Wall → Bool) (n : Node) (s : Bool) : List (Node × Pattern) :=
  (stmtsOf n).flatMap fun l => visible blocked (emit W n s l)

theorem mem_seen (hW : Supported W) (hn : Legal W n) (m : Node) (p : Pattern) :
    (m, p) ∈ seen W blocked n true ↔ ∃ k, p = patternOf k ∧ Drivable W (posBlocked blocked) n k m := by
  unfold seen stmtsOf
  by_cases hc : n.x % 2 = 0 ∧ n.y % 2 = 0
  · rw [if_pos hc, ← visible_centre hW hn hc]
    simp
  · rw [if_neg hc, ← visible_bound hW hn hc]
    cases IsLeft n <;> simp

theorem mem_seen_false (hW : Supported W) (hn : Legal W n) (m : Node) (p : Pattern) :
    (m, p) ∈ seen W blocked n false ↔
      ∃ k, p = patternOf k ∧ Drivable W (posBlocked blocked) (reversed n) k (reversed m) := by
  rw [← mem_seen hW (legal_reversed hn)]
  unfold seen
  rw [stmtsOf_reversed]
  simp only [List.mem_flatMap, emit_reversed, visible_reversed, List.mem_map, Prod.mk.injEq]
  constructor
  · rintro ⟨l, hl, ⟨a, b⟩, hv, rfl, rfl⟩
    exact ⟨l, hl, by rwa [reversed_reversed]⟩
  · rintro ⟨l, hl, hv⟩
    exact ⟨l, hl, _, hv, reversed_reversed m, rfl⟩

/-- A node seen is a node of the maze. -/
theorem seen_legal (hW : Supported W) (hn : Legal W n) {s : Bool} {m : Node} {p : Pattern}
    (h : (m, p) ∈ seen W blocked n s) : Legal W m := by
  cases s with
  | true =>
    obtain ⟨k, -, h⟩ := (mem_seen hW hn m p).mp h
    exact drivable_legal hn _ _ h
  | false =>
    obtain ⟨k, -, h⟩ := (mem_seen_false hW hn m p).mp h
    have := legal_reversed (drivable_legal (legal_reversed hn) _ _ h)
    rwa [reversed_reversed] at this

theorem drivable_occurs (hn : Legal W n) {isWall : Search.Coord → Bool} {k : EdgeKind} {m : Node}
    (h : Drivable W isWall n k m) : Occurs W (patternOf k) := by
  by_cases hc : n.x % 2 = 0 ∧ n.y % 2 = 0
  · obtain ⟨σ, hσ, h⟩ := (drivable_centre hn hc k m).mp h
    rcases h with ⟨j, hj, rfl, ⟨hin, -⟩, -⟩ | ⟨rfl, -⟩ | ⟨rfl, -⟩ | ⟨rfl, -⟩ | ⟨rfl, -⟩
    · have := inAt_snd hin hn
      show j < W
      simp only at this
      omega
    all_goals trivial
  · rcases (drivable_wall hn hc k m).mp h with ⟨j, hj, rfl, ⟨hin, -⟩, -⟩ | ⟨rfl, -⟩ | ⟨rfl, -⟩ | ⟨rfl, -⟩
    · have := inAt_snd hin hn
      show j < 2 * W
      simp only at this
      omega
    all_goals trivial

theorem seen_occurs (hW : Supported W) (hn : Legal W n) {s : Bool} {m : Node} {p : Pattern}
    (h : (m, p) ∈ seen W blocked n s) : Occurs W p := by
  cases s with
  | true =>
    obtain ⟨k, rfl, h⟩ := (mem_seen hW hn m p).mp h
    exact drivable_occurs hn ‹Drivable _ _ _ _ _›
  | false =>
    obtain ⟨k, rfl, h⟩ := (mem_seen_false hW hn m p).mp h
    exact drivable_occurs (legal_reversed hn) ‹Drivable _ _ _ _ _›

/-- The nodes of a list of walls and nodes. -/
def nodeCount : List WallNode → Nat
  | [] => 0
  | .wall _ :: rest => nodeCount rest
  | .node _ _ :: rest => nodeCount rest + 1

theorem visible_count (blocked : Wall → Bool) : ∀ l, (visible blocked l).length ≤ nodeCount l
  | [] => Nat.le_refl _
  | .wall w :: rest => by
    rw [visible_wall_eq]
    have := visible_count blocked rest
    unfold nodeCount
    split <;> simp <;> omega
  | .node m p :: rest => by
    rw [visible_node_eq]
    have := visible_count blocked rest
    unfold nodeCount
    simp; omega

theorem count_loop (s : Bool) (w d : Nat → V) (dd : Rel) (p : Nat → Pattern) : ∀ k a,
    2 * nodeCount (emit W n s (rounds (fun i => [.wall (w i).1 (w i).2, .node (d i).1 (d i).2 dd (p i)]) a k)) ≤
      (emit W n s (rounds (fun i => [.wall (w i).1 (w i).2, .node (d i).1 (d i).2 dd (p i)]) a k)).length
  | 0, _ => Nat.le_refl _
  | k + 1, a => by
    have ih := count_loop s w d dd p k (a + 1)
    rw [rounds_succ]
    show 2 * nodeCount (emit W n s (.wall (w (a + 1)).1 (w (a + 1)).2 :: .node (d (a + 1)).1 (d (a + 1)).2 dd (p (a + 1)) ::
      rounds (fun i => [.wall (w i).1 (w i).2, .node (d i).1 (d i).2 dd (p i)]) (a + 1) k)) ≤
      (emit W n s (.wall (w (a + 1)).1 (w (a + 1)).2 :: .node (d (a + 1)).1 (d (a + 1)).2 dd (p (a + 1)) ::
      rounds (fun i => [.wall (w i).1 (w i).2, .node (d i).1 (d i).2 dd (p i)]) (a + 1) k)).length
    unfold emit
    split
    · unfold emit
      split
      · show 2 * (nodeCount _ + 1) ≤ _
        simp only [List.length_cons]; omega
      · show 2 * 0 ≤ _
        omega
    · exact Nat.le_refl _

theorem seen_length (hW : Supported W) (hn : Legal W n) (s : Bool) : (seen W blocked n s).length ≤ EDGE_MAX := by
  have hlen := good_all hW hn s
  unfold seen
  have hE : EDGE_MAX = 128 := rfl
  have short : ∀ l : List Stmt, (visible blocked (emit W n s l)).length ≤ l.length := fun l =>
    Nat.le_trans (visible_length blocked _) (emit_le s l)
  by_cases hc : n.x % 2 = 0 ∧ n.y % 2 = 0
  · have e : stmtsOf n = [rightStmts, leftStmts, straightStmts] := if_pos hc
    rw [e] at hlen ⊢
    have h1 := (hlen straightStmts (by simp)).2.1
    have h2 := count_loop (W := W) (n := n) s (fun dy : Nat => (0, 2 * (dy : Int) - 1)) (fun dy : Nat => (0, 2 * (dy : Int))) .front
      (fun dy => .straight dy) 63 0
    have h3 := visible_count blocked (emit W n s straightStmts)
    have h4 := short rightStmts
    have h5 := short leftStmts
    have h6 : rightStmts.length = 7 := rfl
    have h7 : leftStmts.length = 7 := rfl
    change 2 * nodeCount (emit W n s straightStmts) ≤ (emit W n s straightStmts).length at h2
    simp only [List.flatMap_cons, List.flatMap_nil, List.append_nil, List.length_append]
    omega
  · have h2 := count_loop (W := W) (n := n) s (fun i : Nat => ((i : Int), (i : Int))) (fun i : Nat => ((i : Int), (i : Int))) .front
      (fun i => .straightDiagonal i) 127 0
    change 2 * nodeCount (emit W n s diagonalStmts) ≤ (emit W n s diagonalStmts).length at h2
    have h3 := visible_count blocked (emit W n s diagonalStmts)
    have h4 := short leftTurn
    have h5 := short rightTurn
    have h6 : leftTurn.length = 5 := rfl
    have h7 : rightTurn.length = 5 := rfl
    have h1 := (hlen diagonalStmts (by unfold stmtsOf; rw [if_neg hc]; split <;> simp)).2.1
    unfold stmtsOf
    rw [if_neg hc]
    split <;> simp only [List.flatMap_cons, List.flatMap_nil, List.append_nil, List.length_append] <;> omega

theorem gatherAll_eq (blocked : Wall → Bool) (convert : Pattern → R Nat) (cost : Pattern → Nat) :
    ∀ (ls : List (List WallNode)) (acc : List (Node × Nat)),
      (∀ e ∈ ls.flatMap (visible blocked), convert e.2 = .ok (cost e.2)) →
      acc.length + (ls.flatMap (visible blocked)).length ≤ EDGE_MAX →
      gatherAll blocked convert ls acc = .ok (acc ++ (ls.flatMap (visible blocked)).map fun e => (e.1, cost e.2))
  | [], acc, _, _ => by simp [gatherAll]
  | l :: rest, acc, hc, hl => by
    unfold gatherAll
    simp only [List.flatMap_cons, List.length_append] at hc hl
    rw [gather_eq blocked convert cost l acc (fun e he => hc e (List.mem_append_left _ he)) (by omega)]
    simp only [bind, Except.bind]
    rw [gatherAll_eq blocked convert cost rest _ (fun e he => hc e (List.mem_append_right _ he))
      (by simp only [List.length_append, List.length_map]; omega)]
    simp

theorem edges_eq (hW : Supported W) (hn : Legal W n) (s : Bool) (convert : Pattern → R Nat) (cost : Pattern → Nat)
    (hcv : ∀ p, Occurs W p → convert p = .ok (cost p)) :
    (do gatherAll blocked convert (← RunNode.neighbors W n s) []) =
      .ok ((seen W blocked n s).map fun e => (e.1, cost e.2)) := by
  rw [neighbors_eq hW hn s]
  simp only [bind, Except.bind]
  have e : ((stmtsOf n).map (emit W n s)).flatMap (visible blocked) = seen W blocked n s := by
    unfold seen
    rw [List.flatMap_map]
  rw [gatherAll_eq blocked convert cost]
  · rw [e]; simp
  · rw [e]; exact fun e he => hcv e.2 (seen_occurs hW hn (m := e.1) he)
  · rw [e]; simpa using seen_length hW hn s

end Verif.Proof.OldN
