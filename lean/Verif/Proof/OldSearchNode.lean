import Verif.Spec.OldSearch
import Verif.Proof.OldCode
/-! The search nodes of the former core crate. -/
namespace Verif.Proof.OldS
open Verif Verif.Run Verif.Spec Verif.Old Verif.Proof Verif.Proof.OldN

variable {W : Nat} {n m : Node} {blocked : Wall → Bool}

/-- Displacement (right, forward) in the frame of the maze. -/
def disp (p : Posture) (d : V) : V :=
  (d.1 * (rightOf (heading p)).1 + d.2 * (heading p).1, d.1 * (rightOf (heading p)).2 + d.2 * (heading p).2)

theorem axis (hn : SearchLegal W n) : n.posture ∈ [Posture.north, .east, .south, .west] := by
  obtain ⟨-, -, ⟨-, -, h⟩ | ⟨-, -, h⟩⟩ := hn <;> revert h <;> cases n.posture <;> decide

theorem turnInto_axis {p : Posture} (hp : p ∈ [Posture.north, .east, .south, .west]) (dx dy : Int) :
    turnInto .north p dx dy = .ok (disp p (dx, dy)) := by
  cases p <;> first | (exfalso; revert hp; decide) | simp [turnInto, relativeDir, disp, rightOf, heading]

theorem relWall_gen (hW : Supported W) (h1 : n.x < 2 * W) (h2 : n.y < 2 * W) {base : Posture} {dx dy : Int} {v : V}
    (ht : turnInto base n.posture dx dy = .ok v) (hv : Near v) (hp : ((n.x : Int) + v.1 + (n.y + v.2)) % 2 = 1) :
    relativeWall W n dx dy base = .ok (if 0 ≤ n.x + v.1 ∧ n.x + v.1 < 2 * W ∧ 0 ≤ n.y + v.2 ∧ n.y + v.2 < 2 * W then
      some (oldWallAt ⟨(n.x + v.1).toNat, (n.y + v.2).toNat⟩) else none) := by
  have := hW.le
  have := hW.pos
  unfold relativeWall oldWallAt
  rw [ht]
  obtain ⟨vx, vy⟩ := v
  obtain ⟨a, b, c, e⟩ := hv
  simp only at a b c e hp
  simp only [bind, Except.bind, pure, Except.pure]
  rw [i8_ok (by omega), i8_ok (by omega)]
  simp only [xor_and_one]
  simp only [and_one]
  by_cases hneg : (n.x : Int) + vx < 0 ∨ (n.y : Int) + vy < 0
  · rw [if_pos hneg, if_neg (by omega)]
  · rw [if_neg hneg, if_neg (by omega)]
    by_cases hin : 0 ≤ (n.x : Int) + vx ∧ (n.x : Int) + vx < 2 * W ∧ 0 ≤ (n.y : Int) + vy ∧ (n.y : Int) + vy < 2 * W
    · rw [if_pos hin]
      by_cases hx : ((n.x : Int) + vx).toNat % 2 = 1
      · rw [if_pos hx, decide_eq_false (by omega), Wall.new, if_pos (by omega)]
      · rw [if_neg hx, decide_eq_true (by omega), Wall.new, if_pos (by omega)]
    · rw [if_neg hin]
      split <;> rw [Wall.new, if_neg (by omega)]

theorem relNode_gen (hW : Supported W) (h1 : n.x < 2 * W) (h2 : n.y < 2 * W) {base : Posture} {dx dy : Int} {v : V}
    (ht : turnInto base n.posture dx dy = .ok v) (hv : Near v) (dd : Rel) :
    relativeNode W n dx dy dd base = .ok (if 0 ≤ n.x + v.1 ∧ n.x + v.1 < 2 * W ∧ 0 ≤ n.y + v.2 ∧ n.y + v.2 < 2 * W then
      some ⟨(n.x + v.1).toNat, (n.y + v.2).toNat, rotate n.posture dd⟩ else none) := by
  have := hW.le
  unfold relativeNode
  rw [ht]
  obtain ⟨vx, vy⟩ := v
  obtain ⟨a, b, c, e⟩ := hv
  simp only at a b c e
  simp only [bind, Except.bind, pure, Except.pure]
  rw [i8_ok (by omega), i8_ok (by omega)]
  unfold nodeNew
  dsimp only
  congr 1
  by_cases hin : 0 ≤ (n.x : Int) + vx ∧ (n.x : Int) + vx < 2 * W ∧ 0 ≤ (n.y : Int) + vy ∧ (n.y : Int) + vy < 2 * W
  · rw [if_pos hin, if_neg (by omega)]
  · rw [if_neg hin, if_pos (by omega)]

theorem svalid_iff (m : Node) (h1 : m.x < 2 * W) (h2 : m.y < 2 * W) :
    SearchNode.valid m.x m.y m.posture = true ↔ SearchLegal W m := by
  unfold SearchNode.valid SearchLegal
  simp only [xor_and_one]
  simp only [and_one]
  by_cases h : (m.x + m.y) % 2 = 0
  · rw [if_pos h]
    simp only [Bool.false_eq_true, false_iff]
    omega
  · rw [if_neg h]
    by_cases hx : m.x % 2 = 1
    · rw [if_pos hx]
      simp only [h1, h2, true_and, decide_eq_true_eq]
      constructor
      · exact fun hp => Or.inl ⟨hx, by omega, hp⟩
      · rintro (⟨-, -, h⟩ | ⟨h, -⟩)
        · exact h
        · omega
    · rw [if_neg hx]
      simp only [h1, h2, true_and, decide_eq_true_eq]
      constructor
      · exact fun hp => Or.inr ⟨by omega, by omega, hp⟩
      · rintro (⟨h, -⟩ | ⟨-, -, h⟩)
        · omega
        · exact h

theorem search_ofNode (h : SearchLegal W m) : SearchNode.ofNode m = some m :=
  if_pos ((svalid_iff m h.1 h.2.1).mpr h)

/-! ## Neighbours -/

/-- The displacements and turns of the code. -/
def codeMove : SearchKind → V × Rel
  | .right => ((1, 1), .right)
  | .front | .init | .final => ((0, 2), .front)
  | .left => ((-1, 1), .left)
  | .back => ((0, 0), .back)

def moves : List SearchKind := [.right, .front, .left, .back]

/-- The displacement of a move in the frame of the maze. -/
def vecOf (n : Node) (s : Bool) (k : SearchKind) : V := disp n.posture (sgn s (codeMove k).1)

def inRange (W : Nat) (n : Node) (v : V) : Prop := 0 ≤ n.x + v.1 ∧ n.x + v.1 < 2 * W ∧ 0 ≤ n.y + v.2 ∧ n.y + v.2 < 2 * W

instance (W n v) : Decidable (inRange W n v) := by unfold inRange; infer_instance

def nodeTo (n : Node) (s : Bool) (k : SearchKind) : Node :=
  ⟨(n.x + (vecOf n s k).1).toNat, (n.y + (vecOf n s k).2).toNat, rotate n.posture (codeMove k).2⟩

theorem nodeTo_legal (hn : SearchLegal W n) (s : Bool) {k : SearchKind} (hk : k ∈ moves) (hin : inRange W n (vecOf n s k)) :
    SearchLegal W (nodeTo n s k) := by
  obtain ⟨x, y, p⟩ := n
  unfold inRange at hin
  unfold SearchLegal nodeTo
  obtain ⟨h1, h2, h⟩ := hn
  simp only [moves, List.mem_cons, List.not_mem_nil, or_false] at hk
  rcases h with ⟨e1, e2, hp⟩ | ⟨e1, e2, hp⟩ <;> simp only [List.mem_cons, List.not_mem_nil, or_false] at hp e1 e2 h1 h2 <;>
    rcases hp with rfl | rfl <;> rcases hk with rfl | rfl | rfl | rfl <;> cases s <;>
    simp only [vecOf, codeMove, disp, sgn, rightOf, heading, rotate, if_true, if_false, Bool.false_eq_true] at hin ⊢ <;>
    refine ⟨by omega, by omega, ?_⟩ <;> simp <;> omega

theorem vec_near (n : Node) (s : Bool) (k : SearchKind) : Near (vecOf n s k) := by
  unfold vecOf
  generalize n.posture = p
  unfold Near
  revert p s k
  intro s k p
  cases p <;> cases s <;> cases k <;> decide

theorem vec_parity (hn : SearchLegal W n) (s : Bool) (k : SearchKind) :
    ((n.x : Int) + (vecOf n s k).1 + (n.y + (vecOf n s k).2)) % 2 = 1 := by
  obtain ⟨x, y, p⟩ := n
  obtain ⟨h1, h2, h⟩ := hn
  rcases h with ⟨e1, e2, hp⟩ | ⟨e1, e2, hp⟩ <;> simp only [List.mem_cons, List.not_mem_nil, or_false] at hp e1 e2 <;>
    rcases hp with rfl | rfl <;> cases k <;> cases s <;>
    simp only [vecOf, codeMove, disp, sgn, rightOf, heading, if_true, if_false, Bool.false_eq_true] <;> omega

/-- What one call of `update` adds. -/
def entry (W : Nat) (n : Node) (s : Bool) (k : SearchKind) : List (List WallNode) :=
  if inRange W n (vecOf n s k) then
    [[.wall (oldWallAt ⟨(nodeTo n s k).x, (nodeTo n s k).y⟩), .node (nodeTo n s k) (kindPattern k)]] else []

theorem update_eq (hW : Supported W) (hn : SearchLegal W n) (s : Bool) {k : SearchKind} (hk : k ∈ moves)
    {list : List (List WallNode)} (hl : list.length < 4) :
    SearchNode.update W n s (codeMove k).1.1 (codeMove k).1.2 (codeMove k).2 (kindPattern k) list = .ok (list ++ entry W n s k) := by
  have ht : turnInto .north n.posture (sgn s (codeMove k).1).1 (sgn s (codeMove k).1).2 = .ok (vecOf n s k) := turnInto_axis (axis hn) _ _
  have e : (if s then ((codeMove k).1.1, (codeMove k).1.2) else (-(codeMove k).1.1, -(codeMove k).1.2)) =
      ((sgn s (codeMove k).1).1, (sgn s (codeMove k).1).2) := by cases s <;> rfl
  unfold SearchNode.update SearchNode.relative
  simp only [e]
  rw [relWall_gen hW hn.1 hn.2.1 ht (vec_near n s k) (vec_parity hn s k),
    relNode_gen hW hn.1 hn.2.1 ht (vec_near n s k)]
  simp only [bind, Except.bind, pure, Except.pure]
  unfold entry
  by_cases hin : inRange W n (vecOf n s k)
  · have hin' := hin
    unfold inRange at hin'
    simp only [if_pos hin, if_pos hin']
    have hL := nodeTo_legal hn s hk hin
    rw [Option.bind_some]
    have hO := search_ofNode hL
    unfold nodeTo at hO
    rw [hO]
    show pushCap 4 list _ = _
    unfold pushCap
    rw [if_pos (by omega)]
    rfl
  · have hin' := hin
    unfold inRange at hin'
    simp only [if_neg hin, if_neg hin', List.append_nil]

theorem entry_le (W : Nat) (n : Node) (s : Bool) (k : SearchKind) : (entry W n s k).length ≤ 1 := by
  unfold entry; split <;> simp

theorem sneighbors_eq (hW : Supported W) (hn : SearchLegal W n) (s : Bool) :
    SearchNode.neighbors W n s = .ok (moves.flatMap (entry W n s)) := by
  have l1 := entry_le W n s .right
  have l2 := entry_le W n s .front
  have l3 := entry_le W n s .left
  have h1 := update_eq hW hn s (k := .right) (by decide) (list := []) (by decide)
  have h2 := update_eq hW hn s (k := .front) (by decide) (list := [] ++ entry W n s .right) (by simp; omega)
  have h3 := update_eq hW hn s (k := .left) (by decide) (list := [] ++ entry W n s .right ++ entry W n s .front) (by simp; omega)
  have h4 := update_eq hW hn s (k := .back) (by decide) (list := [] ++ entry W n s .right ++ entry W n s .front ++ entry W n s .left) (by simp; omega)
  unfold SearchNode.neighbors
  simp only [codeMove, kindPattern] at h1 h2 h3 h4
  rw [h1]
  simp only [bind, Except.bind]
  rw [h2]
  simp only
  rw [h3]
  simp only
  rw [h4]
  simp [moves]

/-- The neighbours that can be reached. -/
def sseen (W : Nat) (blocked : Wall → Bool) (n : Node) (s : Bool) : List (Node × Pattern) :=
  (moves.flatMap (entry W n s)).flatMap (visible blocked)

theorem mem_sseen (m : Node) (p : Pattern) : (m, p) ∈ sseen W blocked n s ↔ ∃ k ∈ moves, p = kindPattern k ∧ m = nodeTo n s k ∧
    inRange W n (vecOf n s k) ∧ blocked (oldWallAt ⟨(nodeTo n s k).x, (nodeTo n s k).y⟩) = false := by
  unfold sseen
  rw [List.mem_flatMap]
  constructor
  · rintro ⟨l, hl, hm⟩
    obtain ⟨k, hk, hl⟩ := List.mem_flatMap.mp hl
    unfold entry at hl
    split at hl
    · rename_i hin
      rw [List.mem_singleton] at hl
      subst hl
      rw [visible_wall_eq] at hm
      split at hm
      · cases hm
      · rename_i hb
        rw [visible_node_eq] at hm
        simp only [visible, List.mem_singleton, Prod.mk.injEq] at hm
        exact ⟨k, hk, hm.2, hm.1, hin, by simpa using hb⟩
    · cases hl
  · rintro ⟨k, hk, rfl, rfl, hin, hb⟩
    refine ⟨[.wall (oldWallAt ⟨(nodeTo n s k).x, (nodeTo n s k).y⟩), .node (nodeTo n s k) (kindPattern k)], List.mem_flatMap.mpr ⟨k, hk, ?_⟩, ?_⟩
    · unfold entry; rw [if_pos hin]; simp
    · rw [visible_wall_eq, if_neg (by simp [hb]), visible_node_eq]; simp

theorem sseen_length : (sseen W blocked n s).length ≤ 4 := by
  have one : ∀ k, ((entry W n s k).flatMap (visible blocked)).length ≤ 1 := by
    intro k
    unfold entry
    split
    · simp only [List.flatMap_cons, List.flatMap_nil, List.append_nil, visible_wall_eq]
      split
      · simp
      · simp [visible]
    · simp
  have := one .right; have := one .front; have := one .left; have := one .back
  unfold sseen moves
  simp only [List.flatMap_cons, List.flatMap_nil, List.append_nil, List.flatMap_append, List.length_append]
  omega

theorem openPose_iff (hm : SearchLegal W m) : OpenPose W (posBlocked blocked) m ↔ blocked (oldWallAt ⟨m.x, m.y⟩) = false := by
  unfold OpenPose OpenAt
  constructor
  · rintro ⟨⟨cx, cy⟩, h1, h2, -, h3⟩
    simp only [Int.add_zero] at h1 h2
    have e1 : cx = m.x := by omega
    have e2 : cy = m.y := by omega
    subst e1 e2
    exact h3
  · intro h
    refine ⟨⟨m.x, m.y⟩, by simp, by simp, ?_, h⟩
    obtain ⟨h1, h2, h3⟩ := hm
    unfold Valid
    simp only
    omega

theorem turns_kind {k : SearchKind} (h : MovesTo n k m) : k ∈ moves := by cases k <;> first | decide | exact h.elim

theorem turns_iff (hn : SearchLegal W n) {k : SearchKind} (hk : k ∈ moves) :
    (MovesTo n k m ∧ m.x < 2 * W ∧ m.y < 2 * W) ↔ (m = nodeTo n true k ∧ inRange W n (vecOf n true k)) := by
  have ha := axis hn
  obtain ⟨x, y, p⟩ := n
  obtain ⟨x', y', p'⟩ := m
  simp only [List.mem_cons, List.not_mem_nil, or_false] at ha
  simp only [moves, List.mem_cons, List.not_mem_nil, or_false] at hk
  unfold inRange
  rcases ha with rfl | rfl | rfl | rfl <;> rcases hk with rfl | rfl | rfl | rfl <;> cases p' <;>
    simp [MovesTo, nodeTo, vecOf, codeMove, disp, sgn, rightOf, heading, rotate] <;> omega

/-- Left and right exchanged. -/
def mirror : SearchKind → SearchKind
  | .right => .left
  | .left => .right
  | k => k

theorem mirror_moves {k : SearchKind} (h : k ∈ moves) : mirror k ∈ moves := by revert h; cases k <;> decide

theorem mirror_mirror (k : SearchKind) : mirror (mirror k) = k := by cases k <;> rfl

theorem mirror_pattern (k : SearchKind) : kindPattern (mirror k) = kindPattern k := by cases k <;> rfl

theorem turns_iff_back (hn : SearchLegal W n) {k : SearchKind} (hk : k ∈ moves) :
    (MovesTo m k n ∧ m.x < 2 * W ∧ m.y < 2 * W) ↔
      (m = nodeTo n false (mirror k) ∧
        inRange W n (vecOf n false (mirror k))) := by
  have ha := axis hn
  obtain ⟨x, y, p⟩ := n
  obtain ⟨x', y', p'⟩ := m
  simp only [List.mem_cons, List.not_mem_nil, or_false] at ha
  simp only [moves, List.mem_cons, List.not_mem_nil, or_false] at hk
  unfold inRange
  rcases ha with rfl | rfl | rfl | rfl <;> rcases hk with rfl | rfl | rfl | rfl <;> cases p' <;>
    simp [MovesTo, mirror, nodeTo, vecOf, codeMove, disp, sgn, rightOf, heading, rotate] <;> omega

theorem openPose_range (h : OpenPose W isWall m) : m.x < 2 * W ∧ m.y < 2 * W := by
  obtain ⟨⟨cx, cy⟩, h1, h2, h3, -⟩ := h
  unfold Valid at h3
  simp only [Int.add_zero] at h1 h2 h3
  omega

theorem turns_legal (hn : SearchLegal W n) {k : SearchKind} (h : MovesTo n k m) (hx : m.x < 2 * W) (hy : m.y < 2 * W) : SearchLegal W m := by
  obtain ⟨rfl, h2⟩ := (turns_iff hn (turns_kind h)).mp ⟨h, hx, hy⟩
  exact nodeTo_legal hn true (turns_kind h) h2

theorem mem_sseen_true (hn : SearchLegal W n) (m : Node) (p : Pattern) :
    (m, p) ∈ sseen W blocked n true ↔ ∃ k, p = kindPattern k ∧ SearchMove W (posBlocked blocked) n k m := by
  rw [mem_sseen]
  constructor
  · rintro ⟨k, hk, h1, h2, h3, h4⟩
    have hL := nodeTo_legal hn true hk h3
    have ht := (turns_iff hn hk).mpr ⟨h2, h3⟩
    subst h2
    exact ⟨k, h1, ht.1, (openPose_iff hL).mpr h4⟩
  · rintro ⟨k, h1, ht, ho⟩
    have hk := turns_kind ht
    have hr := openPose_range ho
    obtain ⟨h2, h3⟩ := (turns_iff hn hk).mp ⟨ht, hr⟩
    have hL := nodeTo_legal hn true hk h3
    subst h2
    exact ⟨k, hk, h1, rfl, h3, (openPose_iff hL).mp ho⟩

theorem mem_sseen_false (hn : SearchLegal W n) (m : Node) (p : Pattern) :
    (m, p) ∈ sseen W blocked n false ↔ ∃ k, p = kindPattern k ∧ MovesTo m k n ∧ OpenPose W (posBlocked blocked) m := by
  rw [mem_sseen]
  constructor
  · rintro ⟨k, hk, h1, h2, h3, h4⟩
    have hL := nodeTo_legal hn false hk h3
    have ht := (turns_iff_back (m := m) hn (mirror_moves hk)).mpr (by rw [mirror_mirror]; exact ⟨h2, h3⟩)
    subst h2
    exact ⟨mirror k, by rw [h1, mirror_pattern], ht.1, (openPose_iff hL).mpr h4⟩
  · rintro ⟨k, h1, ht, ho⟩
    have hk := turns_kind ht
    have hr := openPose_range ho
    obtain ⟨h2, h3⟩ := (turns_iff_back hn hk).mp ⟨ht, hr⟩
    have hk' := mirror_moves hk
    have hL := nodeTo_legal hn false hk' h3
    subst h2
    exact ⟨mirror k, hk', by rw [h1, mirror_pattern], rfl, h3, (openPose_iff hL).mp ho⟩

theorem kind_occurs (hn : SearchLegal W n) (s : Bool) {k : SearchKind} (hk : k ∈ moves) (h : inRange W n (vecOf n s k)) :
    Occurs W (kindPattern k) := by
  have ha := axis hn
  obtain ⟨x, y, p⟩ := n
  unfold inRange at h
  simp only [List.mem_cons, List.not_mem_nil, or_false] at ha
  simp only [moves, List.mem_cons, List.not_mem_nil, or_false] at hk
  obtain ⟨h1, h2, -⟩ := hn
  simp only at h1 h2
  rcases hk with rfl | rfl | rfl | rfl <;> unfold Occurs kindPattern <;> try trivial
  show 1 < W
  rcases ha with rfl | rfl | rfl | rfl <;> cases s <;> simp [vecOf, codeMove, disp, sgn, rightOf, heading] at h <;> omega

theorem search_eq (hW : Supported W) (hn : SearchLegal W n) (s : Bool) {convert : Pattern → R Nat} {cost : Pattern → Nat}
    (hc : ∀ p, Occurs W p → convert p = .ok (cost p)) :
    (do gatherAll blocked convert (← SearchNode.neighbors W n s) []) = .ok ((sseen W blocked n s).map fun e => (e.1, cost e.2)) := by
  rw [sneighbors_eq hW hn s]
  simp only [bind, Except.bind]
  have := gatherAll_eq blocked convert cost (moves.flatMap (entry W n s)) [] ?_ ?_
  · simpa [sseen] using this
  · rintro ⟨m, p⟩ he
    obtain ⟨k, hk, rfl, -, hr, -⟩ := (mem_sseen m p).mp he
    exact hc _ (kind_occurs hn s hk hr)
  · have := sseen_length (W := W) (blocked := blocked) (n := n) (s := s)
    unfold sseen at this
    simp only [List.length_nil, Nat.zero_add]
    exact Nat.le_trans this (by decide)

/-! ## Index and route -/

def sdir (p : Posture) : Nat := match p with | .south | .west => 1 | _ => 0

theorem sindex_eq (hW : Supported W) (hn : SearchLegal W n) :
    SearchNode.index W n = .ok (n.x + 2 * W * (n.y + 2 * W * sdir n.posture)) := by
  have key : ∀ d, n.x ||| (n.y <<< Old.yOffset W) ||| (d <<< Old.dirOffset W) = n.x + 2 * W * (n.y + 2 * W * d) := by
    intro d
    obtain ⟨k, hk, rfl⟩ := hW
    obtain ⟨hx, hy, -⟩ := hn
    obtain ⟨e1, e2, -⟩ := offsets_old k hk
    have e : 2 ^ (k + 1) = 2 * 2 ^ k := by rw [Nat.pow_succ]; omega
    rw [e1, e2, packed k _ _ _ (by omega) (by omega), e]
  unfold SearchNode.index
  simp only [and_one]
  obtain ⟨x, y, p⟩ := n
  obtain ⟨h1, h2, h⟩ := hn
  rcases h with ⟨e1, e2, hp⟩ | ⟨e1, e2, hp⟩ <;> simp only [List.mem_cons, List.not_mem_nil, or_false] at hp e1 e2 <;>
    rcases hp with rfl | rfl
  all_goals
    simp only [e1, e2, if_true, if_false, bind, Except.bind, pure, Except.pure, sdir, Nat.one_ne_zero]
    exact congrArg Except.ok (key _)

theorem sindex_lt (hW : Supported W) (hn : SearchLegal W n) : n.x + 2 * W * (n.y + 2 * W * sdir n.posture) < NODE_MAX := by
  have := hW.le
  obtain ⟨h1, h2, -⟩ := hn
  have hd : sdir n.posture ≤ 1 := by unfold sdir; split <;> omega
  have h3 : n.y + 2 * W * sdir n.posture + 1 ≤ 2 * W + 2 * W := by
    have := Nat.mul_le_mul_left (2 * W) hd
    omega
  have h4 := Nat.mul_le_mul_left (2 * W) h3
  have h5 : 2 * W * (2 * W + 2 * W) ≤ 64 * 128 := Nat.mul_le_mul (by omega) (by omega)
  rw [Nat.mul_add] at h4
  have : NODE_MAX = 16384 := by decide
  omega

theorem sindex_inj (hn : SearchLegal W n) (hm : SearchLegal W m)
    (h : n.x + 2 * W * (n.y + 2 * W * sdir n.posture) = m.x + 2 * W * (m.y + 2 * W * sdir m.posture)) : n = m := by
  obtain ⟨a1, a2, a3⟩ := unpack (2 * W) n.x n.y (sdir n.posture) hn.1 hn.2.1
  obtain ⟨b1, b2, b3⟩ := unpack (2 * W) m.x m.y (sdir m.posture) hm.1 hm.2.1
  rw [h] at a1 a2 a3
  obtain ⟨x, y, p⟩ := n
  obtain ⟨x', y', p'⟩ := m
  have e1 : x = x' := a1.symm.trans b1
  have e2 : y = y' := a2.symm.trans b2
  have e3 : sdir p = sdir p' := a3.symm.trans b3
  subst e1 e2
  obtain ⟨-, -, hp⟩ := hn
  obtain ⟨-, -, hq⟩ := hm
  simp only at hp hq
  rcases hp with ⟨h1, h2, hp⟩ | ⟨h1, h2, hp⟩ <;> rcases hq with ⟨h3, h4, hq⟩ | ⟨h3, h4, hq⟩ <;> first | omega | skip
  all_goals
    simp only [List.mem_cons, List.not_mem_nil, or_false] at hp hq
    rcases hp with rfl | rfl <;> rcases hq with rfl | rfl <;> first | rfl | (exact absurd e3 (by decide))

/-- The kind that belongs to a difference. -/
def kindOf (d : Int × Int × Rel) : Option SearchKind :=
  match d with
  | (1, 1, .right) => some .right
  | (0, 2, .front) => some .front
  | (-1, 1, .left) => some .left
  | (0, 0, .back) => some .back
  | _ => none

theorem kindOf_iff (d : Int × Int × Rel) (k : SearchKind) :
    kindOf d = some k ↔ k ∈ moves ∧ d = ((codeMove k).1.1, (codeMove k).1.2, (codeMove k).2) := by
  constructor
  · unfold kindOf
    split <;> intro h <;> first | (cases h; exact ⟨by decide, rfl⟩) | cases h
  · rintro ⟨hk, rfl⟩
    simp only [moves, List.mem_cons, List.not_mem_nil, or_false] at hk
    rcases hk with rfl | rfl | rfl | rfl <;> rfl

theorem route_kind (n m : Node) {d : Int × Int × Rel} (h : difference n m .north = .ok d) : SearchNode.route n m = .ok (kindOf d) := by
  unfold SearchNode.route kindOf
  rw [h]
  simp only [bind, Except.bind, pure, Except.pure]
  split
  · rfl
  · rfl
  · rfl
  · rfl
  · split <;> first | rfl | contradiction

theorem sdifference_eq (hW : Supported W) (hn : SearchLegal W n) (hm : SearchLegal W m) :
    ∃ d, difference n m .north = .ok d ∧ ∀ k ∈ moves, d = ((codeMove k).1.1, (codeMove k).1.2, (codeMove k).2) ↔ MovesTo n k m := by
  have ha := axis hn
  have hb := axis hm
  have := hW.le
  obtain ⟨x, y, p⟩ := n
  obtain ⟨x', y', p'⟩ := m
  obtain ⟨h1, h2, -⟩ := hn
  obtain ⟨h3, h4, -⟩ := hm
  simp only [List.mem_cons, List.not_mem_nil, or_false] at ha hb h1 h2 h3 h4
  unfold difference
  simp only
  rw [i8_ok (by omega), i8_ok (by omega)]
  rcases ha with rfl | rfl | rfl | rfl <;> rcases hb with rfl | rfl | rfl | rfl <;>
    refine ⟨_, rfl, ?_⟩ <;> intro k hk <;> simp only [moves, List.mem_cons, List.not_mem_nil, or_false] at hk <;>
    rcases hk with rfl | rfl | rfl | rfl <;> simp [codeMove, MovesTo, rightOf, heading, relativeDir] <;> omega

theorem route_eq (hW : Supported W) (hn : SearchLegal W n) (hm : SearchLegal W m) :
    ∃ o, SearchNode.route n m = .ok o ∧ ∀ k, o = some k ↔ MovesTo n k m := by
  obtain ⟨d, hd, h⟩ := sdifference_eq hW hn hm
  refine ⟨_, route_kind n m hd, fun k => ?_⟩
  rw [kindOf_iff]
  exact ⟨fun ⟨h1, h2⟩ => (h k h1).mp h2, fun ht => ⟨turns_kind ht, (h k (turns_kind ht)).mpr ht⟩⟩

end Verif.Proof.OldS
