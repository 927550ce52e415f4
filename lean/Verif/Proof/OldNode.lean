import Verif.Spec.OldNode
import Verif.Proof.RunSucc2
/-! The run nodes of the former core crate: the statements of the neighbour lists in the frame of the pose. -/
namespace Verif.Proof.OldN
open Verif Verif.Run Verif.Spec Verif.Old Verif.Proof

variable {W : Nat} {n : Node}

/-- The base direction of the frame in which the code describes displacements. -/
def baseOf (n : Node) : Posture := if n.x % 2 = 0 ∧ n.y % 2 = 0 then .north else .northEast

theorem turnInto_eq (hn : Legal W n) (dx dy : Int) :
    turnInto (baseOf n) n.posture dx dy = .ok (inFrame (e1 n.posture) (e2 n.posture) (dx, dy)) := by
  obtain ⟨x, y, p⟩ := n
  obtain ⟨-, -, ⟨h1, h2, hp⟩ | ⟨h1, hp⟩⟩ := hn
  · simp only at h1 h2 hp
    have : baseOf ⟨x, y, p⟩ = .north := if_pos ⟨h1, h2⟩
    rw [this]
    cases p <;> first | (exfalso; revert hp; decide) | simp [turnInto, relativeDir, inFrame, e1, e2]
  · simp only at h1 hp
    have : baseOf ⟨x, y, p⟩ = .northEast := if_neg (by simp only; omega)
    rw [this]
    cases p <;> first | (exfalso; revert hp; decide) | simp [turnInto, relativeDir, inFrame, e1, e2]

theorem rotate_eq (hn : Legal W n) (dd : Rel) : rotate n.posture dd = turned n.posture (rotate (baseOf n) dd) := by
  obtain ⟨x, y, p⟩ := n
  obtain ⟨-, -, ⟨h1, h2, hp⟩ | ⟨h1, hp⟩⟩ := hn
  · simp only at h1 h2 hp
    have : baseOf ⟨x, y, p⟩ = .north := if_pos ⟨h1, h2⟩
    rw [this]
    cases p <;> first | (exfalso; revert hp; decide) | (cases dd <;> rfl)
  · simp only at h1 hp
    have : baseOf ⟨x, y, p⟩ = .northEast := if_neg (by simp only; omega)
    rw [this]
    cases p <;> first | (exfalso; revert hp; decide) | (cases dd <;> rfl)

instance (W n d) : Decidable (InAt W n d) := by unfold InAt; infer_instance

/-- The coordinates at displacement `d`. -/
def coordAt (n : Node) (d : V) : Search.Coord :=
  let v := inFrame (e1 n.posture) (e2 n.posture) d
  ⟨(n.x + v.1).toNat, (n.y + v.2).toNat⟩

/-- Displacements of at most the width of the maze. -/
def Near (d : V) : Prop := -64 ≤ d.1 ∧ d.1 ≤ 64 ∧ -64 ≤ d.2 ∧ d.2 ≤ 64

theorem near_frame (p : Posture) {d : V} (h : Near d) : Near (inFrame (e1 p) (e2 p) d) := by
  obtain ⟨a, b⟩ := d
  unfold Near at *
  cases p <;> simp only [inFrame, e1, e2] at * <;> omega

theorem i8_ok {v : Int} (h : -128 ≤ v ∧ v ≤ 127) : i8 v = .ok v := if_pos h

theorem relativeNode_eq (hW : Supported W) (hn : Legal W n) {d : V} (hd : Near d) (dd : Rel) :
    relativeNode W n d.1 d.2 dd (baseOf n) =
      .ok (if InAt W n d then some (nodeAt n d (rotate (baseOf n) dd)) else none) := by
  have hv := near_frame n.posture hd
  have := hW.le
  have h1 := hn.1
  have h2 := hn.2.1
  have key : relativeNode W n d.1 d.2 dd (baseOf n) =
      .ok (nodeNew W (n.x + (inFrame (e1 n.posture) (e2 n.posture) d).1)
        (n.y + (inFrame (e1 n.posture) (e2 n.posture) d).2) (rotate n.posture dd)) := by
    unfold relativeNode
    rw [turnInto_eq hn]
    simp only [bind, Except.bind, pure, Except.pure]
    obtain ⟨a, b, c, e⟩ := hv
    rw [i8_ok (by change _ ≤ _ + (inFrame (e1 n.posture) (e2 n.posture) d).1 ∧ _ + (inFrame (e1 n.posture) (e2 n.posture) d).1 ≤ _; omega),
      i8_ok (by change _ ≤ _ + (inFrame (e1 n.posture) (e2 n.posture) d).2 ∧ _ + (inFrame (e1 n.posture) (e2 n.posture) d).2 ≤ _; omega)]
  rw [key]
  congr 1
  unfold nodeNew
  by_cases hin : InAt W n d
  · rw [if_pos hin]
    unfold InAt at hin
    simp only at hin
    rw [if_neg (by omega), nodeAt, ← rotate_eq hn]
  · rw [if_neg hin]
    unfold InAt at hin
    simp only at hin
    rw [if_pos (by omega)]

theorem relativeWall_eq (hW : Supported W) (hn : Legal W n) {d : V} (hd : Near d)
    (hp : ((n.x : Int) + (inFrame (e1 n.posture) (e2 n.posture) d).1 + (n.y +
      (inFrame (e1 n.posture) (e2 n.posture) d).2)) % 2 = 1) :
    relativeWall W n d.1 d.2 (baseOf n) = .ok (if InAt W n d then some (oldWallAt (coordAt n d)) else none) := by
  have hv := near_frame n.posture hd
  have := hW.le
  have := hW.pos
  have h1 := hn.1
  have h2 := hn.2.1
  by_cases hin : InAt W n d
  · rw [if_pos hin]
    unfold InAt at hin
    unfold relativeWall coordAt oldWallAt
    rw [turnInto_eq hn]
    change Near (inFrame (e1 n.posture) (e2 n.posture) (d.1, d.2)) at hv
    change ((n.x : Int) + (inFrame (e1 n.posture) (e2 n.posture) (d.1, d.2)).1 + (n.y +
        (inFrame (e1 n.posture) (e2 n.posture) (d.1, d.2)).2)) % 2 = 1 at hp
    change (let v := inFrame (e1 n.posture) (e2 n.posture) (d.1, d.2); _) at hin
    change _ = Except.ok (some (⟨(Search.Coord.mk ((n.x : Int) + (inFrame (e1 n.posture) (e2 n.posture) (d.1, d.2)).1).toNat
      ((n.y : Int) + (inFrame (e1 n.posture) (e2 n.posture) (d.1, d.2)).2).toNat).x / 2, _, _⟩ : Wall))
    generalize inFrame (e1 n.posture) (e2 n.posture) (d.1, d.2) = v at *
    obtain ⟨vx, vy⟩ := v
    obtain ⟨a, b, c, e⟩ := hv
    simp only at a b c e hp hin
    simp only [bind, Except.bind, pure, Except.pure]
    rw [i8_ok (by omega), i8_ok (by omega)]
    simp only [xor_and_one]
    simp only [and_one]
    rw [if_neg (by omega), if_neg (by omega)]
    by_cases hx : ((n.x : Int) + vx).toNat % 2 = 1
    · rw [if_pos hx, decide_eq_false (by omega), Wall.new, if_pos (by omega)]
    · rw [if_neg hx, decide_eq_true (by omega), Wall.new, if_pos (by omega)]
  · rw [if_neg hin]
    unfold InAt at hin
    unfold relativeWall
    rw [turnInto_eq hn]
    change Near (inFrame (e1 n.posture) (e2 n.posture) (d.1, d.2)) at hv
    change ((n.x : Int) + (inFrame (e1 n.posture) (e2 n.posture) (d.1, d.2)).1 + (n.y +
        (inFrame (e1 n.posture) (e2 n.posture) (d.1, d.2)).2)) % 2 = 1 at hp
    change ¬ (let v := inFrame (e1 n.posture) (e2 n.posture) (d.1, d.2); _) at hin
    generalize inFrame (e1 n.posture) (e2 n.posture) (d.1, d.2) = v at *
    obtain ⟨vx, vy⟩ := v
    obtain ⟨a, b, c, e⟩ := hv
    simp only at a b c e hp hin
    simp only [bind, Except.bind, pure, Except.pure]
    rw [i8_ok (by omega), i8_ok (by omega)]
    simp only [xor_and_one]
    simp only [and_one]
    by_cases hneg : (n.x : Int) + vx < 0 ∨ (n.y : Int) + vy < 0
    · rw [if_pos hneg]
    · rw [if_neg hneg, if_neg (by omega)]
      split <;> rw [Wall.new, if_neg (by omega)]

/-! ## Statement lists -/

/-- The displacement of a statement as the code uses it. -/
def sgn (isSucc : Bool) (d : V) : V := if isSucc then d else (-d.1, -d.2)

theorem valid_iff (m : Node) (h1 : m.x < 2 * W) (h2 : m.y < 2 * W) :
    RunNode.valid m.x m.y m.posture = true ↔ Legal W m := by
  unfold RunNode.valid Legal
  simp only [xor_and_one, or_and_one]
  by_cases h : (m.x + m.y) % 2 = 1
  · rw [if_pos h]
    have : ¬ (m.x % 2 = 0 ∧ m.y % 2 = 0) := by omega
    simp only [h1, h2, true_and, h, decide_eq_true_eq]
    constructor
    · exact Or.inr
    · rintro (h | h)
      · omega
      · exact h
  · rw [if_neg h]
    by_cases h' : m.x % 2 = 0 ∧ m.y % 2 = 0
    · rw [if_pos h']
      simp only [h1, h2, true_and, decide_eq_true_eq]
      constructor
      · exact fun hp => Or.inl ⟨h'.1, h'.2, hp⟩
      · rintro (⟨-, -, h⟩ | h)
        · exact h
        · omega
    · rw [if_neg h']
      simp only [Bool.false_eq_true, false_iff]
      rintro ⟨-, -, ⟨a, b, -⟩ | ⟨a, -⟩⟩
      · exact h' ⟨a, b⟩
      · exact h a

theorem legal_ofNode {m : Node} (h : Legal W m) : RunNode.ofNode m = some m :=
  if_pos ((valid_iff m h.1 h.2.1).mpr h)

/-- A statement that can be executed: displacement in range, walls on wall positions, nodes that are legal if they are
in the maze. -/
def GoodStmt (W : Nat) (n : Node) (s : Bool) : Stmt → Prop
  | .wall dx dy => Near (dx, dy) ∧ ((n.x : Int) + (inFrame (e1 n.posture) (e2 n.posture) (sgn s (dx, dy))).1 +
      (n.y + (inFrame (e1 n.posture) (e2 n.posture) (sgn s (dx, dy))).2)) % 2 = 1
  | .node dx dy dd _ => Near (dx, dy) ∧ (InAt W n (sgn s (dx, dy)) →
      Legal W (nodeAt n (sgn s (dx, dy)) (rotate (baseOf n) dd)))

def Stmt.at (s : Bool) : Stmt → V
  | .wall dx dy => sgn s (dx, dy)
  | .node dx dy _ _ => sgn s (dx, dy)

/-- All statements up to the first one that leaves the maze are good. -/
def Good (W : Nat) (n : Node) (s : Bool) : List Stmt → Prop
  | [] => True
  | st :: rest => GoodStmt W n s st ∧ (InAt W n (Stmt.at s st) → Good W n s rest)

/-- What a statement adds. -/
def item (n : Node) (s : Bool) : Stmt → WallNode
  | .wall dx dy => .wall (oldWallAt (coordAt n (sgn s (dx, dy))))
  | .node dx dy dd p => .node (nodeAt n (sgn s (dx, dy)) (rotate (baseOf n) dd)) p

/-- What the statements add: up to the first one that leaves the maze. -/
def emit (W : Nat) (n : Node) (s : Bool) : List Stmt → List WallNode
  | [] => []
  | st :: rest => if InAt W n (Stmt.at s st) then item n s st :: emit W n s rest else []

/-- No statement leaves the maze. -/
def allIn (W : Nat) (n : Node) (s : Bool) : List Stmt → Bool
  | [] => true
  | st :: rest => decide (InAt W n (Stmt.at s st)) && allIn W n s rest

theorem near_sgn {d : V} (s : Bool) (h : Near d) : Near (sgn s d) := by
  obtain ⟨a, b⟩ := d
  unfold Near sgn at *
  cases s <;> simp only [Bool.false_eq_true, if_false, if_true] at * <;> omega

theorem execute_eq (hW : Supported W) (hn : Legal W n) (s : Bool) : ∀ (l : List Stmt) (tmp : List WallNode),
    Good W n s l → tmp.length + (emit W n s l).length ≤ EDGE_MAX →
    RunNode.execute W n s (baseOf n) l tmp = .ok (tmp ++ emit W n s l, allIn W n s l)
  | [], tmp, _, _ => by simp [RunNode.execute, emit, allIn]
  | .wall dx dy :: rest, tmp, ⟨hg, hr⟩, hlen => by
    have e : (if s then (dx, dy) else (-dx, -dy)) = ((sgn s (dx, dy)).1, (sgn s (dx, dy)).2) := by
      cases s <;> rfl
    unfold RunNode.execute
    simp only [e]
    rw [relativeWall_eq hW hn (near_sgn s hg.1) hg.2]
    simp only [bind, Except.bind]
    by_cases hin : InAt W n (sgn s (dx, dy))
    · simp only [if_pos hin]
      have hem : emit W n s (.wall dx dy :: rest) = .wall (oldWallAt (coordAt n (sgn s (dx, dy)))) :: emit W n s rest :=
        if_pos hin
      rw [hem, List.length_cons] at hlen
      unfold pushCap
      rw [if_pos (by omega)]
      simp only
      rw [execute_eq hW hn s rest _ (hr hin) (by rw [List.length_append, List.length_singleton]; omega), hem]
      have : allIn W n s (.wall dx dy :: rest) = allIn W n s rest := by
        show (decide (InAt W n (sgn s (dx, dy))) && _) = _
        simp [hin]
      rw [this, List.append_assoc]
      rfl
    · simp only [if_neg hin]
      have hem : emit W n s (.wall dx dy :: rest) = [] := if_neg hin
      have : allIn W n s (.wall dx dy :: rest) = false := by
        show (decide (InAt W n (sgn s (dx, dy))) && _) = _
        simp [hin]
      rw [hem, this, List.append_nil]
      rfl
  | .node dx dy dd p :: rest, tmp, ⟨hg, hr⟩, hlen => by
    have e : (if s then (dx, dy) else (-dx, -dy)) = ((sgn s (dx, dy)).1, (sgn s (dx, dy)).2) := by
      cases s <;> rfl
    unfold RunNode.execute RunNode.relative
    simp only [e]
    rw [relativeNode_eq hW hn (near_sgn s hg.1) dd]
    simp only [bind, Except.bind, pure, Except.pure]
    by_cases hin : InAt W n (sgn s (dx, dy))
    · simp only [if_pos hin]
      have hem : emit W n s (.node dx dy dd p :: rest) =
        .node (nodeAt n (sgn s (dx, dy)) (rotate (baseOf n) dd)) p :: emit W n s rest := if_pos hin
      rw [hem, List.length_cons] at hlen
      rw [Option.bind_some, legal_ofNode (hg.2 hin)]
      unfold pushCap
      simp only
      rw [if_pos (by omega)]
      simp only
      rw [execute_eq hW hn s rest _ (hr hin) (by rw [List.length_append, List.length_singleton]; omega), hem]
      have : allIn W n s (.node dx dy dd p :: rest) = allIn W n s rest := by
        show (decide (InAt W n (sgn s (dx, dy))) && _) = _
        simp [hin]
      rw [this, List.append_assoc]
      rfl
    · simp only [if_neg hin, Option.bind_none]
      have hem : emit W n s (.node dx dy dd p :: rest) = [] := if_neg hin
      have : allIn W n s (.node dx dy dd p :: rest) = false := by
        show (decide (InAt W n (sgn s (dx, dy))) && _) = _
        simp [hin]
      rw [hem, this, List.append_nil]

/-! ## Gathering -/

/-- The nodes before the first blocked wall. -/
def visible (blocked : Wall → Bool) : List WallNode → List (Node × Pattern)
  | [] => []
  | .wall w :: rest => if blocked w then [] else visible blocked rest
  | .node m p :: rest => (m, p) :: visible blocked rest

theorem visible_wall_eq (blocked : Wall → Bool) (w : Wall) (rest : List WallNode) :
    visible blocked (.wall w :: rest) = if blocked w then [] else visible blocked rest := rfl
theorem visible_node_eq (blocked : Wall → Bool) (m : Node) (p : Pattern) (rest : List WallNode) :
    visible blocked (.node m p :: rest) = (m, p) :: visible blocked rest := rfl

theorem gather_eq (blocked : Wall → Bool) (convert : Pattern → R Nat) (cost : Pattern → Nat) :
    ∀ (l : List WallNode) (acc : List (Node × Nat)),
      (∀ e ∈ visible blocked l, convert e.2 = .ok (cost e.2)) → acc.length + (visible blocked l).length ≤ EDGE_MAX →
      gather blocked convert l acc = .ok (acc ++ (visible blocked l).map fun e => (e.1, cost e.2))
  | [], acc, _, _ => by simp [gather, visible]
  | .wall w :: rest, acc, hc, hl => by
    unfold gather
    unfold visible at hc hl ⊢
    by_cases hb : blocked w
    · simp [hb]
    · rw [if_neg hb] at hc hl
      rw [if_neg hb, if_neg hb, gather_eq blocked convert cost rest acc hc hl]
  | .node m p :: rest, acc, hc, hl => by
    unfold gather
    unfold visible at hc hl ⊢
    rw [List.length_cons] at hl
    rw [hc (m, p) (by simp)]
    simp only [bind, Except.bind]
    unfold pushCap
    rw [if_pos (by omega)]
    simp only
    rw [gather_eq blocked convert cost rest _ (fun e he => hc e (by simp [he]))
      (by rw [List.length_append, List.length_singleton]; omega)]
    simp

theorem visible_length (blocked : Wall → Bool) : ∀ l : List WallNode, (visible blocked l).length ≤ l.length
  | [] => Nat.le_refl _
  | .wall w :: rest => by
    unfold visible
    have := visible_length blocked rest
    split <;> simp <;> omega
  | .node m p :: rest => by
    unfold visible
    have := visible_length blocked rest
    simp; omega

variable {blocked : Wall → Bool}

theorem openD_iff {d : V} (hp : ((n.x : Int) + (inFrame (e1 n.posture) (e2 n.posture) d).1 +
      (n.y + (inFrame (e1 n.posture) (e2 n.posture) d).2)) % 2 = 1) :
    OpenD W (posBlocked blocked) n d ↔ InAt W n d ∧ blocked (oldWallAt (coordAt n d)) = false := by
  constructor
  · intro h
    refine ⟨openD_in h, ?_⟩
    obtain ⟨c, h1, h2, -, h3⟩ := h
    have : c = coordAt n d := by
      obtain ⟨cx, cy⟩ := c
      unfold coordAt
      simp only at h1 h2 ⊢
      congr 1 <;> omega
    rwa [← this]
  · rintro ⟨h, hb⟩
    refine ⟨coordAt n d, ?_, ?_, ?_, hb⟩ <;> unfold InAt at h <;> unfold coordAt <;> simp only at *
    · omega
    · omega
    · refine ⟨?_, ?_, ?_⟩ <;> simp only <;> omega

theorem visible_wall (s : Bool) {dx dy : Int} {rest : List Stmt} (hg : GoodStmt W n s (.wall dx dy)) (e : Node × Pattern) :
    e ∈ visible blocked (emit W n s (.wall dx dy :: rest)) ↔
      OpenD W (posBlocked blocked) n (sgn s (dx, dy)) ∧ e ∈ visible blocked (emit W n s rest) := by
  rw [openD_iff hg.2]
  by_cases hin : InAt W n (sgn s (dx, dy))
  · have : emit W n s (.wall dx dy :: rest) = .wall (oldWallAt (coordAt n (sgn s (dx, dy)))) :: emit W n s rest := if_pos hin
    rw [this, visible_wall_eq]
    by_cases hb : blocked (oldWallAt (coordAt n (sgn s (dx, dy))))
    · simp [hb]
    · rw [if_neg hb]
      simp [hin, hb]
  · have : emit W n s (.wall dx dy :: rest) = [] := if_neg hin
    rw [this]
    simp [visible, hin]

theorem visible_node (s : Bool) {dx dy : Int} {dd : Rel} {p : Pattern} {rest : List Stmt} (e : Node × Pattern) :
    e ∈ visible blocked (emit W n s (.node dx dy dd p :: rest)) ↔
      InAt W n (sgn s (dx, dy)) ∧ (e = (nodeAt n (sgn s (dx, dy)) (rotate (baseOf n) dd), p) ∨
        e ∈ visible blocked (emit W n s rest)) := by
  by_cases hin : InAt W n (sgn s (dx, dy))
  · have : emit W n s (.node dx dy dd p :: rest) =
        .node (nodeAt n (sgn s (dx, dy)) (rotate (baseOf n) dd)) p :: emit W n s rest := if_pos hin
    rw [this, visible_node_eq]
    simp [hin]
  · have : emit W n s (.node dx dy dd p :: rest) = [] := if_neg hin
    rw [this]
    simp [visible, hin]

theorem visible_nil (s : Bool) (e : Node × Pattern) : e ∈ visible blocked (emit W n s []) ↔ False := by
  simp [emit, visible]

end Verif.Proof.OldN
