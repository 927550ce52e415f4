import Verif.Proof.OldCross
import Mathlib.Data.List.Sort
import Verif.Props.OldNode
/-!
# C85 to C87: the search of the former core crate
-/
namespace Verif.Props
open Verif Verif.Run Verif.Spec Verif.Old Verif.Old.Search Verif.Proof Verif.Proof.OldN Verif.Proof.OldS Verif.Props.Old

variable {W : Nat} {n m cur : Node} {blocked : Wall → Bool} {convert : Pattern → R Nat} {cost : Pattern → Nat} {b : Belief}

/-! ## C85: the graph of search poses -/

/-- **C85, successors**: the successors of a search pose are the poses reached by the four moves across open walls, each
once, with the cost of its move; there is no panic. -/
theorem C85_successors (hW : Supported W) (hcv : ∀ p, Occurs W p → convert p = .ok (cost p)) (hn : SearchLegal W n) :
    ∃ l, (searchMaze W blocked convert).successors n = .ok l ∧ l.length ≤ 4 ∧ (l.map (·.1)).Nodup ∧
      (∀ e ∈ l, SearchLegal W e.1) ∧
      ∀ m c, (m, c) ∈ l ↔ ∃ k, SearchMove W (posBlocked blocked) n k m ∧ c = cost (kindPattern k) := by
  let b : Belief := ⟨fun _ => false, blocked, fun _ => false⟩
  have hm := fun m c => mem_succsOf (W := W) (b := b) (cost := cost) (n := n) (m := m) (w := c) hn
  refine ⟨succsOf W b cost n, search_eq hW hn true hcv, ?_, succs_nodup hn, ?_, hm⟩
  · have := sseen_length (W := W) (blocked := blocked) (n := n) (s := true)
    simpa [succsOf, b] using this
  · rintro ⟨m, c⟩ he
    obtain ⟨k, h, -⟩ := (hm m c).mp he
    exact turns_legal hn h.1 (openPose_range h.2).1 (openPose_range h.2).2

/-- **C85, predecessors**: the predecessors of a search pose are the open poses from which one of the four moves leads to
it, whether or not its own wall is open; there is no panic. -/
theorem C85_predecessors (hW : Supported W) (hcv : ∀ p, Occurs W p → convert p = .ok (cost p)) (hn : SearchLegal W n) :
    ∃ l, (searchMaze W blocked convert).predecessors n = .ok l ∧ l.length ≤ 4 ∧
      ∀ m c, (m, c) ∈ l ↔ OpenPose W (posBlocked blocked) m ∧ ∃ k, MovesTo m k n ∧ c = cost (kindPattern k) := by
  let b : Belief := ⟨fun _ => false, blocked, fun _ => false⟩
  refine ⟨predsOf W b cost n, search_eq hW hn false hcv, ?_, fun m c => mem_predsOf (b := b) hn⟩
  have := sseen_length (W := W) (blocked := blocked) (n := n) (s := false)
  simpa [predsOf, b] using this

/-- **C85, codes**: every search pose has an index inside the tables, and an identifier from which it is recovered; different
poses have different indices. -/
theorem C85_codes (hW : Supported W) (hn : SearchLegal W n) (hm : SearchLegal W m) :
    (∃ i, SearchNode.index W n = .ok i ∧ i < NODE_MAX) ∧ (SearchNode.index W n = SearchNode.index W m → n = m) ∧
    ∃ v, nodeId W n = .ok v ∧ nodeOfId W v = .ok n := by
  refine ⟨⟨_, sindex_eq hW hn, sindex_lt hW hn⟩, ?_, _, nodeId_eq hW hn.1 hn.2.1, nodeOfId_eq hW hn.1 hn.2.1⟩
  rw [sindex_eq hW hn, sindex_eq hW hm]
  exact fun h => sindex_inj hn hm (Except.ok.inj h)

/-- **C85, routes**: the route between two search poses is the kind of the move that leads from one to the other, and an error
if there is none. -/
theorem C85_route (hW : Supported W) (hn : SearchLegal W n) (hm : SearchLegal W m) :
    ∃ o, SearchNode.route n m = .ok o ∧ ∀ k, o = some k ↔ MovesTo n k m := route_eq hW hn hm

theorem next_turns (hW : Supported W) (hn : SearchLegal W n) {k : SearchKind} (hk : k ∈ moves) :
    nodeNext W n k = .ok (if inRange W n (vecOf n true k) then some (nodeTo n true k) else none) := by
  have ht : turnInto .north n.posture (codeMove k).1.1 (codeMove k).1.2 = .ok (vecOf n true k) := turnInto_axis (axis hn) _ _
  have := relNode_gen hW hn.1 hn.2.1 ht (vec_near n true k) (codeMove k).2
  simp only [moves, List.mem_cons, List.not_mem_nil, or_false] at hk
  rcases hk with rfl | rfl | rfl | rfl <;> exact this

/-- **C85, following a route**: the pose after a move is the one the move leads to, and an error if that is outside the
maze; the route back is the pose before. -/
theorem C85_next (hW : Supported W) (hn : SearchLegal W n) {k : SearchKind} (hk : k ∈ [SearchKind.right, .front, .left, .back]) :
    ∃ o, nodeNext W n k = .ok o ∧ ∀ m, o = some m ↔ MovesTo n k m ∧ m.x < 2 * W ∧ m.y < 2 * W := by
  refine ⟨_, next_turns hW hn hk, fun m => ?_⟩
  rw [turns_iff hn hk]
  split
  · rename_i h
    simp only [Option.some.injEq, h, and_true]
    exact eq_comm
  · rename_i h
    simp [h]

/-- **C85, reversal**: a move driven backwards is a move from the reversed end to the reversed beginning. -/
theorem C85_reversal (hn : SearchLegal W n) {k : SearchKind} (h : MovesTo n k m) :
    MovesTo (reversed m) (match k with | .left => .right | .right => .left | k => k) (reversed n) := by
  have ha := axis hn
  obtain ⟨x, y, p⟩ := n
  obtain ⟨x', y', p'⟩ := m
  simp only [List.mem_cons, List.not_mem_nil, or_false] at ha
  rcases ha with rfl | rfl | rfl | rfl <;> cases k <;> first | exact h.elim | skip
  all_goals
    simp only [MovesTo, rightOf, heading] at h
    obtain ⟨h1, h2, h3⟩ := h
    cases p' <;> simp at h3 <;> simp [MovesTo, rightOf, heading, reversed] <;> omega

/-- **C85, walls**: the wall of a search pose is the one at its position, and a wall yields exactly the two search poses at its
position. -/
theorem C85_walls (hn : SearchLegal W n) :
    SearchNode.toWall n = oldWallAt ⟨n.x, n.y⟩ ∧
    ∃ p q, wallNodes W (SearchNode.toWall n) = .ok (p, q) ∧ p ≠ q ∧ ∀ m, m ∈ [p, q] ↔ SearchLegal W m ∧ m.x = n.x ∧ m.y = n.y := by
  have hv : Valid W ⟨n.x, n.y⟩ := by
    obtain ⟨h1, h2, h3⟩ := hn
    exact ⟨h1, h2, by simp only; omega⟩
  have hw : SearchNode.toWall n = oldWallAt ⟨n.x, n.y⟩ := by
    unfold SearchNode.toWall oldWallAt
    simp only [and_one]
  refine ⟨hw, ?_⟩
  rw [hw, oldWallAt_valid hv]
  have hp := poses_legal hv
  unfold poses at hp ⊢
  simp only at hp ⊢
  by_cases hx : n.x % 2 = 0
  · rw [if_pos hx] at hp ⊢
    exact ⟨_, _, rfl, by simp, hp⟩
  · rw [if_neg hx] at hp ⊢
    exact ⟨_, _, rfl, by simp, hp⟩

/-- From the wall north of the start the mouse can go on, turn into both sides of the cell ahead, or turn around. -/
example : ∃ l, (searchMaze 4 (fun _ => false) defaultTable).successors ⟨2, 1, .north⟩ = .ok l ∧
    l.map (·.1) = [⟨3, 2, .east⟩, ⟨2, 3, .north⟩, ⟨1, 2, .west⟩, ⟨2, 1, .south⟩] := ⟨_, rfl, rfl⟩

example : SearchLegal 4 ⟨2, 1, .north⟩ ∧ SearchLegal 4 ⟨3, 2, .east⟩ ∧ MovesTo ⟨2, 1, .north⟩ .right ⟨3, 2, .east⟩ := by
  refine ⟨by decide, by decide, by simp [MovesTo, heading, rightOf]⟩

/-! ## C86: the walls on a path -/

/-- **C86, walls crossed**: for every drivable move `walls_between` returns the walls that the move crosses, in order, without a
panic. -/
theorem C86_walls_between (hW : Supported W) (hn : Legal W n) {k : EdgeKind} {crossed : List V} (hR : Related n k m crossed)
    (hx : m.x < 2 * W) (hy : m.y < 2 * W) {cs : List Search.Coord} (hv : ∀ c ∈ cs, Valid W c)
    (hcs : cs.map (fun c => ((c.x : Int), (c.y : Int))) = crossed.map (fun d => ((n.x : Int) + d.1, (n.y : Int) + d.2))) :
    wallsBetween W n m = .ok (cs.map oldWallAt) := by
  have e : cs = crossed.map (posAt n) := by
    have h5 := congrArg (List.map (fun q : Int × Int => (⟨q.1.toNat, q.2.toNat⟩ : Search.Coord))) hcs
    simp only [List.map_map, Function.comp_def, Int.toNat_natCast, List.map_id'] at h5
    exact h5
  have hin : ∀ d ∈ crossed, WallIn W n d := by
    intro d hd
    have : ((n.x : Int) + d.1, (n.y : Int) + d.2) ∈ cs.map (fun c => ((c.x : Int), (c.y : Int))) := by
      rw [hcs]
      exact List.mem_map.mpr ⟨d, hd, rfl⟩
    obtain ⟨c, hc, he⟩ := List.mem_map.mp this
    simp only [Prod.mk.injEq] at he
    exact ⟨c, he.1, he.2, hv c hc⟩
  rw [walls_between hW hn hR hx hy hin, e, List.map_map]
  rfl

/-- **C86, nodes to be checked**: for a path of drivable moves, `find_unchecked_nodes` returns both search poses of each
unchecked wall that the path crosses, in order. The only panic is a full vector, and there is none unless more than 8192
unchecked walls are crossed. -/
theorem C86_unchecked (hW : Supported W) {path : List Node} {cs : List Search.Coord} (h : Crosses W (posBlocked blocked) path cs)
    (hn : ∀ n ∈ path.head?, Legal W n) :
    findUnchecked W b path = (if (cs.filter fun c => !b.checked (oldWallAt c)).length ≤ 8192 then .ok (targetsOf b cs) else .error .capacity) ∧
    ∀ m, m ∈ targetsOf b cs ↔ SearchLegal W m ∧ ⟨m.x, m.y⟩ ∈ cs ∧ b.checked (oldWallAt ⟨m.x, m.y⟩) = false := by
  constructor
  · rw [findUnchecked_eq hW h hn]
    have e : (targetsOf b cs).length = 2 * (cs.filter fun c => !b.checked (oldWallAt c)).length := by
      unfold targetsOf
      generalize (cs.filter fun c => !b.checked (oldWallAt c)) = l
      induction l with
      | nil => rfl
      | cons c l ih => simp only [List.flatMap_cons, List.length_append, poses_length, ih, List.length_cons]; omega
    have e2 : NODE_MAX = 16384 := rfl
    by_cases hl : (cs.filter fun c => !b.checked (oldWallAt c)).length ≤ 8192
    · rw [if_pos hl, if_pos (by omega)]
    · rw [if_neg hl, if_neg (by omega)]
  · intro m
    have hv := crosses_valid h
    unfold targetsOf
    rw [List.mem_flatMap]
    constructor
    · rintro ⟨c, hc, hm⟩
      rw [List.mem_filter] at hc
      obtain ⟨h1, h2, h3⟩ := (poses_legal (hv c hc.1) m).mp hm
      have e : (⟨m.x, m.y⟩ : Search.Coord) = c := by rw [h2, h3]
      rw [e]
      exact ⟨h1, hc.1, by simpa using hc.2⟩
    · rintro ⟨h1, h2, h3⟩
      refine ⟨⟨m.x, m.y⟩, List.mem_filter.mpr ⟨h2, by simp [h3]⟩, (poses_legal (hv _ h2) m).mpr ⟨h1, rfl, rfl⟩⟩

/-! ## C87: the candidates -/

section candidates
variable {P : Config} {goal0 : Node} {rest path : List Node}

theorem targets_length {cs : List Search.Coord} :
    (targetsOf b cs).length = 2 * (cs.filter fun c => !b.checked (oldWallAt c)).length := by
  unfold targetsOf
  generalize (cs.filter fun c => !b.checked (oldWallAt c)) = l
  induction l with
  | nil => rfl
  | cons c l ih => simp only [List.flatMap_cons, List.length_append, poses_length, ih, List.length_cons]; omega

/-- What the candidates are, for a path that crosses the wall positions `cs`: the next poses from which one of the unchecked walls
among them can be reached, the ones with the least total cost first, and none if there is no such pose. -/
def Candidates (P : Config) (b : Belief) (cost : Pattern → Nat) (cur : Node) (cs : List Search.Coord) : Option (List Node) → Prop
  | some l => l ≠ [] ∧ Ranks P.W (posBlocked b.present) cost P.MAX cur (targetsOf b cs) l
  | none => ∀ n t, Total P.W (posBlocked b.present) cost cur (targetsOf b cs) n t → P.MAX ≤ t

/-- **C87, candidates**: the unchecked walls that are headed for are those crossed by a shortest path from the start to a goal
(C84) through all that is not known to be a wall. The candidates are the poses after the current one from which one of
these walls can be reached, in the order of the total cost by way of them. The only panic is a full heap. -/
theorem C87_candidates (hW : Supported P.W) (hcv : ∀ p, Occurs P.W p → P.convert p = .ok (cost p))
    (hfit : ∀ p q, Occurs P.W p → Occurs P.W q → cost p + cost q ≤ P.MAX) (hM : 0 < P.MAX) (L : QueueLaws P.Q HEAP_MAX)
    (hsort : SortsByCost P.sort) (hstart : Legal P.W P.start) (hg : P.goals = goal0 :: rest) (hgl : ∀ g ∈ goal0 :: rest, Legal P.W g)
    (hcur : SearchLegal P.W cur) (hpath : shortestPath P b = .ok (some path)) :
    (∃ cs, Crosses P.W (posBlocked b.present) path cs) ∧
    ∀ cs, Crosses P.W (posBlocked b.present) path cs →
      (∃ r, nextCandidates P b cur = .ok r ∧ Candidates P b cost cur cs r) ∨
      (nextCandidates P b cur = .error .capacity ∧
        8192 < 2 * (cs.filter fun c => !b.checked (oldWallAt c)).length + 16 * (P.W * P.W)) := by
  have hp := hpath
  unfold Old.Search.shortestPath at hp
  rw [hg] at hp
  obtain ⟨-, hhead, -, -, c, hch, -⟩ := C84_plan hW L hcv hfit hstart hgl hp
  refine ⟨crosses_of hch, fun cs hcs => ?_⟩
  have hn : ∀ n ∈ path.head?, Legal P.W n := by
    rw [hhead]
    intro n h
    cases h
    exact hstart
  obtain ⟨h1, h2⟩ := C86_unchecked (b := b) hW hcs hn
  have e : (8192 : Nat) = HEAP_MAX := rfl
  by_cases hl : (cs.filter fun c => !b.checked (oldWallAt c)).length ≤ 8192
  · rw [if_pos hl] at h1
    have hlen : (targetsOf b cs).length ≤ NODE_MAX := by
      rw [targets_length]
      have : NODE_MAX = 16384 := rfl
      omega
    rcases next_eq P hW hcv L hM hsort hcur hpath h1 (fun v hv => ((h2 v).mp hv).1) hlen with ⟨r, h3, h4⟩ | ⟨h3, h4⟩
    · refine Or.inl ⟨r, h3, ?_⟩
      cases r <;> exact h4
    · refine Or.inr ⟨h3, ?_⟩
      rw [targets_length] at h4
      omega
  · rw [if_neg hl] at h1
    refine Or.inr ⟨?_, by omega⟩
    unfold nextCandidates
    rw [hpath]
    simp only [bind, Except.bind, h1]

/-- **C87, no path**: without a shortest path there are no candidates, and a panic is passed on. -/
theorem C87_no_path : (shortestPath P b = .ok none → nextCandidates P b cur = .ok none) ∧
    ∀ e, shortestPath P b = .error e → nextCandidates P b cur = .error e := by
  constructor
  · intro h
    unfold nextCandidates
    rw [h]
    rfl
  · intro e h
    unfold nextCandidates
    rw [h]
    rfl

/-- **C87, end of the search**: there are no candidates once the shortest path crosses only checked walls. -/
theorem C87_all_checked (hW : Supported P.W) (hcv : ∀ p, Occurs P.W p → P.convert p = .ok (cost p)) (L : QueueLaws P.Q HEAP_MAX)
    (hstart : Legal P.W P.start) (hcur : SearchLegal P.W cur) (hpath : shortestPath P b = .ok (some path))
    (hhead : path.head? = some P.start) {cs : List Search.Coord} (hcs : Crosses P.W (posBlocked b.present) path cs)
    (hall : ∀ c ∈ cs, b.checked (oldWallAt c) = true) : nextCandidates P b cur = .ok none := by
  have hn : ∀ n ∈ path.head?, Legal P.W n := by
    rw [hhead]
    intro n h
    cases h
    exact hstart
  have hnil : (cs.filter fun c => !b.checked (oldWallAt c)) = [] := by
    rw [List.filter_eq_nil_iff]
    intro c hc
    simp [hall c hc]
  obtain ⟨h1, -⟩ := C86_unchecked (b := b) hW hcs hn
  rw [hnil, if_pos (by decide)] at h1
  have ht : targetsOf b cs = [] := by unfold targetsOf; rw [hnil]; rfl
  rw [ht] at h1
  obtain ⟨l, h2, h3, -, h5, -⟩ := C85_successors (blocked := b.present) hW hcv hcur
  have hpop : P.Q.pop P.Q.empty = none := by
    cases h : P.Q.pop P.Q.empty with
    | none => rfl
    | some e =>
      obtain ⟨h6, -⟩ := L.pop_some _ _ _ h
      rw [L.elems_empty] at h6
      cases h6.nil_eq
  unfold nextCandidates
  rw [hpath]
  simp only [bind, Except.bind, h1, h2]
  rw [if_neg (by show ¬ 4 < _; omega)]
  simp only [seeds]
  have hloop : loop (searchMaze P.W b.present P.convert) (searchCoding P.W) P.Q P.MAX l Old.Search.FUEL ⟨fun _ => P.MAX, P.Q.empty⟩ =
      .ok ⟨fun _ => P.MAX, P.Q.empty⟩ := by
    have : Old.Search.FUEL = (EDGE_MAX * NODE_MAX + HEAP_MAX) + 1 := rfl
    rw [this]
    unfold loop
    rw [hpop]
  rw [hloop]
  simp only
  rw [totals_eq hW _ h5]
  simp only
  have hf : (l.map fun e => (e.1, satAdd P.MAX e.2 P.MAX)).filter (fun e => decide (e.2 < P.MAX)) = [] := by
    rw [List.filter_eq_nil_iff]
    rintro ⟨x, t⟩ hx
    obtain ⟨y, -, hy⟩ := List.mem_map.mp hx
    cases hy
    have : satAdd P.MAX y.2 P.MAX = P.MAX := by unfold satAdd; omega
    simp [this]
  rw [hf]
  rfl

/-- **C87, total**: in mazes of up to 8 x 8 cells there is no panic, whatever the walls and whatever has been checked. -/
theorem C87_total (hW : Supported P.W) (h8 : P.W ≤ 8) (hcv : ∀ p, Occurs P.W p → P.convert p = .ok (cost p))
    (hfit : ∀ p q, Occurs P.W p → Occurs P.W q → cost p + cost q ≤ P.MAX) (hM : 0 < P.MAX) (L : QueueLaws P.Q HEAP_MAX)
    (hsort : SortsByCost P.sort) (hstart : Legal P.W P.start) (hg : P.goals = goal0 :: rest) (hgl : ∀ g ∈ goal0 :: rest, Legal P.W g)
    (hcur : SearchLegal P.W cur) : ∃ r, nextCandidates P b cur = .ok r := by
  obtain ⟨-, h1⟩ := C84_total (blocked := b.present) (Q := P.Q) hW L hcv hfit hstart hgl
  obtain ⟨-, r, h2⟩ := h1 h8
  have h3 : shortestPath P b = .ok r := by unfold Old.Search.shortestPath; rw [hg]; exact h2
  cases r with
  | none => exact ⟨none, C87_no_path.1 h3⟩
  | some path =>
    obtain ⟨⟨cs, hcs⟩, h4⟩ := C87_candidates hW hcv hfit hM L hsort hstart hg hgl hcur h3
    rcases h4 cs hcs with ⟨r, h5, -⟩ | ⟨-, h6⟩
    · exact ⟨r, h5⟩
    · exfalso
      obtain ⟨hnd, hhead, -⟩ := C84_plan hW L hcv hfit hstart hgl h2
      have h7 := few_crossings hW h8 hcs (by rw [hhead]; intro n h; cases h; exact hstart) hnd
      have h9 : (cs.filter fun c => !b.checked (oldWallAt c)).length ≤ cs.length := List.length_filter_le _ _
      have e : HEAP_MAX = 8192 := rfl
      omega

end candidates

/-- A stable sort by the cost. -/
def costSort (l : List (Node × Nat)) : List (Node × Nat) := l.insertionSort fun a b => a.2 ≤ b.2

theorem costSort_sorts : SortsByCost costSort := by
  intro l
  have : Std.Total (fun a b : Node × Nat => a.2 ≤ b.2) := ⟨fun a b => Nat.le_total a.2 b.2⟩
  have : IsTrans (Node × Nat) (fun a b : Node × Nat => a.2 ≤ b.2) := ⟨fun a b c => Nat.le_trans⟩
  exact ⟨List.perm_insertionSort _ _, List.pairwise_insertionSort _ _⟩

/-- The start in the corner of a maze of 4 x 4 cells, and the cell (2, 2) as the goal. -/
def smallConfig : Config where
  W := 4
  MAX := 65535
  convert := defaultLinear
  Q := listQueue Nat HEAP_MAX
  sort := costSort
  start := ⟨0, 0, .north⟩
  goals := [⟨4, 4, .north⟩, ⟨4, 4, .east⟩, ⟨4, 4, .south⟩, ⟨4, 4, .west⟩]

/-- Only the walls around the start and around the maze are known. -/
def smallBelief : Belief where
  checked w := (w.top && w.y == 3) || (!w.top && w.x == 3) || (w.x == 0 && w.y == 0)
  present w := (w.top && w.y == 3) || (!w.top && w.x == 3) || (w.x == 0 && w.y == 0 && !w.top)
  locked _ := false

/-- The hypotheses of C87 hold for the default costs, and from the wall north of the start the mouse wants to turn to the east,
and to go on to the north if that is not possible. -/
example : Supported smallConfig.W ∧ (∀ p, Occurs smallConfig.W p → smallConfig.convert p = .ok (linearCost p)) ∧
    (∀ p q, Occurs smallConfig.W p → Occurs smallConfig.W q → linearCost p + linearCost q ≤ smallConfig.MAX) ∧
    Nonempty (QueueLaws smallConfig.Q HEAP_MAX) ∧ SortsByCost smallConfig.sort ∧ Legal smallConfig.W smallConfig.start ∧
    (∀ g ∈ smallConfig.goals, Legal smallConfig.W g) ∧ SearchLegal smallConfig.W ⟨0, 1, .north⟩ ∧
    nextCandidates smallConfig smallBelief ⟨0, 1, .north⟩ = .ok (some [⟨1, 2, .east⟩, ⟨0, 3, .north⟩]) := by
  have hW : Supported smallConfig.W := ⟨2, by decide, rfl⟩
  refine ⟨hW, fun p hp => ((C84_default_costs hW).1 p hp).1, fun p q hp hq => ((C84_default_costs hW).2.1 p q hp hq).1,
    ⟨listQueueLaws _ _⟩, costSort_sorts, by decide, by decide, by decide, by decide +kernel⟩

/-- The shortest path through that maze turns right and then left; it crosses the known opening north of the start and three walls
that have not been checked, and these are headed for. -/
example : shortestPath smallConfig smallBelief = .ok (some [⟨0, 0, .north⟩, ⟨2, 2, .east⟩, ⟨4, 4, .north⟩]) ∧
    Crosses 4 (posBlocked smallBelief.present) [⟨0, 0, .north⟩, ⟨2, 2, .east⟩, ⟨4, 4, .north⟩] [⟨0, 1⟩, ⟨1, 2⟩, ⟨3, 2⟩, ⟨4, 3⟩] ∧
    findUnchecked 4 smallBelief [⟨0, 0, .north⟩, ⟨2, 2, .east⟩, ⟨4, 4, .north⟩] =
      .ok [⟨1, 2, .east⟩, ⟨1, 2, .west⟩, ⟨3, 2, .east⟩, ⟨3, 2, .west⟩, ⟨4, 3, .north⟩, ⟨4, 3, .south⟩] := by
  refine ⟨by decide +kernel, ?_, by decide +kernel⟩
  refine .cons _ _ .slalom90 [(0, 1), (1, 2)] _ [⟨0, 1⟩, ⟨1, 2⟩] _ ⟨(0, 1), (1, 0), (2, 2), (0, 1), [(1, 0), (2, 1)], ?_, ?_, by decide, by decide, by decide, by decide⟩
    (by decide) (by decide) ?_ (by decide)
    (.cons _ _ .slalom90 [(1, 0), (2, 1)] _ [⟨3, 2⟩, ⟨4, 3⟩] _ ⟨(1, 0), (0, 1), (2, 2), (0, 1), [(1, 0), (2, 1)], ?_, ?_, by decide, by decide, by decide, by decide⟩
      (by decide) (by decide) ?_ (by decide) (.single _))
  · exact ⟨rfl, Or.inl rfl⟩
  · exact FromCentre.slalom90
  · intro d hd
    simp only [List.mem_cons, List.not_mem_nil, or_false] at hd
    rcases hd with rfl | rfl
    · exact ⟨⟨0, 1⟩, by decide, by decide, by decide, by decide⟩
    · exact ⟨⟨1, 2⟩, by decide, by decide, by decide, by decide⟩
  · exact ⟨rfl, Or.inr rfl⟩
  · exact FromCentre.slalom90
  · intro d hd
    simp only [List.mem_cons, List.not_mem_nil, or_false] at hd
    rcases hd with rfl | rfl
    · exact ⟨⟨3, 2⟩, by decide, by decide, by decide, by decide⟩
    · exact ⟨⟨4, 3⟩, by decide, by decide, by decide, by decide⟩

/-- Once everything is known the search ends. -/
example : nextCandidates smallConfig { smallBelief with checked := fun _ => true } ⟨0, 1, .north⟩ = .ok none := by decide +kernel

end Verif.Props
