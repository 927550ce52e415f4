import Verif.Proof.OldCode
import Verif.Props.OldSolver
/-!
# C82 to C84: nodes, moves and plans of the former core crate
-/
namespace Verif.Props
open Verif Verif.Run Verif.Spec Verif.Old Verif.Proof Verif.Proof.OldN Verif.Props.Old

variable {W : Nat} {n m : Node} {blocked : Wall → Bool}

/-! ## C82: codes and goals -/

/-- **C82, identifiers**: every pose in the maze has an identifier that fits into a nonzero `u16`, and the pose is
recovered from it. -/
theorem C82_ids (hW : Supported W) (hx : n.x < 2 * W) (hy : n.y < 2 * W) :
    ∃ v, nodeId W n = .ok v ∧ 0 < v ∧ v < 65536 ∧ nodeOfId W v = .ok n := by
  have := packOf_lt hW hx hy
  exact ⟨_, nodeId_eq hW hx hy, by omega, by omega, nodeOfId_eq hW hx hy⟩

/-- **C82, indices**: every run node has an index inside the tables of the solver, different nodes have different ones. -/
theorem C82_indices (hW : Supported W) (hn : Legal W n) (hm : Legal W m) :
    (∃ i, RunNode.index W n = .ok i ∧ i < 16 * W * W ∧ i < NODE_MAX) ∧
    (RunNode.index W n = RunNode.index W m → n = m) := by
  refine ⟨⟨_, oldIndex_eq hW hn, slotOf_lt W n hn, Nat.lt_of_lt_of_le (slotOf_lt W n hn) (slots_le W hW)⟩, ?_⟩
  rw [oldIndex_eq hW hn, oldIndex_eq hW hm]
  exact fun h => slotOf_inj W hW n m hn hm (Except.ok.inj h)

/-- **C82, positions**: a position is accepted exactly if it is in the maze and not a pillar, and becomes the list of all
poses there. -/
theorem C82_goals (x y : Int) :
    (∀ p, positionNew W x y = some p ↔ ((p.1 : Int) = x ∧ (p.2 : Int) = y ∧ p.1 < 2 * W ∧ p.2 < 2 * W ∧
      ¬ (p.1 % 2 = 1 ∧ p.2 % 2 = 1))) ∧
    ∀ p, positionNew W x y = some p → ∃ l, goalsOf W p.1 p.2 = .ok l ∧ l.Nodup ∧ l.length = 4 ∧
      ∀ g, g ∈ l ↔ Legal W g ∧ g.x = p.1 ∧ g.y = p.2 := by
  have key : ∀ p, positionNew W x y = some p ↔ ((p.1 : Int) = x ∧ (p.2 : Int) = y ∧ p.1 < 2 * W ∧ p.2 < 2 * W ∧
      ¬ (p.1 % 2 = 1 ∧ p.2 % 2 = 1)) := by
    rintro ⟨a, b⟩
    have hb : x.toNat &&& y.toNat &&& 1 = 1 ↔ x.toNat % 2 = 1 ∧ y.toNat % 2 = 1 := by
      rw [and_one]
      have h := Nat.and_mod_two_pow (a := x.toNat) (b := y.toNat) (n := 1)
      rw [Nat.pow_one] at h
      rw [h]
      rcases Nat.mod_two_eq_zero_or_one x.toNat with h1 | h1 <;> rcases Nat.mod_two_eq_zero_or_one y.toNat with h2 | h2 <;>
        rw [h1, h2] <;> decide
    unfold positionNew
    split
    · simp only [reduceCtorEq, false_iff]; omega
    · split <;> rename_i hp <;> rw [hb] at hp
      · simp only [reduceCtorEq, false_iff]; omega
      · simp only [Option.some.injEq, Prod.mk.injEq]; omega
  refine ⟨key, ?_⟩
  rintro ⟨a, b⟩ h
  obtain ⟨-, -, h1, h2, h3⟩ := (key _).mp h
  simp only at h1 h2 h3
  refine ⟨_, goalsOf_eq h1 h2 h3, ?_, ?_, ?_⟩
  · split <;> simp
  · split <;> rfl
  · rintro ⟨gx, gy, gp⟩
    simp only [List.mem_map, Node.mk.injEq]
    constructor
    · rintro ⟨q, hq, rfl, rfl, rfl⟩
      refine ⟨⟨h1, h2, ?_⟩, rfl, rfl⟩
      by_cases h : (a + b) % 2 = 1
      · rw [if_pos h] at hq; exact Or.inr ⟨h, hq⟩
      · rw [if_neg h] at hq; exact Or.inl ⟨by simp only; omega, by simp only; omega, hq⟩
    · rintro ⟨⟨-, -, hL⟩, hgx, hgy⟩
      subst hgx
      subst hgy
      refine ⟨gp, ?_, rfl, rfl, rfl⟩
      rcases hL with ⟨e1, e2, hL⟩ | ⟨e1, hL⟩
      · rw [if_neg (by simp only at e1 e2; omega)]; exact hL
      · rw [if_pos e1]; exact hL

example : nodeId 32 ⟨63, 62, .northWest⟩ = .ok 65407 ∧ nodeOfId 32 65407 = .ok ⟨63, 62, .northWest⟩ := by decide +kernel
example : RunNode.index 32 ⟨63, 62, .northWest⟩ = .ok 16319 := by decide +kernel
example : positionNew 4 5 2 = some (5, 2) ∧ positionNew 4 5 3 = none ∧ positionNew 4 8 2 = none ∧ positionNew 4 (-1) 2 = none := by
  decide +kernel

/-! ## C83: the moves -/

/-- **C83, successors**: for every run node the maze lists the drivable moves with their costs, without a panic. -/
theorem C83_successors (hW : Supported W) (hn : Legal W n) {convert : Pattern → R Nat} {cost : Pattern → Nat}
    (hcv : ∀ p, Occurs W p → convert p = .ok (cost p)) :
    ∃ l, (runMaze W blocked convert).successors n = .ok l ∧ l.length ≤ EDGE_MAX ∧ ∀ m c, (m, c) ∈ l ↔
      ∃ k, c = cost (patternOf k) ∧ Drivable W (posBlocked blocked) n k m := by
  refine ⟨_, edges_eq hW hn true convert cost hcv, by rw [List.length_map]; exact seen_length hW hn true, ?_⟩
  intro m c
  simp only [List.mem_map, Prod.mk.injEq, Prod.exists]
  constructor
  · rintro ⟨a, p, h, rfl, rfl⟩
    obtain ⟨k, rfl, hk⟩ := (mem_seen hW hn a p).mp h
    exact ⟨k, rfl, hk⟩
  · rintro ⟨k, rfl, hk⟩
    exact ⟨m, _, (mem_seen hW hn m _).mpr ⟨k, rfl, hk⟩, rfl, rfl⟩

/-- **C83, predecessors**: the poses from which the node would be reached, driving backwards. -/
theorem C83_predecessors (hW : Supported W) (hn : Legal W n) {convert : Pattern → R Nat} {cost : Pattern → Nat}
    (hcv : ∀ p, Occurs W p → convert p = .ok (cost p)) :
    ∃ l, (runMaze W blocked convert).predecessors n = .ok l ∧ l.length ≤ EDGE_MAX ∧ ∀ m c, (m, c) ∈ l ↔
      ∃ k, c = cost (patternOf k) ∧ Drivable W (posBlocked blocked) (reversed n) k (reversed m) := by
  refine ⟨_, edges_eq hW hn false convert cost hcv, by rw [List.length_map]; exact seen_length hW hn false, ?_⟩
  intro m c
  simp only [List.mem_map, Prod.mk.injEq, Prod.exists]
  constructor
  · rintro ⟨a, p, h, rfl, rfl⟩
    obtain ⟨k, rfl, hk⟩ := (mem_seen_false hW hn a p).mp h
    exact ⟨k, rfl, hk⟩
  · rintro ⟨k, rfl, hk⟩
    exact ⟨m, _, (mem_seen_false hW hn m _).mpr ⟨k, rfl, hk⟩, rfl, rfl⟩

/-- **C83, reversal**: between poses that are not on a blocked wall, `m` lists `n` as a successor exactly if `n` lists
`m` as a predecessor, with the same cost. -/
theorem C83_reversal (hW : Supported W) (hn : Legal W n) (hm : Legal W m) (on : OpenHere W (posBlocked blocked) n)
    (om : OpenHere W (posBlocked blocked) m) {convert : Pattern → R Nat} {cost : Pattern → Nat}
    (hcv : ∀ p, Occurs W p → convert p = .ok (cost p)) :
    ∃ ls lp, (runMaze W blocked convert).successors m = .ok ls ∧ (runMaze W blocked convert).predecessors n = .ok lp ∧
      ∀ c, (n, c) ∈ ls ↔ (m, c) ∈ lp := by
  obtain ⟨ls, h1, -, h2⟩ := C83_successors (blocked := blocked) hW hm hcv
  obtain ⟨lp, h3, -, h4⟩ := C83_predecessors (blocked := blocked) hW hn hcv
  refine ⟨ls, lp, h1, h3, fun c => ?_⟩
  rw [h2, h4]
  constructor
  · rintro ⟨k, hc, hk⟩
    exact ⟨k, hc, ((drivable_reversed hm hn).mpr ⟨hk, om⟩).1⟩
  · rintro ⟨k, hc, hk⟩
    exact ⟨k, hc, ((drivable_reversed hm hn).mp ⟨hk, on⟩).1⟩

/-- **C83, reversal needs open ends**: with a wall on top of the cell (0, 1), a pose on that wall lists a cell as a
predecessor which does not list the pose as a successor. -/
theorem C83_blocked_end :
    (∃ l c, (runMaze 4 (fun w => w == ⟨0, 1, true⟩) defaultLinear).predecessors ⟨0, 3, .northWest⟩ = .ok l ∧
      (⟨2, 2, .west⟩, c) ∈ l) ∧
    ∃ l, (runMaze 4 (fun w => w == ⟨0, 1, true⟩) defaultLinear).successors ⟨2, 2, .west⟩ = .ok l ∧
      ∀ c, ((⟨0, 3, .northWest⟩ : Node), c) ∉ l := by
  refine ⟨⟨_, 12, rfl, by decide +kernel⟩, _, rfl, ?_⟩
  intro c h
  have : (⟨0, 3, .northWest⟩ : Node) ∈ List.map Prod.fst _ := List.mem_map_of_mem (f := Prod.fst) h
  revert this
  clear h
  decide +kernel

/-- The hypotheses of C83 hold in the corner cell and on on an open wall diagonally ahead, and a move of cost 12 leads from one to the other. -/
example : Legal 4 ⟨0, 0, .north⟩ ∧ OpenHere 4 (posBlocked fun w => w == ⟨0, 1, true⟩) ⟨0, 0, .north⟩ ∧ Legal 4 ⟨1, 2, .northEast⟩ ∧
    OpenHere 4 (posBlocked fun w => w == ⟨0, 1, true⟩) ⟨1, 2, .northEast⟩ ∧
    (∃ l, (runMaze 4 (fun w => w == ⟨0, 1, true⟩) defaultLinear).successors ⟨0, 0, .north⟩ = .ok l ∧
      ((⟨1, 2, .northEast⟩ : Node), 12) ∈ l ∧ l.length = 5) :=
  ⟨by unfold Legal; decide, Or.inl (by decide), by unfold Legal; decide, Or.inr ⟨⟨1, 2⟩, by decide, by decide, by decide, by decide⟩,
    _, rfl, by decide +kernel, by decide +kernel⟩

/-! ## C84: the plan -/

section plan
variable {Q : Queue Nat} {MAX : Nat} {convert : Pattern → R Nat} {cost : Pattern → Nat} {start goal0 : Node} {rest : List Node}

/-- **C84, plan**: a path that is returned is a path of drivable moves from the start to a goal that visits no pose
twice, and no such path has a smaller sum of (cost of the move + cost of a straight from its end to the first goal). -/
theorem C84_plan (hW : Supported W) (L : QueueLaws Q HEAP_MAX) (hcv : ∀ p, Occurs W p → convert p = .ok (cost p))
    (hfit : ∀ p q, Occurs W p → Occurs W q → cost p + cost q ≤ MAX) (hstart : Legal W start)
    (hg : ∀ g ∈ goal0 :: rest, Legal W g) {path : List Node}
    (h : Dijkstra.solve (runMaze W blocked convert) (runCoding W) Q MAX start (goal0 :: rest) = .ok (some path)) :
    path.Nodup ∧ path.head? = some start ∧ (∃ g ∈ goal0 :: rest, path.getLast? = some g) ∧
    (∃ c, FastPath W (posBlocked blocked) (fun k => cost (patternOf k)) path c) ∧
    ∃ c, ChargedPath W (posBlocked blocked) cost goal0 path c ∧
      ∀ q c', q.head? = some start → (∃ g ∈ goal0 :: rest, q.getLast? = some g) →
        ChargedPath W (posBlocked blocked) cost goal0 q c' → c ≤ c' := by
  have hg0 := hg goal0 (by simp)
  obtain ⟨-, h1, g, h2, c, h3, h4⟩ := C81_found L (run_sound hW hcv hfit hg0) hstart h
  obtain ⟨h5, h6, h7⟩ := (trip_path hW hcv hg0 hstart).mp h3
  obtain ⟨c', h8, -⟩ := charged_fast h5
  refine ⟨h1, h6, ⟨g, h2, h7⟩, ⟨c', h8⟩, c, h5, ?_⟩
  rintro q c'' hq ⟨g', hg', hl⟩ hp
  exact h4 q c'' g' hg' ((trip_path hW hcv hg0 hstart).mpr ⟨hp, hq, hl⟩)

/-- **C84, no plan**: an error is returned only if the start is a goal, or every path to a goal is charged the largest
cost or more. -/
theorem C84_no_plan (hW : Supported W) (L : QueueLaws Q HEAP_MAX) (hcv : ∀ p, Occurs W p → convert p = .ok (cost p))
    (hfit : ∀ p q, Occurs W p → Occurs W q → cost p + cost q ≤ MAX) (hstart : Legal W start)
    (hg : ∀ g ∈ goal0 :: rest, Legal W g)
    (h : Dijkstra.solve (runMaze W blocked convert) (runCoding W) Q MAX start (goal0 :: rest) = .ok none) :
    start ∈ goal0 :: rest ∨ ∀ q c, q.head? = some start → (∃ g ∈ goal0 :: rest, q.getLast? = some g) →
      ChargedPath W (posBlocked blocked) cost goal0 q c → MAX ≤ cost (.straight (cellsApart start goal0)) + c := by
  have hg0 := hg goal0 (by simp)
  rcases C81_unfeasible L (run_sound hW hcv hfit hg0) hstart (run_distance hW hcv hstart hg0) h with h1 | h1
  · exact Or.inl h1
  · right
    rintro q c hq ⟨g, hg', hl⟩ hp
    exact h1 q c g hg' ((trip_path hW hcv hg0 hstart).mpr ⟨hp, hq, hl⟩)

/-- **C84, total**: the only possible panic is a full heap or path vector, and in mazes of up to 8 x 8 cells there is
none, whatever the walls: a path is returned exactly if the start is no goal and a path charged less than the largest
cost exists. -/
theorem C84_total (hW : Supported W) (L : QueueLaws Q HEAP_MAX) (hcv : ∀ p, Occurs W p → convert p = .ok (cost p))
    (hfit : ∀ p q, Occurs W p → Occurs W q → cost p + cost q ≤ MAX) (hstart : Legal W start)
    (hg : ∀ g ∈ goal0 :: rest, Legal W g) :
    (∀ e, Dijkstra.solve (runMaze W blocked convert) (runCoding W) Q MAX start (goal0 :: rest) = .error e → e = .capacity) ∧
    (W ≤ 8 →
      ((∃ p, Dijkstra.solve (runMaze W blocked convert) (runCoding W) Q MAX start (goal0 :: rest) = .ok (some p)) ↔
        start ∉ goal0 :: rest ∧ ∃ q c, q.head? = some start ∧ (∃ g ∈ goal0 :: rest, q.getLast? = some g) ∧
          ChargedPath W (posBlocked blocked) cost goal0 q c ∧ cost (.straight (cellsApart start goal0)) + c < MAX) ∧
      ∃ r, Dijkstra.solve (runMaze W blocked convert) (runCoding W) Q MAX start (goal0 :: rest) = .ok r) := by
  have hg0 := hg goal0 (by simp)
  obtain ⟨h1, h2⟩ := C81_total L (run_sound (blocked := blocked) hW hcv hfit hg0) hstart (run_distance hW hcv hstart hg0) (rest := rest)
  refine ⟨h1, fun h8 => ?_⟩
  obtain ⟨h3, h4⟩ := h2 (run_small hW h8 hcv)
  refine ⟨h3.trans (and_congr_right fun _ => ?_), h4⟩
  constructor
  · rintro ⟨q, c, g, hg', ht, hc⟩
    obtain ⟨h5, h6, h7⟩ := (trip_path hW hcv hg0 hstart).mp ht
    exact ⟨q, c, h6, ⟨g, hg', h7⟩, h5, hc⟩
  · rintro ⟨q, c, hq, ⟨g, hg', hl⟩, hp, hc⟩
    exact ⟨q, c, g, hg', (trip_path hW hcv hg0 hstart).mpr ⟨hp, hq, hl⟩, hc⟩

end plan

/-- The values of the default converters. -/
def linearCost : Pattern → Nat
  | .straight n => 10 * n
  | .straightDiagonal n => 7 * n
  | p => defaultTurns.of p

def tableCost : Pattern → Nat
  | .straight n => defaultStraight.getD n 0
  | .straightDiagonal n => defaultDiagonal.getD n 0
  | p => defaultTurns.of p

/-- **C84, default costs**: in every supported maze the two default converters give a cost to each pattern that occurs,
without a panic, and any two of them can be added. Longer straights than those of a 32 x 32 maze are outside the tables. -/
theorem C84_default_costs (hW : Supported W) :
    (∀ p, Occurs W p → defaultLinear p = .ok (linearCost p) ∧ defaultTable p = .ok (tableCost p)) ∧
    (∀ p q, Occurs W p → Occurs W q → linearCost p + linearCost q ≤ 65535 ∧ tableCost p + tableCost q ≤ 65535) ∧
    (∀ p, Occurs W p → linearCost p ≤ 441) ∧ (∀ p, Occurs W p → tableCost p ≤ 115) ∧
    defaultTable (.straight 32) = .error .index ∧ defaultTable (.straightDiagonal 64) = .error .index := by
  have hle := hW.le
  have a : ∀ i < 32, defaultStraight[i]? = some (defaultStraight.getD i 0) ∧ defaultStraight.getD i 0 ≤ 115 := by decide
  have b : ∀ i < 64, defaultDiagonal[i]? = some (defaultDiagonal.getD i 0) ∧ defaultDiagonal.getD i 0 ≤ 115 := by decide
  have hl : ∀ p, Occurs W p → linearCost p ≤ 441 := by
    intro p h
    cases p with
    | straight n => have : n < W := h; show 10 * n ≤ _; omega
    | straightDiagonal n => have : n < 2 * W := h; show 7 * n ≤ _; omega
    | _ => decide
  have ht : ∀ p, Occurs W p → tableCost p ≤ 115 := by
    intro p h
    cases p with
    | straight n => have : n < W := h; exact (a n (by omega)).2
    | straightDiagonal n => have : n < 2 * W := h; exact (b n (by omega)).2
    | _ => decide
  refine ⟨?_, ?_, hl, ht, rfl, rfl⟩
  · intro p h
    cases p with
    | straight n =>
      have : n < W := h
      constructor
      · show (if n * 10 ≤ 65535 then _ else _) = Except.ok (10 * n)
        rw [if_pos (by omega), Nat.mul_comm]
      · show (match defaultStraight[n]? with | some v => _ | none => _) = Except.ok (defaultStraight.getD n 0)
        rw [(a n (by omega)).1]
    | straightDiagonal n =>
      have : n < 2 * W := h
      constructor
      · show (if n * 7 ≤ 65535 then _ else _) = Except.ok (7 * n)
        rw [if_pos (by omega), Nat.mul_comm]
      · show (match defaultDiagonal[n]? with | some v => _ | none => _) = Except.ok (defaultDiagonal.getD n 0)
        rw [(b n (by omega)).1]
    | _ => exact ⟨rfl, rfl⟩
  · intro p q hp hq
    have := hl p hp; have := hl q hq; have := ht p hp; have := ht q hq
    omega

/-- The walls around a maze of 4 x 4 cells, and the one to the right of the start. -/
def bare (w : Wall) : Bool := (w.x == 3 && !w.top) || (w.y == 3 && w.top) || w == ⟨0, 0, false⟩

/-- The costs of the edges between two nodes. -/
def edgeCosts (n m : Node) : List Nat :=
  match (runMaze 4 bare defaultLinear).successors n with
  | .ok l => (l.filter fun e => e.1 == m).map (·.2)
  | .error _ => []

theorem four : Supported 4 := ⟨2, by decide, rfl⟩

theorem mem_edgeCosts (hn : Legal 4 n) (c : Nat) :
    c ∈ edgeCosts n m ↔ ∃ k, c = linearCost (patternOf k) ∧ Drivable 4 (posBlocked bare) n k m := by
  rw [← run_edges four (fun p hp => ((C84_default_costs four).1 p hp).1) hn c]
  unfold edgesOf edgeCosts
  cases (runMaze 4 bare defaultLinear).successors n with
  | error e => simp
  | ok l => simp

theorem fast_cons (hn : Legal 4 n) {l : List Node} {c c' : Nat} (h : c ∈ edgeCosts n m)
    (hp : FastPath 4 (posBlocked bare) (fun k => linearCost (patternOf k)) (m :: l) c') :
    FastPath 4 (posBlocked bare) (fun k => linearCost (patternOf k)) (n :: m :: l) (c + c') := by
  obtain ⟨k, rfl, hk⟩ := (mem_edgeCosts hn c).mp h
  exact .cons n m k l c' hk hp

theorem fast_inv (hn : Legal 4 n) {l : List Node} {c : Nat}
    (hp : FastPath 4 (posBlocked bare) (fun k => linearCost (patternOf k)) (n :: m :: l) c) :
    ∃ c1 c2, c1 ∈ edgeCosts n m ∧ FastPath 4 (posBlocked bare) (fun k => linearCost (patternOf k)) (m :: l) c2 ∧ c = c1 + c2 := by
  cases hp with
  | cons _ _ k _ c' hk hp => exact ⟨_, c', (mem_edgeCosts hn _).mpr ⟨k, rfl, hk⟩, hp, rfl⟩

instance : DecidablePred (Legal W) := fun n => by unfold Legal; infer_instance

/-- **C84, finding**: with the default linear costs the plan is not the fastest one. In an empty maze of 4 x 4 cells, from
the corner to the cell (1, 3), the path returned costs 35, but there is one that costs 34. -/
theorem C84_not_fastest :
    Dijkstra.solve (runMaze 4 bare defaultLinear) (runCoding 4) (listQueue Nat HEAP_MAX) 65535 ⟨0, 0, .north⟩
      ((goalsOf 4 2 6).toOption.getD []) = .ok (some [⟨0, 0, .north⟩, ⟨0, 4, .north⟩, ⟨2, 6, .east⟩]) ∧
    (∀ c, FastPath 4 (posBlocked bare) (fun k => linearCost (patternOf k)) [⟨0, 0, .north⟩, ⟨0, 4, .north⟩, ⟨2, 6, .east⟩] c → c = 35) ∧
    FastPath 4 (posBlocked bare) (fun k => linearCost (patternOf k)) [⟨0, 0, .north⟩, ⟨0, 2, .north⟩, ⟨1, 4, .northEast⟩, ⟨2, 6, .north⟩] 34 := by
  refine ⟨by decide +kernel, ?_, ?_⟩
  · intro c h
    obtain ⟨c1, c2, h1, h', rfl⟩ := fast_inv (by decide) h
    obtain ⟨c3, c4, h2, h'', rfl⟩ := fast_inv (by decide) h'
    cases h''
    rw [show edgeCosts ⟨0, 0, .north⟩ ⟨0, 4, .north⟩ = [20] by decide +kernel, List.mem_singleton] at h1
    rw [show edgeCosts ⟨0, 4, .north⟩ ⟨2, 6, .east⟩ = [15] by decide +kernel, List.mem_singleton] at h2
    omega
  · exact fast_cons (c := 10) (by decide) (by decide +kernel) (fast_cons (c := 12) (by decide) (by decide +kernel)
      (fast_cons (c := 12) (by decide) (by decide +kernel) (.single _)))

/-- The hypotheses of C84 hold for this maze and these goals. -/
example : goalsOf 4 2 6 = .ok [⟨2, 6, .north⟩, ⟨2, 6, .east⟩, ⟨2, 6, .south⟩, ⟨2, 6, .west⟩] ∧
    (∀ g ∈ [(⟨2, 6, .north⟩ : Node), ⟨2, 6, .east⟩, ⟨2, 6, .south⟩, ⟨2, 6, .west⟩], Legal 4 g) ∧ Legal 4 ⟨0, 0, .north⟩ ∧
    Nonempty (QueueLaws (listQueue Nat HEAP_MAX) HEAP_MAX) := ⟨by rfl, by decide, by decide, ⟨listQueueLaws _ _⟩⟩

/-- A start that is a goal gives an error. -/
example : Dijkstra.solve (runMaze 4 bare defaultLinear) (runCoding 4) (listQueue Nat HEAP_MAX) 65535 ⟨2, 6, .north⟩
      ((goalsOf 4 2 6).toOption.getD []) = .ok none := by decide +kernel

end Verif.Props
