import Verif.Proof.OldReverse
import Verif.Model.OldPlan
import Verif.Spec.OldSolver
/-! Indices, identifiers, goals and costs of the former core crate. -/
namespace Verif.Proof.OldN
open Verif Verif.Run Verif.Spec Verif.Old Verif.Proof

variable {W : Nat} {n m : Node} {blocked : Wall → Bool}

theorem offsets_old (k : Nat) (hk : k ≤ 5) : Old.yOffset (2 ^ k) = k + 1 ∧ Old.dirOffset (2 ^ k) = 2 * (k + 1) ∧
    Old.maskX (2 ^ k) = 2 ^ (k + 1) - 1 := by
  interval_cases k <;> decide

/-- A number of three parts. -/
theorem packed (k x y d : Nat) (hx : x < 2 ^ (k + 1)) (hy : y < 2 ^ (k + 1)) :
    x ||| (y <<< (k + 1)) ||| (d <<< (2 * (k + 1))) = x + 2 ^ (k + 1) * (y + 2 ^ (k + 1) * d) := by
  have hlt : x + 2 ^ (k + 1) * y < 2 ^ (2 * (k + 1)) := by
    have : 2 ^ (2 * (k + 1)) = 2 ^ (k + 1) * 2 ^ (k + 1) := by rw [← Nat.pow_add]; congr 1; omega
    rw [this]
    have h2 : 2 ^ (k + 1) * (y + 1) ≤ 2 ^ (k + 1) * 2 ^ (k + 1) := Nat.mul_le_mul_left _ (by omega)
    rw [Nat.mul_add] at h2
    omega
  have : 2 ^ (2 * (k + 1)) = 2 ^ (k + 1) * 2 ^ (k + 1) := by rw [← Nat.pow_add]; congr 1; omega
  rw [or_shift x _ _ hx, or_shift _ _ _ hlt, this, Nat.mul_add, Nat.mul_assoc, Nat.add_assoc]

theorem unpack (A x y d : Nat) (hx : x < A) (hy : y < A) :
    (x + A * (y + A * d)) % A = x ∧ (x + A * (y + A * d)) / A % A = y ∧ (x + A * (y + A * d)) / (A * A) = d := by
  have hA : 0 < A := by omega
  have h1 : (x + A * (y + A * d)) / A = y + A * d := by
    rw [Nat.add_mul_div_left _ _ hA, Nat.div_eq_of_lt hx]; omega
  refine ⟨by rw [Nat.add_mul_mod_self_left, Nat.mod_eq_of_lt hx], by rw [h1, Nat.add_mul_mod_self_left, Nat.mod_eq_of_lt hy], ?_⟩
  rw [← Nat.div_div_eq_div_mul, h1, Nat.add_mul_div_left _ _ hA, Nat.div_eq_of_lt hy]; omega

theorem oldIndex_eq (hW : Supported W) (hn : Legal W n) : RunNode.index W n = .ok (slotOf W n) := by
  have key : ∀ d, n.x ||| (n.y <<< Old.yOffset W) ||| (d <<< Old.dirOffset W) = n.x + 2 * W * (n.y + 2 * W * d) := by
    intro d
    obtain ⟨k, hk, rfl⟩ := hW
    obtain ⟨hx, hy, -⟩ := hn
    obtain ⟨e1, e2, -⟩ := offsets_old k hk
    have e : 2 ^ (k + 1) = 2 * 2 ^ k := by rw [Nat.pow_succ]; omega
    rw [e1, e2, packed k _ _ _ (by omega) (by omega), e]
  unfold RunNode.index
  simp only [xor_and_one, or_and_one]
  obtain ⟨x, y, p⟩ := n
  obtain ⟨_, _, ⟨h1, h2, hp⟩ | ⟨h1, hp⟩⟩ := hn
  · simp only at h1 h2 hp
    rw [if_neg (by simp only; omega), if_pos ⟨h1, h2⟩]
    cases p <;> first | exact congrArg Except.ok (key _) | simp at hp
  · simp only at h1 hp
    rw [if_pos h1]
    cases p <;> first | exact congrArg Except.ok (key _) | simp at hp

/-- The number in an identifier. -/
def packOf (W : Nat) (n : Node) : Nat := n.x + 2 * W * (n.y + 2 * W * n.posture.toU8)

theorem toU8_lt (p : Posture) : p.toU8 < 8 := by cases p <;> decide

theorem packOf_lt (hW : Supported W) (hx : n.x < 2 * W) (hy : n.y < 2 * W) : packOf W n < 32768 := by
  have hp := toU8_lt n.posture
  unfold packOf
  have h1 : n.y + 2 * W * n.posture.toU8 + 1 ≤ 2 * W * 8 := by
    have : 2 * W * (n.posture.toU8 + 1) ≤ 2 * W * 8 := Nat.mul_le_mul_left _ (by omega)
    rw [Nat.mul_add] at this; omega
  have h2 : 2 * W * (n.y + 2 * W * n.posture.toU8 + 1) ≤ 2 * W * (2 * W * 8) := Nat.mul_le_mul_left _ h1
  have h3 : 2 * W * (2 * W * 8) ≤ 64 * (64 * 8) := Nat.mul_le_mul (by have := hW.le; omega) (by have := hW.le; omega)
  rw [Nat.mul_add] at h2
  omega

theorem nodeId_eq (hW : Supported W) (hx : n.x < 2 * W) (hy : n.y < 2 * W) : nodeId W n = .ok (2 * packOf W n + 1) := by
  have hlt := packOf_lt hW hx hy
  have key : n.x ||| (n.y <<< Old.yOffset W) ||| (n.posture.toU8 <<< Old.dirOffset W) = packOf W n := by
    obtain ⟨k, hk, rfl⟩ := hW
    obtain ⟨e1, e2, -⟩ := offsets_old k hk
    have e : 2 ^ (k + 1) = 2 * 2 ^ k := by rw [Nat.pow_succ]; omega
    rw [e1, e2, packed k _ _ _ (by omega) (by omega), e]
    rfl
  unfold nodeId
  rw [key, Nat.mod_eq_of_lt (by omega), Nat.shiftLeft_eq, Nat.mod_eq_of_lt (by omega)]
  simp only [Nat.pow_one]
  rw [if_pos (by omega), Nat.mul_comm]

theorem nodeOfId_eq (hW : Supported W) (hx : n.x < 2 * W) (hy : n.y < 2 * W) : nodeOfId W (2 * packOf W n + 1) = .ok n := by
  obtain ⟨k, hk, rfl⟩ := hW
  obtain ⟨e1, e2, e3⟩ := offsets_old k hk
  have e : 2 ^ (k + 1) = 2 * 2 ^ k := by rw [Nat.pow_succ]; omega
  have eAA : 2 ^ (2 * (k + 1)) = 2 * 2 ^ k * (2 * 2 ^ k) := by rw [← e, ← Nat.pow_add]; congr 1; omega
  have hs : (2 * packOf (2 ^ k) n + 1) >>> 1 = packOf (2 ^ k) n := by
    rw [Nat.shiftRight_eq_div_pow]; omega
  obtain ⟨u1, u2, u3⟩ := unpack (2 * 2 ^ k) n.x n.y n.posture.toU8 hx hy
  unfold nodeOfId
  simp only [hs, e1, e2, e3, Nat.shiftRight_eq_div_pow, Nat.and_two_pow_sub_one_eq_mod]
  rw [show (7 : Nat) = 2 ^ 3 - 1 from rfl, Nat.and_two_pow_sub_one_eq_mod, eAA, e]
  unfold packOf
  rw [u1, u2, u3, Nat.mod_eq_of_lt (toU8_lt _)]
  obtain ⟨x, y, p⟩ := n
  cases p <;> rfl

/-! ## Goals -/

theorem run_new (hn : Legal W n) : RunNode.new W n.x n.y n.posture = some n := by
  unfold RunNode.new nodeNew
  have h1 := hn.1
  have h2 := hn.2.1
  rw [if_neg (by omega)]
  show RunNode.ofNode ⟨_, _, _⟩ = _
  rw [Int.toNat_natCast, Int.toNat_natCast]
  exact legal_ofNode hn

theorem goalNodes_eq (x y : Nat) : ∀ (l : List Posture) (acc : List Node), (∀ p ∈ l, Legal W ⟨x, y, p⟩) →
    acc.length + l.length ≤ GOAL_MAX → goalNodes W x y l acc = .ok (acc ++ l.map fun p => ⟨x, y, p⟩)
  | [], acc, _, _ => by simp [goalNodes]
  | p :: rest, acc, h, hl => by
    have := run_new (h p (by simp))
    simp only at this
    unfold goalNodes
    rw [this]
    simp only [bind, Except.bind]
    unfold pushCap
    rw [List.length_cons] at hl
    rw [if_pos (by omega)]
    simp only
    rw [goalNodes_eq x y rest _ (fun q hq => h q (by simp [hq])) (by rw [List.length_append, List.length_singleton]; omega)]
    simp

theorem goalsOf_eq {x y : Nat} (hx : x < 2 * W) (hy : y < 2 * W) (hp : ¬ (x % 2 = 1 ∧ y % 2 = 1)) :
    goalsOf W x y = .ok ((if (x + y) % 2 = 1 then [Posture.northEast, .southEast, .southWest, .northWest]
      else [.north, .east, .south, .west]).map fun p => ⟨x, y, p⟩) := by
  unfold goalsOf
  simp only [xor_and_one, or_and_one]
  by_cases h : (x + y) % 2 = 1
  · rw [if_pos h, if_pos h, goalNodes_eq]
    · rfl
    · intro p h'
      exact ⟨hx, hy, Or.inr ⟨h, h'⟩⟩
    · decide
  · rw [if_neg h, if_neg h, if_pos (by omega), goalNodes_eq]
    · rfl
    · intro p h'
      exact ⟨hx, hy, Or.inl ⟨by simp only; omega, by simp only; omega, h'⟩⟩
    · decide

/-! ## Distances and the graph -/

theorem distance_eq (hW : Supported W) (hn : Legal W n) (hm : Legal W m) :
    nodeDistance n m = .ok (.straight (cellsApart n m)) ∧ cellsApart n m < W := by
  have := hW.le
  obtain ⟨h1, h2, -⟩ := hn
  obtain ⟨h3, h4, -⟩ := hm
  unfold nodeDistance cellsApart
  rw [i8_ok (by omega), i8_ok (by omega)]
  exact ⟨rfl, by omega⟩

theorem run_distance (hW : Supported W) {convert : Pattern → R Nat} {cost : Pattern → Nat}
    (hcv : ∀ p, Occurs W p → convert p = .ok (cost p)) (hn : Legal W n) (hm : Legal W m) :
    (runMaze W blocked convert).distance n m = .ok (cost (.straight (cellsApart n m))) := by
  obtain ⟨h1, h2⟩ := distance_eq hW hn hm
  show (do convert (← nodeDistance n m)) = _
  rw [h1]
  exact hcv (.straight _) h2

theorem run_edges (hW : Supported W) {convert : Pattern → R Nat} {cost : Pattern → Nat}
    (hcv : ∀ p, Occurs W p → convert p = .ok (cost p)) (hn : Legal W n) (c : Nat) :
    edgesOf (runMaze W blocked convert) n c m ↔ ∃ k, c = cost (patternOf k) ∧ Drivable W (posBlocked blocked) n k m := by
  have h1 := edges_eq (blocked := blocked) hW hn true convert cost hcv
  change (runMaze W blocked convert).successors n = _ at h1
  unfold edgesOf
  rw [h1]
  simp only [Except.ok.injEq, exists_eq_left', List.mem_map, Prod.mk.injEq, Prod.exists]
  constructor
  · rintro ⟨a, p, h, rfl, rfl⟩
    obtain ⟨k, rfl, hk⟩ := (mem_seen hW hn a p).mp h
    exact ⟨k, rfl, hk⟩
  · rintro ⟨k, rfl, hk⟩
    exact ⟨m, _, (mem_seen hW hn m _).mpr ⟨k, rfl, hk⟩, rfl, rfl⟩

/-- What is assumed of the converter: no panic, values that fit. -/
theorem run_sound (hW : Supported W) {MAX : Nat} {convert : Pattern → R Nat} {cost : Pattern → Nat}
    (hcv : ∀ p, Occurs W p → convert p = .ok (cost p)) (hfit : ∀ p q, Occurs W p → Occurs W q → cost p + cost q ≤ MAX)
    {goal0 : Node} (hg : Legal W goal0) : Sound (runMaze W blocked convert) (runCoding W) MAX goal0 (Legal W) where
  index := fun u hu => ⟨_, oldIndex_eq hW hu, Nat.lt_of_lt_of_le (slotOf_lt W u hu) (slots_le W hW)⟩
  inj := fun u v hu hv h => by
    have h : RunNode.index W u = RunNode.index W v := h
    rw [oldIndex_eq hW hu, oldIndex_eq hW hv] at h
    exact slotOf_inj W hW u v hu hv (Except.ok.inj h)
  code := fun u hu => ⟨_, nodeId_eq hW hu.1 hu.2.1, nodeOfId_eq hW hu.1 hu.2.1⟩
  succ := fun u hu => by
    refine ⟨_, edges_eq hW hu true convert cost hcv, ?_, ?_⟩
    · rw [List.length_map]; exact seen_length hW hu true
    · intro e he
      obtain ⟨x, hx, rfl⟩ := List.mem_map.mp he
      exact seen_legal hW hu (p := x.2) hx
  dist := fun u hu => by
    have h2 := (distance_eq hW hu hg).2
    refine ⟨_, run_distance hW hcv hu hg, ?_⟩
    have := hfit (.straight (cellsApart u goal0)) (.straight (cellsApart u goal0)) h2 h2
    omega
  fits := fun u w v hu h => by
    obtain ⟨e, h', he, hd, rfl⟩ := h
    obtain ⟨k, rfl, hk⟩ := (run_edges hW hcv hu e).mp he
    have hv := drivable_legal hu k v hk
    rw [run_distance hW hcv hv hg] at hd
    cases hd
    exact hfit _ (.straight (cellsApart v goal0)) (drivable_occurs hu hk) (distance_eq hW hv hg).2

/-- Trips of the solver are charged paths. -/
theorem trip_path (hW : Supported W) {convert : Pattern → R Nat} {cost : Pattern → Nat}
    (hcv : ∀ p, Occurs W p → convert p = .ok (cost p)) {goal0 : Node} (hg : Legal W goal0) {u v : Node} {p : List Node} {c : Nat}
    (hu : Legal W u) : Trip (charged (runMaze W blocked convert) goal0) u p c v ↔
      ChargedPath W (posBlocked blocked) cost goal0 p c ∧ p.head? = some u ∧ p.getLast? = some v := by
  constructor
  · intro h
    induction h with
    | here u => exact ⟨.single u, rfl, rfl⟩
    | @step u x v w c p he ht ih =>
      obtain ⟨e, h, hed, hd, rfl⟩ := he
      obtain ⟨k, rfl, hk⟩ := (run_edges hW hcv hu e).mp hed
      have hx := drivable_legal hu k x hk
      rw [run_distance hW hcv hx hg] at hd
      cases hd
      obtain ⟨h1, h2, h3⟩ := ih hx
      cases p with
      | nil => cases h2
      | cons a l =>
        cases h2
        exact ⟨.cons u x k l c hk h1, rfl, by rw [List.getLast?_cons_cons]; exact h3⟩
  · rintro ⟨h, h2, h3⟩
    induction h generalizing u with
    | single n =>
      cases h2; cases h3
      exact .here _
    | cons n m k l c hk ht ih =>
      cases h2
      have hm := drivable_legal hu k m hk
      rw [List.getLast?_cons_cons] at h3
      exact .step ⟨_, _, (run_edges hW hcv hu _).mpr ⟨k, rfl, hk⟩, run_distance hW hcv hm hg, rfl⟩ (ih hm rfl h3)

theorem charged_fast {isWall : Search.Coord → Bool} {cost : Pattern → Nat} {goal0 : Node} {p : List Node} {c : Nat}
    (h : ChargedPath W isWall cost goal0 p c) : ∃ c', FastPath W isWall (fun k => cost (patternOf k)) p c' ∧ c' ≤ c := by
  induction h with
  | single n => exact ⟨0, .single n, Nat.le_refl _⟩
  | cons n m k l c hk _ ih =>
    obtain ⟨c', h1, h2⟩ := ih
    exact ⟨_, .cons n m k l c' hk h1, by omega⟩

/-! ## The nodes of small mazes -/

/-- All run nodes. -/
def allNodes (W : Nat) : List Node := (List.range (2 * W)).flatMap fun x => (List.range (2 * W)).flatMap fun y =>
  (if x % 2 = 0 ∧ y % 2 = 0 then [Posture.north, .east, .south, .west]
    else if (x + y) % 2 = 1 then [.northEast, .southEast, .southWest, .northWest] else []).map fun p => ⟨x, y, p⟩

theorem mem_allNodes (hn : Legal W n) : n ∈ allNodes W := by
  obtain ⟨x, y, p⟩ := n
  obtain ⟨h1, h2, h3⟩ := hn
  simp only at h1 h2 h3
  simp only [allNodes, List.mem_flatMap, List.mem_range, List.mem_map, Node.mk.injEq]
  refine ⟨x, h1, y, h2, p, ?_, rfl, rfl, rfl⟩
  rcases h3 with ⟨e1, e2, h⟩ | ⟨e, h⟩
  · rw [if_pos ⟨e1, e2⟩]; exact h
  · rw [if_neg (by omega), if_pos e]; exact h

theorem allNodes_legal (h : n ∈ allNodes W) : Legal W n := by
  simp only [allNodes, List.mem_flatMap, List.mem_range, List.mem_map] at h
  obtain ⟨x, h1, y, h2, p, hp, rfl⟩ := h
  refine ⟨h1, h2, ?_⟩
  split at hp
  · rename_i h; exact Or.inl ⟨h.1, h.2, hp⟩
  · split at hp
    · rename_i h; exact Or.inr ⟨h, hp⟩
    · cases hp

/-- An upper bound of the number of edges at a node, for any walls. -/
def edgeBound (W : Nat) (n : Node) : Nat := ((stmtsOf n).map fun l => nodeCount (emit W n true l)).sum

theorem seen_bound : (seen W blocked n true).length ≤ edgeBound W n := by
  unfold seen edgeBound
  generalize stmtsOf n = ls
  induction ls with
  | nil => exact Nat.le_refl _
  | cons l rest ih =>
    have := visible_count blocked (emit W n true l)
    simp only [List.flatMap_cons, List.length_append, List.map_cons, List.sum_cons]
    omega

theorem edgeCount_bound (hW : Supported W) {convert : Pattern → R Nat} {cost : Pattern → Nat}
    (hcv : ∀ p, Occurs W p → convert p = .ok (cost p)) : ∀ B : List Node, (∀ u ∈ B, Legal W u) →
    edgeCount (runMaze W blocked convert) B ≤ (B.map (edgeBound W)).sum
  | [], _ => Nat.le_refl _
  | u :: B, h => by
    have ih := edgeCount_bound hW hcv B (fun v hv => h v (by simp [hv]))
    have h1 := edges_eq (blocked := blocked) hW (h u (by simp)) true convert cost hcv
    change (runMaze W blocked convert).successors u = _ at h1
    unfold edgeCount at ih ⊢
    simp only [List.map_cons, List.sum_cons, h1, List.length_map]
    have := seen_bound (W := W) (blocked := blocked) (n := u)
    omega

theorem small_counts : ∀ W ∈ [1, 2, 4, 8], (allNodes W).length ≤ Old.PATH_MAX ∧ ((allNodes W).map (edgeBound W)).sum < HEAP_MAX := by
  decide +kernel

theorem run_small (hW : Supported W) (h8 : W ≤ 8) {convert : Pattern → R Nat} {cost : Pattern → Nat}
    (hcv : ∀ p, Occurs W p → convert p = .ok (cost p)) : Small (runMaze W blocked convert) (Legal W) := by
  have hm : W ∈ [1, 2, 4, 8] := by
    obtain ⟨k, hk, rfl⟩ := hW
    have : k ≤ 3 := by
      by_contra h
      have : 2 ^ 4 ≤ 2 ^ k := Nat.pow_le_pow_right (by omega) (by omega)
      omega
    rcases (by omega : k = 0 ∨ k = 1 ∨ k = 2 ∨ k = 3) with rfl | rfl | rfl | rfl <;> decide
  obtain ⟨h1, h2⟩ := small_counts W hm
  refine ⟨allNodes W, fun u hu => mem_allNodes hu, h1, ?_⟩
  have := edgeCount_bound (blocked := blocked) hW hcv (allNodes W) (fun u hu => allNodes_legal hu)
  omega

end Verif.Proof.OldN
