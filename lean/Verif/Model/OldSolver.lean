import Verif.Model.Run
/-!
# The solver of the former core crate

`obsolete/mousecore/src/solvers/dijkstra.rs`, for any node type and any graph. The type parameters of the Rust code
(`Node`, `Maze`, `Maze::Cost`) are records of functions here; the cost type is the set of natural numbers up to `MAX`.
-/
namespace Verif.Old

/-- `obsolete/mousecore/src/lib.rs` `MAZE_WIDTH_UPPER_BOUND`. -/
def WIDTH_MAX : Nat := 32
/-- `obsolete/mousecore/src/commanders.rs:82` -/
def PATH_MAX : Nat := WIDTH_MAX * WIDTH_MAX
/-- `obsolete/mousecore/src/commanders.rs:84-85` -/
def NODE_MAX : Nat := 16 * WIDTH_MAX * WIDTH_MAX
/-- `obsolete/mousecore/src/commanders.rs:87` -/
def HEAP_MAX : Nat := 8 * WIDTH_MAX * WIDTH_MAX
/-- `obsolete/mousecore/src/mazes.rs:52` the capacity of the vectors of edges -/
def EDGE_MAX : Nat := 4 * WIDTH_MAX

/-- `obsolete/mousecore/src/commanders.rs:24-35` `Graph`, `GeometricGraph`. -/
structure Graph (α : Type) where
  successors : α → R (List (α × Nat))
  predecessors : α → R (List (α × Nat))
  distance : α → α → R Nat

/-- `obsolete/mousecore/src/commanders.rs:89-103` `AsIndex`, `AsId`, and `From<Id>`. -/
structure Coding (α ι : Type) where
  index : α → R Nat
  id : α → R ι
  ofId : ι → R α

/-- The operations of `heapless::BinaryHeap<CostNode<_, ι>, Min, HEAP_SIZE>`. -/
structure Queue (ι : Type) where
  H : Type
  empty : H
  /-- `push`, `none` when the heap is full -/
  push : H → Nat × ι → Option H
  pop : H → Option ((Nat × ι) × H)

namespace Dijkstra
variable {α ι : Type} [DecidableEq α]

/-- The state of `solve`: `dists`, `prev`, `heap`. -/
structure St (Q : Queue ι) where
  dist : Nat → Nat
  prev : Nat → Option ι
  heap : Q.H

/-- `dijkstra.rs:60-63`, `dijkstra.rs:99-104` the push; the `unreachable!` on a full heap is the panic `capacity`. -/
def St.push {Q : Queue ι} (s : St Q) (e : Nat × ι) : R (St Q) :=
  match Q.push s.heap e with
  | some h => .ok { s with heap := h }
  | none => .error .capacity

/-- `dijkstra.rs:93-107` relaxation of the edges. -/
def relax (G : Graph α) (C : Coding α ι) (Q : Queue ι) (MAX : Nat) (goal0 : α) (cost : Nat) (node : α) :
    List (α × Nat) → St Q → R (St Q)
  | [], s => .ok s
  | (next, edge) :: rest, s => do
    let h ← G.distance next goal0
    if MAX < edge + h then .error .overflow
    else do
      let cost' := Run.satAdd MAX cost (edge + h)
      let i ← C.index next
      let d ← arrGet NODE_MAX s.dist i
      if cost' < d then do
        let dist ← arrSet NODE_MAX s.dist i cost'
        let id ← C.id next
        let s ← s.push (cost', id)
        let nodeId ← C.id node
        let prev ← arrSet NODE_MAX s.prev i (some nodeId)
        relax G C Q MAX goal0 cost node rest { s with dist := dist, prev := prev }
      else relax G C Q MAX goal0 cost node rest s

/-- `dijkstra.rs:82-109` the main loop; the result is the goal found. -/
def mainLoop (G : Graph α) (C : Coding α ι) (Q : Queue ι) (MAX : Nat) (goals : List α) (goal0 : α) :
    Nat → St Q → R (Option α × St Q)
  | 0, _ => .error .diverge
  | fuel + 1, s =>
    match Q.pop s.heap with
    | none => .ok (none, s)
    | some ((cost, id), h) => do
      let s := { s with heap := h }
      let node ← C.ofId id
      let i ← C.index node
      let d ← arrGet NODE_MAX s.dist i
      if d < cost then mainLoop G C Q MAX goals goal0 fuel s
      else if node ∈ goals then .ok (some node, s)
      else do
        let edges ← G.successors node
        let s ← relax G C Q MAX goal0 cost node edges s
        mainLoop G C Q MAX goals goal0 fuel s

/-- `dijkstra.rs:70-74` the chain of predecessors. -/
def backLoop (C : Coding α ι) (prev : Nat → Option ι) : Nat → α → List α → R (List α)
  | 0, _, _ => .error .diverge
  | fuel + 1, current, path => do
    let i ← C.index current
    match ← arrGet NODE_MAX prev i with
    | none => .ok path
    | some id => do
      let next ← C.ofId id
      let path ← pushCap PATH_MAX path next
      backLoop C prev fuel next path

/-- `dijkstra.rs:65-81` `construct_path`; `none` is `Err(UnfeasibleError)`. The swaps reverse the path. -/
def constructPath (C : Coding α ι) (goal : α) (prev : Nat → Option ι) : R (Option (List α)) := do
  let i ← C.index goal
  match ← arrGet NODE_MAX prev i with
  | none => .ok none
  | some id => do
    let current ← C.ofId id
    let path ← pushCap PATH_MAX [] goal
    let path ← pushCap PATH_MAX path current
    let path ← backLoop C prev (PATH_MAX + 1) current path
    .ok (some path.reverse)

/-- A number of rounds that the main loop never reaches. -/
def FUEL : Nat := EDGE_MAX * NODE_MAX + 2

/-- `dijkstra.rs:48-111` `DijkstraSolver::solve`; `none` is `Err(UnfeasibleError)`. -/
def solve (G : Graph α) (C : Coding α ι) (Q : Queue ι) (MAX : Nat) (start : α) (goals : List α) :
    R (Option (List α)) :=
  match goals with
  | [] => .error .index
  | goal0 :: _ => do
    let c ← G.distance start goal0
    let i ← C.index start
    let dist ← arrSet NODE_MAX (fun _ => MAX) i c
    let id ← C.id start
    let s : St Q := ⟨dist, fun _ => none, Q.empty⟩
    let s ← s.push (c, id)
    let (goal, s) ← mainLoop G C Q MAX goals goal0 FUEL s
    match goal with
    | none => .ok none
    | some goal => constructPath C goal s.prev

end Dijkstra
end Verif.Old
