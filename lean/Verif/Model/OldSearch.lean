import Verif.Model.OldPlan
/-!
# Search nodes and the search commander of the former core crate

The rest of `obsolete/mousecore/src/nodes.rs` and `mazes.rs`, the conversion of walls into search nodes in
`wall_manager.rs`, and `commanders/search.rs`. A call of the commander reads the wall manager; what it reads is a
`Belief`, which does not change during the call.
-/
namespace Verif.Old
open Verif
open Verif.Run (Posture Node SlalomKind SlalomDirection TrajectoryKind)

/-- `trajectory_generators/search.rs:24-32` `SearchKind`. -/
inductive SearchKind where
  | init | final | front | right | left | back
  deriving DecidableEq, Repr

/-- `nodes.rs:147-162` `Node::next`; `none` is an error. -/
def nodeNext (W : Nat) (n : Node) (route : SearchKind) : R (Option Node) :=
  match route with
  | .init | .final => relativeNode W n 0 1 .front .north
  | .front => relativeNode W n 0 2 .front .north
  | .right => relativeNode W n 1 1 .right .north
  | .left => relativeNode W n (-1) 1 .left .north
  | .back => relativeNode W n 0 0 .back .north

namespace SearchNode

/-- `nodes.rs:419-430` `SearchNode::is_valid_direction`. -/
def valid (x y : Nat) (direction : Posture) : Bool :=
  if (x ^^^ y) &&& 1 = 0 then false
  else if x &&& 1 = 1 then direction ∈ [.east, .west]
  else direction ∈ [.north, .south]

/-- `nodes.rs:538-552` `SearchNode::try_from`. -/
def ofNode (n : Node) : Option Node := if valid n.x n.y n.posture then some n else none

/-- `nodes.rs:486-489` `SearchNode::new`. -/
def new (W : Nat) (x y : Int) (direction : Posture) : Option Node := (nodeNew W x y direction).bind ofNode

/-- `nodes.rs:491-500` `SearchNode::relative`. -/
def relative (W : Nat) (n : Node) (dx dy : Int) (ddir : Rel) (base : Posture) : R (Option Node) := do
  return (← relativeNode W n dx dy ddir base).bind ofNode

/-- `nodes.rs:443-470` `SearchNode::as_index`. -/
def index (W : Nat) (n : Node) : R Nat := do
  let direction ←
    if n.x &&& 1 = 0 then
      if n.y &&& 1 = 0 then .error .unreachable
      else
        match n.posture with
        | .north => .ok 0 | .south => .ok 1 | _ => .error .unreachable
    else if n.y &&& 1 = 0 then
      match n.posture with
      | .east => .ok 0 | .west => .ok 1 | _ => .error .unreachable
    else .error .unreachable
  return n.x ||| (n.y <<< yOffset W) ||| (direction <<< dirOffset W)

/-- `nodes.rs:472-482` `Wall::from(SearchNode)`. -/
def toWall (n : Node) : Wall := ⟨n.x / 2, n.y / 2, n.x &&& 1 = 0⟩

/-- `nodes.rs:508-526` the closure `update`. -/
def update (W : Nat) (n : Node) (succs : Bool) (dx dy : Int) (ddir : Rel) (p : Pattern) (list : List (List WallNode)) :
    R (List (List WallNode)) := do
  let (dx, dy) := if succs then (dx, dy) else (-dx, -dy)
  match ← relativeWall W n dx dy .north with
  | none => return list
  | some wall => do
    let m ← unwrap (← relative W n dx dy ddir .north)
    pushCap 4 list [.wall wall, .node m p]

/-- `nodes.rs:503-536` `SearchNode::neighbors`, `nodes.rs:564-577` `successors` and `predecessors`. -/
def neighbors (W : Nat) (n : Node) (succs : Bool) : R (List (List WallNode)) := do
  let list ← update W n succs 1 1 .right .search90 []
  let list ← update W n succs 0 2 .front (.straight 1) list
  let list ← update W n succs (-1) 1 .left .search90 list
  update W n succs 0 0 .back .spinBack list

/-- `nodes.rs:579-596` `SearchNode::route`; `none` is an error. -/
def route (n to : Node) : R (Option SearchKind) := do
  match ← difference n to .north with
  | (1, 1, .right) => return some .right
  | (0, 2, .front) => return some .front
  | (-1, 1, .left) => return some .left
  | (0, 0, .back) => return some .back
  | _ => return none

end SearchNode

/-- `wall_manager.rs:25-42` `<[SearchNode; 2]>::from(Wall)`. -/
def wallNodes (W : Nat) (w : Wall) : R (Node × Node) :=
  let (dx, dy, d1, d2) := if w.top then (0, 1, Posture.north, Posture.south) else (1, 0, Posture.east, Posture.west)
  match SearchNode.new W (w.x * 2 + dx : Nat) (w.y * 2 + dy : Nat) d1, SearchNode.new W (w.x * 2 + dx : Nat) (w.y * 2 + dy : Nat) d2 with
  | some a, some b => .ok (a, b)
  | _, _ => .error .unreachable

/-- `mazes.rs:202-224` `Maze` as a graph on `SearchNode`s. -/
def searchMaze (W : Nat) (blocked : Wall → Bool) (convert : Pattern → R Nat) : Graph Node where
  successors n := do gatherAll blocked convert (← SearchNode.neighbors W n true) []
  predecessors n := do gatherAll blocked convert (← SearchNode.neighbors W n false) []
  distance n m := do convert (← nodeDistance n m)

/-- `nodes.rs:360-376`, `nodes.rs:443-470` -/
def searchCoding (W : Nat) : Coding Node Nat where
  index := SearchNode.index W
  id := nodeId W
  ofId := nodeOfId W

/-! ## Walls on a path -/

/-- The capacity of the vector of walls, `nodes.rs:1018`. -/
def WALLS_MAX : Nat := 2 * WIDTH_MAX

/-- `nodes.rs:1028-1032`, `nodes.rs:1062-1066`, `nodes.rs:1088-1092` the closures `add`, called for each displacement of the list. -/
def addWalls (W : Nat) (n : Node) (base : Posture) : List (Int × Int) → List Wall → R (List Wall)
  | [], acc => .ok acc
  | (dx, dy) :: rest, acc => do
    match ← relativeWall W n dx dy base with
    | none => addWalls W n base rest acc
    | some w => do
      let acc ← pushCap WALLS_MAX acc w
      addWalls W n base rest acc

/-- `nodes.rs:1017-1114` `RunNode::walls_between`. -/
def wallsBetween (W : Nat) (n m : Node) : R (List Wall) :=
  match location n with
  | .cell => do
    match ← difference n m .north with
    | (1, 2, .frontRight) | (2, 2, .right) => addWalls W n .north [(0, 1), (1, 2)] []
    | (2, 1, .backRight) | (2, 0, .back) => addWalls W n .north [(0, 1), (1, 2), (2, 1)] []
    | (-1, 2, .frontLeft) | (-2, 2, .left) => addWalls W n .north [(0, 1), (-1, 2)] []
    | (-2, 1, .backLeft) | (-2, 0, .back) => addWalls W n .north [(0, 1), (-1, 2), (-2, 1)] []
    | (0, y, .front) => addWalls W n .north ((List.range (Int.tdiv y 2).toNat).map fun dy : Nat => (0, 2 * (dy : Int) + 1)) []
    | _ => .error .unreachable
  | .pillar => .error .unreachable
  | l =>
    if (l = .horizontalBound ∧ n.posture ∈ [Posture.northEast, .southWest]) ∨
        (l = .verticalBound ∧ n.posture ∈ [Posture.southEast, .northWest]) then do
      match ← difference n m .northEast with
      | (2, 1, .frontRight) => addWalls W n .northEast [(1, 1)] []
      | (2, 0, .right) | (2, -1, .backRight) => addWalls W n .northEast [(1, 1), (2, 0)] []
      | (x, y, .front) =>
        if x = y then addWalls W n .northEast ((List.range x.toNat).map fun dx : Nat => ((dx : Int) + 1, (dx : Int) + 1)) []
        else .error .unreachable
      | _ => .error .unreachable
    else if (l = .verticalBound ∧ n.posture ∈ [Posture.northEast, .southWest]) ∨
        (l = .horizontalBound ∧ n.posture ∈ [Posture.southEast, .northWest]) then do
      match ← difference n m .northEast with
      | (1, 2, .frontLeft) => addWalls W n .northEast [(1, 1)] []
      | (0, 2, .left) | (-1, 2, .backLeft) => addWalls W n .northEast [(1, 1), (0, 2)] []
      | (x, y, .front) =>
        if x = y then addWalls W n .northEast ((List.range x.toNat).map fun dx : Nat => ((dx : Int) + 1, (dx : Int) + 1)) []
        else .error .unreachable
      | _ => .error .unreachable
    else .error .unreachable

/-- What a call of the commander reads from the wall manager: `is_checked`, `exists`, and for which walls `try_lock` fails. -/
structure Belief where
  checked : Wall → Bool
  present : Wall → Bool
  locked : Wall → Bool

/-- `mazes.rs:255-261` the inner loop of `find_unchecked_nodes`. -/
def uncheckedOf (W : Nat) (b : Belief) : List Wall → List Node → R (List Node)
  | [], acc => .ok acc
  | w :: rest, acc =>
    if b.checked w then uncheckedOf W b rest acc
    else do
      let (n1, n2) ← wallNodes W w
      let acc ← pushCap NODE_MAX acc n1
      let acc ← pushCap NODE_MAX acc n2
      uncheckedOf W b rest acc

/-- `mazes.rs:251-265` `Maze::find_unchecked_nodes`, for the rest of the path. -/
def uncheckedNodes (W : Nat) (b : Belief) : List Node → List Node → R (List Node)
  | n :: m :: rest, acc => do
    let walls ← wallsBetween W n m
    let acc ← uncheckedOf W b walls acc
    uncheckedNodes W b (m :: rest) acc
  | _, acc => .ok acc

/-- `mazes.rs:251-265` `Maze::find_unchecked_nodes`; `path.len() - 1` overflows on the empty path. -/
def findUnchecked (W : Nat) (b : Belief) (path : List Node) : R (List Node) :=
  match path with
  | [] => .error .overflow
  | path => uncheckedNodes W b path []

/-- `mazes.rs:273-283` `Maze::is_available`. -/
def isAvailable (b : Belief) (n : Node) : Option Bool :=
  let w := SearchNode.toWall n
  if b.locked w then none
  else if b.checked w then some (!b.present w) else none

/-! ## The commander -/

namespace Search

/-- `commanders/search.rs:49` -/
def CANDIDATES_MAX : Nat := 4

/-- The state of the loops of `next_node_candidates`. -/
structure St (Q : Queue Nat) where
  dist : Nat → Nat
  heap : Q.H

/-- The push; the `unreachable!` on a full heap is the panic `capacity`. -/
def St.push {Q : Queue Nat} (s : St Q) (e : Nat × Nat) : R (St Q) :=
  match Q.push s.heap e with
  | some h => .ok { s with heap := h }
  | none => .error .capacity

/-- `commanders/search.rs:313-319` the nodes to be checked are the sources. -/
def seeds (C : Coding Node Nat) (Q : Queue Nat) : List Node → St Q → R (St Q)
  | [], s => .ok s
  | n :: rest, s => do
    let i ← C.index n
    let dist ← arrSet NODE_MAX s.dist i 0
    let id ← C.id n
    let s ← { s with dist := dist }.push (0, id)
    seeds C Q rest s

/-- `commanders/search.rs:325-337` relaxation of the edges into a node. -/
def relax (C : Coding Node Nat) (Q : Queue Nat) (MAX cost : Nat) : List (Node × Nat) → St Q → R (St Q)
  | [], s => .ok s
  | (next, edge) :: rest, s => do
    let cost' := Run.satAdd MAX cost edge
    let i ← C.index next
    let d ← arrGet NODE_MAX s.dist i
    if cost' < d then do
      let dist ← arrSet NODE_MAX s.dist i cost'
      let id ← C.id next
      let s ← { s with dist := dist }.push (cost', id)
      relax C Q MAX cost rest s
    else relax C Q MAX cost rest s

/-- `commanders/search.rs:320-338` the main loop. -/
def loop (G : Graph Node) (C : Coding Node Nat) (Q : Queue Nat) (MAX : Nat) (cands : List (Node × Nat)) : Nat → St Q → R (St Q)
  | 0, _ => .error .diverge
  | fuel + 1, s =>
    match Q.pop s.heap with
    | none => .ok s
    | some ((cost, id), h) => do
      let s := { s with heap := h }
      let node ← C.ofId id
      if cands.any (fun c => c.1 == node) then loop G C Q MAX cands fuel s
      else do
        let edges ← G.predecessors node
        let s ← relax C Q MAX cost edges s
        loop G C Q MAX cands fuel s

/-- A number of rounds that the main loop never reaches. -/
def FUEL : Nat := EDGE_MAX * NODE_MAX + HEAP_MAX + 1

/-- `commanders/search.rs:340-345` the total costs of the candidates. -/
def totals (C : Coding Node Nat) (MAX : Nat) (dist : Nat → Nat) : List (Node × Nat) → R (List (Node × Nat))
  | [] => .ok []
  | (n, c) :: rest => do
    let i ← C.index n
    let d ← arrGet NODE_MAX dist i
    let rest ← totals C MAX dist rest
    return (n, Run.satAdd MAX c d) :: rest

/-- The configuration of the commander: maze width, largest cost, costs, heap, the unstable sort, start and goals. -/
structure Config where
  W : Nat
  MAX : Nat
  convert : Pattern → R Nat
  Q : Queue Nat
  sort : List (Node × Nat) → List (Node × Nat)
  start : Node
  goals : List Node

variable (P : Config)

/-- `commanders/search.rs:371-373` `compute_shortest_path`; `none` is an error. -/
def shortestPath (b : Belief) : R (Option (List Node)) :=
  Dijkstra.solve (runMaze P.W b.present P.convert) (runCoding P.W) P.Q P.MAX P.start P.goals

/-- `commanders/search.rs:294-354` `next_node_candidates`. -/
def nextCandidates (b : Belief) (current : Node) : R (Option (List Node)) := do
  match ← shortestPath P b with
  | none => return none
  | some path => do
    let checkers ← findUnchecked P.W b path
    let cands ← (searchMaze P.W b.present P.convert).successors current
    if CANDIDATES_MAX < cands.length then .error .capacity
    else do
      let s ← seeds (searchCoding P.W) P.Q checkers ⟨fun _ => P.MAX, P.Q.empty⟩
      let s ← loop (searchMaze P.W b.present P.convert) (searchCoding P.W) P.Q P.MAX cands FUEL s
      let l ← totals (searchCoding P.W) P.MAX s.dist cands
      let l := l.filter fun e => decide (e.2 < P.MAX)
      if l.isEmpty then return none
      else return some ((P.sort l).map (·.1))

/-- `commanders/search.rs:41-47` -/
inductive Phase where
  | waiting | solving | initial | final
  deriving DecidableEq, Repr

/-- `commanders/search.rs:53-64` what changes in `SearchCommander`. -/
structure Commander where
  current : Node
  phase : Phase
  candidates : List Node
  deriving DecidableEq, Repr

/-- `commanders/search.rs:72-92` `SearchCommander::new`. -/
def Commander.new (current : Node) : Commander := ⟨current, .initial, []⟩

/-- The results of `next_command`. -/
inductive Reply where
  | command (n : Node) (k : SearchKind)
  | waiting
  | finish
  deriving DecidableEq, Repr

/-- `commanders/search.rs:254-263` the first available candidate: `none` if one has to be waited for. -/
def choose (b : Belief) : List Node → Option (Option Node)
  | [] => some none
  | n :: rest =>
    match isAvailable b n with
    | none => none
    | some true => some (some n)
    | some false => choose b rest

/-- `commanders/search.rs:214-280` `next_command`, with the routes `Init` and `Final` of the default configuration. -/
def nextCommand (b : Belief) (s : Commander) : R (Reply × Commander) :=
  match s.phase with
  | .initial => do
    match ← nodeNext P.W s.current .init with
    | none => .error .unreachable
    | some next => return (.command s.current .init, { s with current := next, phase := .solving })
  | .final => return (.finish, s)
  | .solving =>
    match SearchNode.ofNode s.current with
    | none => .error .unreachable
    | some cur => do
      match ← nextCandidates P b cur with
      | some cands => return (.waiting, { s with candidates := cands, phase := .waiting })
      | none => do
        match ← nodeNext P.W s.current .final with
        | none => .error .unreachable
        | some next => return (.command s.current .final, { s with current := next, phase := .final })
  | .waiting =>
    if s.candidates.isEmpty then return (.waiting, s)
    else
      match choose b s.candidates with
      | none => return (.waiting, s)
      | some none => .error .unreachable
      | some (some next) =>
        match SearchNode.ofNode s.current with
        | none => .error .unreachable
        | some cur => do
          match ← SearchNode.route cur next with
          | none => .error .unreachable
          | some kind => return (.command s.current kind, { current := next, phase := .solving, candidates := [] })

end Search
end Verif.Old
