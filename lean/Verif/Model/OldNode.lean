import Verif.Model.OldSolver
/-!
# Nodes and mazes of the former core crate

`obsolete/mousecore/src/nodes.rs`, `utils/direction.rs`, `mazes.rs`, and the type `Wall` of `wall_manager.rs`. The const
generic `N` is the argument `W`. `AbsoluteDirection` has the constructors of `Run.Posture` and is that type; a node has
natural numbers as coordinates, the checks for negative `i8` values are made where nodes and walls are created.
-/
namespace Verif.Old
open Verif
open Verif.Run (Posture Node SlalomKind SlalomDirection)

/-- `utils/direction.rs:44-56` `RelativeDirection`. -/
inductive Rel where
  | front | frontRight | right | backRight | back | backLeft | left | frontLeft
  deriving DecidableEq, Repr

/-- `utils/direction.rs:59-144` `AbsoluteDirection::rotate`. -/
def rotate (self : Posture) (direction : Rel) : Posture :=
  match direction with
  | .front => self
  | .frontRight =>
    match self with
    | .north => .northEast | .northEast => .east | .east => .southEast | .southEast => .south
    | .south => .southWest | .southWest => .west | .west => .northWest | .northWest => .north
  | .right =>
    match self with
    | .north => .east | .northEast => .southEast | .east => .south | .southEast => .southWest
    | .south => .west | .southWest => .northWest | .west => .north | .northWest => .northEast
  | .backRight =>
    match self with
    | .north => .southEast | .northEast => .south | .east => .southWest | .southEast => .west
    | .south => .northWest | .southWest => .north | .west => .northEast | .northWest => .east
  | .back =>
    match self with
    | .north => .south | .northEast => .southWest | .east => .west | .southEast => .northWest
    | .south => .north | .southWest => .northEast | .west => .east | .northWest => .southEast
  | .backLeft =>
    match self with
    | .north => .southWest | .northEast => .west | .east => .northWest | .southEast => .north
    | .south => .northEast | .southWest => .east | .west => .southEast | .northWest => .south
  | .left =>
    match self with
    | .north => .west | .northEast => .northWest | .east => .north | .southEast => .northEast
    | .south => .east | .southWest => .southEast | .west => .south | .northWest => .southWest
  | .frontLeft =>
    match self with
    | .north => .northWest | .northEast => .north | .east => .northEast | .southEast => .east
    | .south => .southEast | .southWest => .south | .west => .southWest | .northWest => .west

/-- `utils/direction.rs:146-238` `AbsoluteDirection::relative`, `RelativeDirection::relative`. -/
def relativeDir (from_ to : Posture) : Rel :=
  match from_ with
  | .north =>
    match to with
    | .north => .front | .northEast => .frontRight | .east => .right | .southEast => .backRight
    | .south => .back | .southWest => .backLeft | .west => .left | .northWest => .frontLeft
  | .northEast =>
    match to with
    | .north => .frontLeft | .northEast => .front | .east => .frontRight | .southEast => .right
    | .south => .backRight | .southWest => .back | .west => .backLeft | .northWest => .left
  | .east =>
    match to with
    | .north => .left | .northEast => .frontLeft | .east => .front | .southEast => .frontRight
    | .south => .right | .southWest => .backRight | .west => .back | .northWest => .backLeft
  | .southEast =>
    match to with
    | .north => .backLeft | .northEast => .left | .east => .frontLeft | .southEast => .front
    | .south => .frontRight | .southWest => .right | .west => .backRight | .northWest => .back
  | .south =>
    match to with
    | .north => .back | .northEast => .backLeft | .east => .left | .southEast => .frontLeft
    | .south => .front | .southWest => .frontRight | .west => .right | .northWest => .backRight
  | .southWest =>
    match to with
    | .north => .backRight | .northEast => .back | .east => .backLeft | .southEast => .left
    | .south => .frontLeft | .southWest => .front | .west => .frontRight | .northWest => .right
  | .west =>
    match to with
    | .north => .right | .northEast => .backRight | .east => .back | .southEast => .backLeft
    | .south => .left | .southWest => .frontLeft | .west => .front | .northWest => .frontRight
  | .northWest =>
    match to with
    | .north => .frontRight | .northEast => .right | .east => .backRight | .southEast => .back
    | .south => .backLeft | .southWest => .left | .west => .frontLeft | .northWest => .front

/-- `nodes.rs:19-31` `Pattern`. -/
inductive Pattern where
  | straight (n : Nat)
  | straightDiagonal (n : Nat)
  | search90 | fastRun45 | fastRun90 | fastRun135 | fastRun180 | fastRunDiagonal90 | spinBack
  deriving DecidableEq, Repr

/-- `wall_manager.rs:18-23` `Wall`. -/
structure Wall where
  x : Nat
  y : Nat
  top : Bool
  deriving DecidableEq, Repr

/-- `wall_manager.rs:88-98` `Wall::new`. -/
def Wall.new (W x y : Nat) (top : Bool) : Option Wall :=
  if x ≤ W - 1 ∧ y ≤ W - 1 then some ⟨x, y, top⟩ else none

/-- `wall_manager.rs:64-66`, `wall_manager.rs:78-86` `Wall::as_index`. -/
def Wall.index (W : Nat) (w : Wall) : Nat :=
  (w.x <<< (trailingZeros W + 1)) ||| (w.y <<< 1) ||| w.top.toNat

/-- The result of an addition or subtraction of `i8` values, with overflow checks. -/
def i8 (v : Int) : R Int := if -128 ≤ v ∧ v ≤ 127 then .ok v else .error .overflow

/-- `nodes.rs:270-280` `Node::new`, `Node::max`. -/
def nodeNew (W : Nat) (x y : Int) (direction : Posture) : Option Node :=
  if x < 0 ∨ y < 0 ∨ x > 2 * W - 1 ∨ y > 2 * W - 1 then none else some ⟨x.toNat, y.toNat, direction⟩

/-- `nodes.rs:291-298`, `nodes.rs:321-328` the displacement in the frame of the maze. -/
def turnInto (base dir : Posture) (dx dy : Int) : R (Int × Int) :=
  match relativeDir base dir with
  | .front => .ok (dx, dy)
  | .right => .ok (dy, -dx)
  | .back => .ok (-dx, -dy)
  | .left => .ok (-dy, dx)
  | _ => .error .unreachable

/-- `nodes.rs:282-300` `Node::relative`. -/
def relativeNode (W : Nat) (n : Node) (dx dy : Int) (ddir : Rel) (base : Posture) : R (Option Node) := do
  let (dx, dy) ← turnInto base n.posture dx dy
  let x ← i8 (n.x + dx)
  let y ← i8 (n.y + dy)
  return nodeNew W x y (rotate n.posture ddir)

/-- `nodes.rs:304-348` `Node::relative_wall`; `none` is `Err(RelativeWallError)`. -/
def relativeWall (W : Nat) (n : Node) (dx dy : Int) (base : Posture) : R (Option Wall) := do
  let (dx, dy) ← turnInto base n.posture dx dy
  let x ← i8 (n.x + dx)
  let y ← i8 (n.y + dy)
  if x < 0 ∨ y < 0 then return none
  else
    let x := x.toNat
    let y := y.toNat
    if (x ^^^ y) &&& 1 = 0 then return none
    else if x &&& 1 = 1 then return Wall.new W (x / 2) (y / 2) false
    else return Wall.new W (x / 2) (y / 2) true

/-- `nodes.rs:253-266` `Node::difference`. -/
def difference (n m : Node) (base : Posture) : R (Int × Int × Rel) := do
  let dx ← i8 ((m.x : Int) - n.x)
  let dy ← i8 ((m.y : Int) - n.y)
  let (dx, dy) ← match relativeDir base n.posture with
    | .front => .ok (dx, dy)
    | .right => .ok (-dy, dx)
    | .back => .ok (-dx, -dy)
    | .left => .ok (dy, -dx)
    | _ => .error .unreachable
  return (dx, dy, relativeDir n.posture m.posture)

/-- `nodes.rs:192-198` `Location`. -/
inductive Location where
  | cell | verticalBound | horizontalBound | pillar
  deriving DecidableEq, Repr

/-- `nodes.rs:237-251` `Node::location`. -/
def location (n : Node) : Location :=
  if n.x &&& 1 = 0 then
    if n.y &&& 1 = 0 then .cell else .horizontalBound
  else if n.y &&& 1 = 0 then .verticalBound
  else .pillar

/-- `nodes.rs:136-145` `Node::distance`. -/
def nodeDistance (n m : Node) : R Pattern := do
  let dx ← i8 ((n.x : Int) - m.x)
  let dy ← i8 ((n.y : Int) - m.y)
  return .straight (max dx.natAbs dy.natAbs / 2)

/-! ## Identifiers and indices -/

/-- `nodes.rs:205-211` `y_offset`, `direction_offset`; the same for the three node types. -/
def yOffset (W : Nat) : Nat := trailingZeros (W * 2)
def dirOffset (W : Nat) : Nat := 2 * trailingZeros (W * 2)
/-- `nodes.rs:213-223` the masks. -/
def maskX (W : Nat) : Nat := W * 2 - 1

/-- `nodes.rs:105-119` `Node::as_id`; the identifier is the `u16` value. -/
def nodeId (W : Nat) (n : Node) : R Nat :=
  let value := (((n.x ||| (n.y <<< yOffset W) ||| (n.posture.toU8 <<< dirOffset W)) % 65536) <<< 1) % 65536 + 1
  if value < 65536 then .ok value else .error .overflow

/-- `nodes.rs:121-134` `Node::from(NodeId)`. -/
def nodeOfId (W value : Nat) : R Node := do
  let value := value >>> 1
  let dir ← Posture.fromU8 ((value >>> dirOffset W) &&& 7)
  return ⟨value &&& maskX W, (value >>> yOffset W) &&& maskX W, dir⟩

namespace RunNode

/-- `nodes.rs:753-765` `RunNode::is_valid_direction`. -/
def valid (x y : Nat) (direction : Posture) : Bool :=
  if (x ^^^ y) &&& 1 = 1 then direction ∈ [.northEast, .southEast, .southWest, .northWest]
  else if (x ||| y) &&& 1 = 0 then direction ∈ [.north, .east, .south, .west]
  else false

/-- `nodes.rs:979-993` `RunNode::try_from`. -/
def ofNode (n : Node) : Option Node := if valid n.x n.y n.posture then some n else none

/-- `nodes.rs:769-773` `RunNode::new`. -/
def new (W : Nat) (x y : Int) (direction : Posture) : Option Node := (nodeNew W x y direction).bind ofNode

/-- `nodes.rs:775-784` `RunNode::relative`. -/
def relative (W : Nat) (n : Node) (dx dy : Int) (ddir : Rel) (base : Posture) : R (Option Node) := do
  return (← relativeNode W n dx dy ddir base).bind ofNode

/-- `nodes.rs:697-725` `RunNode::as_index`. -/
def index (W : Nat) (n : Node) : R Nat := do
  let direction ←
    if (n.x ^^^ n.y) &&& 1 = 1 then
      match n.posture with
      | .northEast => .ok 0 | .southEast => .ok 1 | .southWest => .ok 2 | .northWest => .ok 3
      | _ => .error .unreachable
    else if (n.x ||| n.y) &&& 1 = 0 then
      match n.posture with
      | .north => .ok 0 | .east => .ok 1 | .south => .ok 2 | .west => .ok 3
      | _ => .error .unreachable
    else .error .unreachable
  return n.x ||| (n.y <<< yOffset W) ||| (direction <<< dirOffset W)

end RunNode

/-- `mazes.rs:42-46` `WallNode`, for nodes with a pattern. -/
inductive WallNode where
  | wall (w : Wall)
  | node (n : Node) (p : Pattern)
  deriving DecidableEq, Repr

/-- A statement `add_wall(&mut tmp, dx, dy)?` or `add_node(&mut tmp, dx, dy, ddir, pattern)?`. -/
inductive Stmt where
  | wall (dx dy : Int)
  | node (dx dy : Int) (ddir : Rel) (p : Pattern)

namespace RunNode

/-- `nodes.rs:808-856` `add_wall_fn`, `add_node_fn` and a sequence of such statements: the list under construction,
and whether all statements succeeded. -/
def execute (W : Nat) (n : Node) (isSucc : Bool) (base : Posture) : List Stmt → List WallNode → R (List WallNode × Bool)
  | [], tmp => .ok (tmp, true)
  | .wall dx dy :: rest, tmp => do
    let (dx, dy) := if isSucc then (dx, dy) else (-dx, -dy)
    match ← relativeWall W n dx dy base with
    | none => return (tmp, false)
    | some w => do
      let tmp ← pushCap EDGE_MAX tmp (.wall w)
      execute W n isSucc base rest tmp
  | .node dx dy ddir p :: rest, tmp => do
    let (dx, dy) := if isSucc then (dx, dy) else (-dx, -dy)
    match ← relative W n dx dy ddir base with
    | none => return (tmp, false)
    | some m => do
      let tmp ← pushCap EDGE_MAX tmp (.node m p)
      execute W n isSucc base rest tmp

/-- A block of statements whose outcome is not looked at. -/
def block (W : Nat) (n : Node) (isSucc : Bool) (base : Posture) (l : List Stmt) : R (List WallNode) := do
  let (tmp, _) ← execute W n isSucc base l []
  return tmp

/-- A block `for i in 1.. { .. }` that ends at the first failing statement; `rounds` is the number of rounds before the
`i8` arithmetic overflows. -/
def endless (W : Nat) (n : Node) (isSucc : Bool) (base : Posture) (rounds : Nat) (body : Nat → List Stmt) :
    R (List WallNode) := do
  let (tmp, ok) ← execute W n isSucc base ((List.range rounds).flatMap fun i => body (i + 1)) []
  if ok then .error .overflow else return tmp

/-- `nodes.rs:858-908` `cell_neighbors`. -/
def cellNeighbors (W : Nat) (n : Node) (isSucc : Bool) : R (List (List WallNode)) := do
  let right ← block W n isSucc .north
    [.wall 0 1, .wall 1 2, .node 1 2 .frontRight .fastRun45, .node 2 2 .right .fastRun90, .wall 2 1,
      .node 2 1 .backRight .fastRun135, .node 2 0 .back .fastRun180]
  let left ← block W n isSucc .north
    [.wall 0 1, .wall (-1) 2, .node (-1) 2 .frontLeft .fastRun45, .node (-2) 2 .left .fastRun90, .wall (-2) 1,
      .node (-2) 1 .backLeft .fastRun135, .node (-2) 0 .back .fastRun180]
  let straight ← endless W n isSucc .north 63 fun dy =>
    [.wall 0 (2 * dy - 1), .node 0 (2 * dy) .front (.straight dy)]
  return [right, left, straight]

/-- The diagonal straight of `left_diagonal_neighbors` and `right_diagonal_neighbors`. -/
def diagonal (W : Nat) (n : Node) (isSucc : Bool) : R (List WallNode) :=
  endless W n isSucc .northEast 127 fun i => [.wall i i, .node i i .front (.straightDiagonal i)]

/-- `nodes.rs:910-942` `left_diagonal_neighbors`. -/
def leftDiagonalNeighbors (W : Nat) (n : Node) (isSucc : Bool) : R (List (List WallNode)) := do
  let turn ← block W n isSucc .northEast
    [.wall 1 1, .node 1 2 .frontLeft .fastRun45, .wall 0 2, .node 0 2 .left .fastRunDiagonal90,
      .node (-1) 2 .backLeft .fastRun135]
  let straight ← diagonal W n isSucc
  return [turn, straight]

/-- `nodes.rs:944-976` `right_diagonal_neighbors`. -/
def rightDiagonalNeighbors (W : Nat) (n : Node) (isSucc : Bool) : R (List (List WallNode)) := do
  let turn ← block W n isSucc .northEast
    [.wall 1 1, .node 2 1 .frontRight .fastRun45, .wall 2 0, .node 2 0 .right .fastRunDiagonal90,
      .node 2 (-1) .backRight .fastRun135]
  let straight ← diagonal W n isSucc
  return [turn, straight]

/-- `nodes.rs:788-806` `RunNode::neighbors`, `nodes.rs:1003-1015` `successors` and `predecessors`. -/
def neighbors (W : Nat) (n : Node) (isSucc : Bool) : R (List (List WallNode)) :=
  match location n with
  | .cell => cellNeighbors W n isSucc
  | .horizontalBound =>
    match n.posture with
    | .northEast | .southWest => rightDiagonalNeighbors W n isSucc
    | .northWest | .southEast => leftDiagonalNeighbors W n isSucc
    | _ => .error .unreachable
  | .verticalBound =>
    match n.posture with
    | .northEast | .southWest => leftDiagonalNeighbors W n isSucc
    | .northWest | .southEast => rightDiagonalNeighbors W n isSucc
    | _ => .error .unreachable
  | .pillar => .error .unreachable

end RunNode

/-! ## Mazes -/

/-- `mazes.rs:160-171` one list of `_successors`: nodes up to the first blocked wall. -/
def gather (blocked : Wall → Bool) (convert : Pattern → R Nat) : List WallNode → List (Node × Nat) → R (List (Node × Nat))
  | [], acc => .ok acc
  | .wall w :: rest, acc => if blocked w then .ok acc else gather blocked convert rest acc
  | .node n p :: rest, acc => do
    let c ← convert p
    let acc ← pushCap EDGE_MAX acc (n, c)
    gather blocked convert rest acc

/-- `mazes.rs:150-200` `_successors` and `_predecessors`: all lists. -/
def gatherAll (blocked : Wall → Bool) (convert : Pattern → R Nat) : List (List WallNode) → List (Node × Nat) →
    R (List (Node × Nat))
  | [], acc => .ok acc
  | l :: rest, acc => do
    let acc ← gather blocked convert l acc
    gatherAll blocked convert rest acc

/-- `mazes.rs:202-239` `Maze` and `mazes.rs:333-369` `CheckedMaze` as graphs on `RunNode`s: a wall is blocked when it
exists, in a `CheckedMaze` also when it is not checked. The wall manager is not changed during a call. -/
def runMaze (W : Nat) (blocked : Wall → Bool) (convert : Pattern → R Nat) : Graph Node where
  successors n := do gatherAll blocked convert (← RunNode.neighbors W n true) []
  predecessors n := do gatherAll blocked convert (← RunNode.neighbors W n false) []
  distance n m := do convert (← nodeDistance n m)

/-- `nodes.rs:653-665` the identifiers of `RunNode` are those of `Node`. -/
def runCoding (W : Nat) : Coding Node Nat where
  index := RunNode.index W
  id := nodeId W
  ofId := nodeOfId W

end Verif.Old
