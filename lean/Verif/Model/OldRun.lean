import Verif.Model.OldPlan
import Verif.Model.OldSearch
/-!
# Fast runs and rotations of the former core crate

`RouteNode` and `RotationNode` of `RunNode` in `obsolete/mousecore/src/nodes.rs`, `commanders/run.rs`, `commanders/setup.rs`, and
`CheckedMaze` of `mazes.rs`. `RunKind` has the constructors of `Run.TrajectoryKind` and is that type. The wrappers `ReturnCommander`,
`ReturnSetupCommander` and `RunSetupCommander` only choose the goal.
-/
namespace Verif.Old.FastRun
open Verif Verif.Old
open Verif.Run (Posture Node SlalomKind SlalomDirection TrajectoryKind)

/-! ## Routes -/

/-- `nodes.rs:618-629` the routes from a cell. -/
def cellRoute (dx dy : Int) (d : Rel) : Option TrajectoryKind :=
  if dx = 1 ∧ dy = 2 ∧ d = .frontRight then some (.slalom .fastRun45 .right)
  else if dx = -1 ∧ dy = 2 ∧ d = .frontLeft then some (.slalom .fastRun45 .left)
  else if dx = 2 ∧ dy = 2 ∧ d = .right then some (.slalom .fastRun90 .right)
  else if dx = -2 ∧ dy = 2 ∧ d = .left then some (.slalom .fastRun90 .left)
  else if dx = 2 ∧ dy = 1 ∧ d = .backRight then some (.slalom .fastRun135 .right)
  else if dx = -2 ∧ dy = 1 ∧ d = .backLeft then some (.slalom .fastRun135 .left)
  else if dx = 2 ∧ dy = 0 ∧ d = .back then some (.slalom .fastRun180 .right)
  else if dx = -2 ∧ dy = 0 ∧ d = .back then some (.slalom .fastRun180 .left)
  else if dx = 0 ∧ d = .front ∧ dy > 0 then some (.straight (dy.toNat / 2))
  else none

/-- `nodes.rs:630-639` the routes from a wall. -/
def boundRoute (dx dy : Int) (d : Rel) : Option TrajectoryKind :=
  if dx = 2 ∧ dy = 1 ∧ d = .frontRight then some (.slalom .fastRun45Rev .right)
  else if dx = 2 ∧ dy = 0 ∧ d = .right then some (.slalom .fastRunDiagonal90 .right)
  else if dx = 2 ∧ dy = -1 ∧ d = .backRight then some (.slalom .fastRun135Rev .right)
  else if dx = 1 ∧ dy = 2 ∧ d = .frontLeft then some (.slalom .fastRun45Rev .left)
  else if dx = 0 ∧ dy = 2 ∧ d = .left then some (.slalom .fastRunDiagonal90 .left)
  else if dx = -1 ∧ dy = 2 ∧ d = .backLeft then some (.slalom .fastRun135Rev .left)
  else if d = .front ∧ dx = dy ∧ dx > 0 then some (.straightDiagonal dx.toNat)
  else none

/-- `nodes.rs:598-643` `RunNode::route`; `none` is `Err(RouteError)`. -/
def route (n m : Node) : R (Option TrajectoryKind) :=
  match location n with
  | .cell => do
    let (dx, dy, d) ← difference n m .north
    return cellRoute dx dy d
  | .horizontalBound | .verticalBound => do
    let (dx, dy, d) ← difference n m .northEast
    return boundRoute dx dy d
  | .pillar => .error .unreachable

/-! ## Run commander -/

/-- `trajectory_generators/run.rs:16-25` `RunState`. -/
inductive RunState where
  | acceleration | constant | deceleration1 | deceleration2
  deriving DecidableEq, Repr

/-- `commanders/run.rs:126-132` `RunCommand`. -/
structure RunCommand where
  node : Node
  route : TrajectoryKind
  state : RunState
  deriving DecidableEq, Repr

/-- What `next_command` returns: a command, or one of the errors (`operators/tracking.rs:22-27`, `commanders/run.rs:120-124`). -/
inductive Reply (Command : Type) where
  | command (c : Command)
  | finish
  | conversionError
  deriving DecidableEq, Repr

/-- `commanders/run.rs:14-24` `RunCommander`; the maze and the solver are not used after the construction. -/
structure RunCommander where
  current : Node
  path : List Node
  iter : Nat

/-- A solver for fixed goals and walls: `solve(&start, ..)`, `none` for an error. -/
abbrev Solve := Node → R (Option (List Node))

/-- `commanders/run.rs:34-47` `RunCommander::new`; `unimplemented!` is the panic `unreachable`. -/
def RunCommander.new (solve : Solve) (start : Node) : R RunCommander := do
  match ← solve start with
  | none => .error .unreachable
  | some path =>
    match path.getLast? with
    | none => .error .unreachable
    | some current => return ⟨current, path, 0⟩

/-- `commanders/run.rs:149-158` the state of a command; the length of the path is `len`. -/
def runState (iter len : Nat) : RunState :=
  if iter ≤ 1 then .acceleration
  else if iter + 2 = len then .deceleration2
  else if iter + 3 = len then .deceleration1
  else .constant

/-- `commanders/run.rs:144-167` `RunCommander::next_command`. -/
def RunCommander.nextCommand (c : RunCommander) : R (Reply RunCommand × RunCommander) := do
  let iter := c.iter
  if iter + 1 ≥ c.path.length then return (.finish, c)
  let state := runState iter c.path.length
  let c' := { c with iter := iter + 1 }
  match c.path[iter]?, c.path[iter + 1]? with
  | some n, some m =>
    match ← route n m with
    | some r => return (.command ⟨n, r, state⟩, c')
    | none => return (.conversionError, c')
  | _, _ => .error .index

/-! ## Setup commander -/

/-- `nodes.rs:1116-1123` `RotationKind`. -/
inductive RotationKind where
  | front | right | left | back
  deriving DecidableEq, Repr

/-- `nodes.rs:1125-1147` `RunNode::rotation_nodes`. -/
def rotationNodes (n : Node) : List (Node × RotationKind) :=
  [(⟨n.x, n.y, rotate n.posture .front⟩, .front), (⟨n.x, n.y, rotate n.posture .right⟩, .right),
    (⟨n.x, n.y, rotate n.posture .left⟩, .left), (⟨n.x, n.y, rotate n.posture .back⟩, .back)]

/-- `commanders/setup.rs:13-22` `SetupCommander`. -/
structure SetupCommander where
  current : Node
  command : Option (Node × RotationKind)

/-- `commanders/setup.rs:32-43` the loop of `SetupCommander::new`. -/
def SetupCommander.choose (solve : Solve) (current : Node) : List (Node × RotationKind) → R SetupCommander
  | [] => .error .unreachable
  | (node, kind) :: rest => do
    match ← solve node with
    | some _ => return ⟨node, some (current, kind)⟩
    | none => choose solve current rest

/-- `commanders/setup.rs:30-44` `SetupCommander::new`. -/
def SetupCommander.new (solve : Solve) (current : Node) : R SetupCommander :=
  SetupCommander.choose solve current (rotationNodes current)

/-- `commanders/setup.rs:180-186` `SetupCommander::next_command`. -/
def SetupCommander.nextCommand (c : SetupCommander) : Reply (Node × RotationKind) × SetupCommander :=
  match c.command with
  | some command => (.command command, { c with command := none })
  | none => (.finish, c)

/-! ## The solver in a checked maze -/

/-- `mazes.rs:333-356` the blocked walls of a `CheckedMaze`: those not checked, and those that exist. -/
def uncertain (b : Belief) (w : Wall) : Bool := !b.checked w || b.present w

/-- `solver.solve(&start, &goal.into(), &maze)` with a `CheckedMaze` and the goal at `(x, y)`. -/
def solveIn (W : Nat) (b : Belief) (convert : Pattern → R Nat) (Q : Queue Nat) (MAX x y : Nat) : Solve := fun start => do
  let goals ← goalsOf W x y
  Dijkstra.solve (runMaze W (uncertain b) convert) (runCoding W) Q MAX start goals

end Verif.Old.FastRun
