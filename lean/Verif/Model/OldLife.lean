import Verif.Model.OldRun
import Verif.Model.OldSearch
/-!
# Modes, operators and administrator of the former core crate

`obsolete/mousecore/src/administrator.rs`, `operators/tracking.rs`, `defaults/operator.rs`, `defaults/operator_store.rs`,
`defaults/state.rs`. The agent (trajectories, robot) is represented by what it answers (`Agent`); the walls by the `Belief` that the mazes
have at the moment of a call; the robot state and the other resources passed on by `deconstruct` are left out. The waiting loops of
`mode_select` are represented by the mode that is selected.
-/
namespace Verif.Old.Life
open Verif Verif.Run Verif.Old Verif.Old.FastRun

/-- `defaults/operator_store.rs:17-25` `Mode`. -/
inductive Mode where
  | search (count : Nat) | returnSetup (count : Nat) | ret (count : Nat) | runSetup (count : Nat) | run (count : Nat) | idle
  deriving DecidableEq, Repr

/-- `defaults/operator_store.rs:27-46` `Mode::successor`. -/
def Mode.successor : Mode → Mode
  | .search count => .returnSetup count
  | .returnSetup count => .ret count
  | .ret count => if count = 0 then .idle else .runSetup (count - 1)
  | .runSetup count => .run count
  | .run count => .returnSetup count
  | .idle => .idle

/-- The parts of `defaults/config.rs:156-172` used by the commanders: the goal is at `(gx, gy)`, the goal of the return at `(rx, ry)`. -/
structure Config where
  search : Search.Config
  gx : Nat
  gy : Nat
  rx : Nat
  ry : Nat

variable (C : Config)

/-- The plans of a fast run. -/
def Config.solveGoal (b : Belief) : Solve := solveIn C.search.W b C.search.convert C.search.Q C.search.MAX C.gx C.gy

/-- The plans of a return. -/
def Config.solveReturn (b : Belief) : Solve := solveIn C.search.W b C.search.convert C.search.Q C.search.MAX C.rx C.ry

/-- The commands of the commanders. -/
inductive Command where
  | search (n : Node) (k : SearchKind)
  | rotate (n : Node) (k : RotationKind)
  | run (c : RunCommand)
  deriving DecidableEq, Repr

/-- The results of `next_command` (`operators/tracking.rs:22-27`). -/
inductive Answer where
  | command (c : Command)
  | finish
  | waiting
  | other
  deriving DecidableEq, Repr

/-- `defaults/operator.rs:22-52` `Operators`, each with its commander. -/
inductive Operator where
  | search (c : Search.Commander)
  | returnSetup (c : SetupCommander)
  | ret (c : RunCommander)
  | runSetup (c : SetupCommander)
  | run (c : RunCommander)

/-- The node in the state after `deconstruct`. -/
def Operator.current : Operator → Node
  | .search c => c.current
  | .returnSetup c => c.current
  | .ret c => c.current
  | .runSetup c => c.current
  | .run c => c.current

/-- The reply of a setup commander. -/
def setupAnswer : Reply (Node × RotationKind) → Answer
  | .command (n, k) => .command (.rotate n k)
  | .finish => .finish
  | .conversionError => .other

/-- The reply of a run commander. -/
def runAnswer : Reply RunCommand → Answer
  | .command c => .command (.run c)
  | .finish => .finish
  | .conversionError => .other

/-- The reply of the search commander. -/
def searchAnswer : Search.Reply → Answer
  | .command n k => .command (.search n k)
  | .waiting => .waiting
  | .finish => .finish

/-- `next_command` of the commander of an operator. -/
def Operator.next (b : Belief) : Operator → R (Answer × Operator)
  | .search c => do
    let (r, c) ← Search.nextCommand C.search b c
    return (searchAnswer r, .search c)
  | .returnSetup c => return (setupAnswer c.nextCommand.1, .returnSetup c.nextCommand.2)
  | .ret c => do
    let (r, c) ← c.nextCommand
    return (runAnswer r, .ret c)
  | .runSetup c => return (setupAnswer c.nextCommand.1, .runSetup c.nextCommand.2)
  | .run c => do
    let (r, c) ← c.nextCommand
    return (runAnswer r, .run c)

/-- What the agent answers during a call: `is_full`, `is_empty`, and whether `set_command` succeeds. -/
structure Agent where
  full : Option Bool
  empty : Option Bool
  accepts : Bool

/-- The results of `run` of an operator: completed, `Incompleted`, or an error. -/
inductive Outcome where
  | done | incompleted | failed
  deriving DecidableEq, Repr

/-- `operators/tracking.rs:116-146` `TrackingOperator::run`, with the command set, if any. -/
def Operator.step (b : Belief) (a : Agent) (op : Operator) : R (Outcome × List Command × Operator) :=
  match a.full with
  | none => .ok (.incompleted, [], op)
  | some true => .ok (.incompleted, [], op)
  | some false => do
    match ← op.next C b with
    | (.command c, op) => return if a.accepts then (.incompleted, [c], op) else (.failed, [], op)
    | (.finish, op) => return (if a.empty = some true then .done else .incompleted, [], op)
    | (.waiting, op) => return (.incompleted, [], op)
    | (.other, op) => return (.failed, [], op)

/-- `operators/tracking.rs:51-57` `TrackingOperator::new`: the first command is set. -/
def Operator.new (b : Belief) (a : Agent) (op : Operator) : R (Command × Operator) := do
  match ← op.next C b with
  | (.command c, op) => if a.accepts then return (c, op) else .error .unreachable
  | _ => .error .unreachable

/-- `defaults/operator_store.rs:121-146` the construction of an operator at a node; `none` is `UnsupportedMode`. -/
def construct (b : Belief) (a : Agent) (node : Node) : Mode → R (Option (Command × Operator))
  | .search _ => do return some (← Operator.new C b a (.search (.new node)))
  | .returnSetup _ => do
    let c ← SetupCommander.new (C.solveReturn b) node
    return some (← Operator.new C b a (.returnSetup c))
  | .ret _ => do
    let c ← RunCommander.new (C.solveReturn b) node
    return some (← Operator.new C b a (.ret c))
  | .runSetup _ => do
    let c ← SetupCommander.new (C.solveGoal b) node
    return some (← Operator.new C b a (.runSetup c))
  | .run _ => do
    let c ← RunCommander.new (C.solveGoal b) node
    return some (← Operator.new C b a (.run c))
  | .idle => return none

/-- `defaults/operator_store.rs:93-147` `exchange`: the node of the old operator has to be a run node (`defaults/state.rs:106-113`). -/
def exchange (b : Belief) (a : Agent) (op : Operator) (mode : Mode) : R (Option (Command × Operator)) :=
  match RunNode.ofNode op.current with
  | none => .error .unwrapNone
  | some node => construct C b a node mode

/-- `administrator.rs:66-73` `Administrator`; `interrupts` is whether the periodic interrupt is on. -/
structure Admin where
  operator : Option Operator
  mode : Mode
  select : Bool
  interrupts : Bool

/-- The results of `Administrator::run`. -/
inductive Result where
  | ok | operatorError | unsupported
  deriving DecidableEq, Repr

/-- `administrator.rs:136-148` `exchange_operator`. -/
def Admin.exchangeOperator (b : Belief) (a : Agent) (s : Admin) (mode : Mode) : R (Bool × List Command × Admin) :=
  match s.operator with
  | none => .error .unwrapNone
  | some op => do
    match ← exchange C b a op mode with
    | none => return (false, [], { s with operator := none })
    | some (c, op) => return (true, [c], { s with operator := some op })

/-- What happens around a call of `run`: what the agent of the current operator and of a new one answer, what is known of the walls, and the
mode that is selected. -/
structure Moment where
  belief : Belief
  agent : Agent
  newAgent : Agent
  selected : Mode

/-- `administrator.rs:112-134` `Administrator::run`, `administrator.rs:150-169` `mode_select`. -/
def Admin.run (e : Moment) (s : Admin) : R (Result × List Command × Admin) :=
  if s.select then do
    let (ok, cs, s) ← Admin.exchangeOperator C e.belief e.newAgent { s with interrupts := false, mode := e.selected } e.selected
    return if ok then (.ok, cs, { s with select := false, interrupts := true }) else (.unsupported, cs, s)
  else
    match s.operator with
    | none => .error .unreachable
    | some op => do
      match ← op.step C e.belief e.agent with
      | (.incompleted, cs, op) => return (.ok, cs, { s with operator := some op })
      | (.failed, cs, op) => return (.operatorError, cs, { s with operator := some op })
      | (.done, cs, op) =>
        let mode := s.mode.successor
        let (ok, cs', s) ← Admin.exchangeOperator C e.belief e.newAgent { s with operator := some op, interrupts := false, mode := mode } mode
        return if ok then (.ok, cs ++ cs', { s with interrupts := true }) else (.unsupported, cs ++ cs', s)

/-- `administrator.rs:179-189` `Administrator::tick`, for the selector `enabled`; `ok` is whether the tick of the operator succeeds. -/
def Admin.tick (enabled ok : Bool) (s : Admin) : Bool × Admin :=
  if s.select then (true, s)
  else if s.operator.isSome && !ok then (false, s)
  else (true, { s with select := s.select || enabled })

end Verif.Old.Life
