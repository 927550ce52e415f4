import Verif.Model.Basic
/-!
# Trajectory managers of the former core crate, under the interrupts

`obsolete/mousecore/src/trajectory_managers/tracking.rs`, `trajectory_managers/search.rs`, `agents/tracking.rs` and
`operators/tracking.rs`, at the level of single accesses to the lock of the queue: the main loop calls `run` of the operator again and again,
and the periodic interrupt calls `tick` between any two of its accesses. The interrupt runs to completion before the main loop goes on.

A trajectory is any iterator: a state with a function `step` that gives the next target and the next state (`none` when the trajectory is
over; it then stays over). The conversion of commands and the generation of trajectories are represented by the trajectory that results for
a command, the commander by the list of its answers. The counter of emergency ticks is unbounded.
-/
namespace Verif.Old.Traject
open Verif

variable {S T : Type}

/-- `trajectory_managers/tracking.rs:16` and `search.rs:19` `QUEUE_LENGTH`; the queue of `heapless::spsc` holds one element less. -/
def QUEUE_LENGTH : Nat := 4

/-- `trajectory_managers/tracking.rs:21-26` `TrajectoryManager`: the queue of trajectories, the front one first, and the last target. -/
structure Tracking (S T : Type) where
  queue : List S
  last : Option T

/-- `trajectory_managers/tracking.rs:91-100`, the loop: a target of the front trajectory, which is removed if it is over. -/
def Tracking.pop (step : S → Option (T × S)) : List S → Option T × List S
  | [] => (none, [])
  | s :: q =>
    match step s with
    | some (x, s') => (some x, s' :: q)
    | none => Tracking.pop step q

/-- `trajectory_managers/tracking.rs:89-113` `next`; `held` is whether the lock of the queue is held by the interrupted main loop. -/
def Tracking.next (step : S → Option (T × S)) (held : Bool) (m : Tracking S T) : R (T × Tracking S T) :=
  let r := if held then (none, m.queue) else Tracking.pop step m.queue
  match r.1 with
  | some x => .ok (x, { queue := r.2, last := some x })
  | none =>
    match m.last with
    | some x => .ok (x, { m with queue := r.2 })
    | none => .error .unreachable

/-- `trajectory_managers/search.rs:24-31` `TrajectoryManager`. -/
structure Searching (S T : Type) where
  queue : List S
  emergency : Option S
  counter : Nat
  last : T

/-- `Iterator::nth`: `n` targets are thrown away. -/
def nth (step : S → Option (T × S)) : Nat → S → Option (T × S)
  | 0, s => step s
  | n + 1, s =>
    match step s with
    | some (_, s') => nth step n s'
    | none => none

/-- `trajectory_managers/search.rs:112-123`, the loop up to the emergency. -/
def Searching.pop (step : S → Option (T × S)) (counter : Nat) : List S → Option T × List S
  | [] => (none, [])
  | s :: q =>
    match nth step counter s with
    | some (x, s') => (some x, s' :: q)
    | none => Searching.pop step counter q

/-- `trajectory_managers/search.rs:100-108` `get_or_init_emergency`, for the generator `emer` of emergency trajectories. -/
def Searching.getOrInit (step : S → Option (T × S)) (emer : T → S) (m : Searching S T) : Option T × Searching S T :=
  let (s, counter) := match m.emergency with
    | some s => (s, m.counter)
    | none => (emer m.last, 0)
  match step s with
  | some (x, s') => (some x, { m with emergency := some s', counter := counter + 1 })
  | none => (none, { m with emergency := some s, counter := counter + 1 })

/-- `trajectory_managers/search.rs:99-140` `next`. -/
def Searching.next (step : S → Option (T × S)) (emer : T → S) (held : Bool) (m : Searching S T) : T × Searching S T :=
  let r := if held then (none, m.queue) else Searching.pop step m.counter m.queue
  match r.1 with
  | some x => (x, { queue := r.2, emergency := none, counter := 0, last := x })
  | none =>
    match Searching.getOrInit step emer { m with queue := r.2 } with
    | (some x, m) => (x, { m with last := x })
    | (none, m) => (m.last, m)

/-- `agents/tracking.rs:9-18` the trait `TrajectoryManager` required by the agent, with access to the queue and the change of the queue. -/
structure Manager (M S T : Type) where
  queue : M → List S
  push : M → S → M
  next : Bool → M → R (T × M)

/-- `trajectory_managers/tracking.rs:63-123`. -/
def tracking (step : S → Option (T × S)) : Manager (Tracking S T) S T where
  queue m := m.queue
  push m s := { m with queue := m.queue ++ [s] }
  next := Tracking.next step

/-- `trajectory_managers/search.rs:74-150`. -/
def searching (step : S → Option (T × S)) (emer : T → S) : Manager (Searching S T) S T where
  queue m := m.queue
  push m s := { m with queue := m.queue ++ [s] }
  next held m := .ok (Searching.next step emer held m)

/-- The answers of the commander (`operators/tracking.rs:22-27`), a command being given by its trajectory. -/
inductive Answer (S : Type) where
  | command (s : S)
  | finish
  | waiting
  | other

/-- Where the main loop is: the accesses of `operators/tracking.rs:116-146` `run` and of `set_command` (`tracking.rs:73-87`,
`search.rs:84-97`) to the lock of the queue. -/
inductive Place (S : Type) where
  /-- before a call of `run` -/
  | start
  /-- in `is_full`, called by `run`; the lock is held -/
  | full
  /-- before the call of `next_command` -/
  | ask
  /-- in `is_full`, called by `set_command`; the lock is held -/
  | check (s : S)
  /-- before the blocking `lock` in `set_command` -/
  | enter (s : S)
  /-- the conversion and the generation in `set_command`; the lock is held -/
  | make (s : S)
  /-- in `is_empty`, called by `run`; the lock is held -/
  | empty
  /-- `run` has returned `Ok` -/
  | done
  /-- `run` has returned an error other than `Incompleted` -/
  | failed

/-- Whether the main loop holds the lock. -/
def Place.held : Place S → Bool
  | .full | .check _ | .make _ | .empty => true
  | _ => false

/-- The process: the manager, the place of the main loop, the answers that the commander is going to give (it goes on with `finish`), and the
trajectories that have been put in the queue so far (not part of the code). -/
structure Proc (M S : Type) where
  manager : M
  place : Place S
  answers : List (Answer S)
  accepted : List S

variable {M : Type}

/-- The main loop goes on to its next access to the lock. `is_full` is `len() + 1 == QUEUE_LENGTH`. -/
def Proc.main (A : Manager M S T) (p : Proc M S) : R (Proc M S) :=
  let isFull := (A.queue p.manager).length + 1 == QUEUE_LENGTH
  match p.place with
  | .start => .ok { p with place := .full }
  | .full => .ok { p with place := if isFull then .start else .ask }
  | .ask =>
    match p.answers with
    | [] => .ok { p with place := .empty }
    | .command s :: r => .ok { p with place := .check s, answers := r }
    | .finish :: r => .ok { p with place := .empty, answers := r }
    | .waiting :: r => .ok { p with place := .start, answers := r }
    | .other :: r => .ok { p with place := .failed, answers := r }
  | .check s => .ok { p with place := if isFull then .failed else .enter s }
  | .enter s => .ok { p with place := .make s }
  | .make s =>
    if (A.queue p.manager).length + 1 < QUEUE_LENGTH then
      .ok { p with place := .start, manager := A.push p.manager s, accepted := p.accepted ++ [s] }
    else .error .unreachable
  | .empty => .ok { p with place := if (A.queue p.manager).isEmpty then .done else .start }
  | .done => .ok p
  | .failed => .ok p

/-- `agents/tracking.rs:84-90` `update`, `operators/tracking.rs:112-114` `tick`: the target handed to the robot. -/
def Proc.tick (A : Manager M S T) (p : Proc M S) : R (T × Proc M S) := do
  let (x, m) ← A.next p.place.held p.manager
  return (x, { p with manager := m })

/-- What happens next: the interrupt, or progress of the main loop. -/
inductive Event where
  | tick | main
  deriving DecidableEq

/-- One event; with the target, for an interrupt. -/
def Proc.event (A : Manager M S T) (p : Proc M S) : Event → R (List T × Proc M S)
  | .tick => do
    let (x, p) ← p.tick A
    return ([x], p)
  | .main => do
    let p ← p.main A
    return ([], p)

/-- All events of a list; with the targets handed to the robot. -/
def Proc.run (A : Manager M S T) : List Event → Proc M S → R (List T × Proc M S)
  | [], p => .ok ([], p)
  | e :: es, p => do
    let (xs, p) ← p.event A e
    let (ys, p) ← Proc.run A es p
    return (xs ++ ys, p)

/-- `operators/tracking.rs:51-57` `TrackingOperator::new` over a new `Tracking`; the interrupt is off (`administrator.rs:124-130`). -/
def Tracking.start (s : S) (answers : List (Answer S)) : Proc (Tracking S T) S :=
  { manager := { queue := [s], last := none }, place := .start, answers, accepted := [s] }

/-- `operators/tracking.rs:51-57` over a new `Searching`. -/
def Searching.start [Inhabited T] (s : S) (answers : List (Answer S)) : Proc (Searching S T) S :=
  { manager := { queue := [s], emergency := none, counter := 0, last := default }, place := .start, answers, accepted := [s] }

end Verif.Old.Traject
