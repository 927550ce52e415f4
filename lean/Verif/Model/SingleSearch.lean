import Verif.Model.SingleSlalom
import Verif.Model.Search
/-!
# Poses of `mousecore2/src/wall.rs` and the caller in `mousecore2/tests/search.rs` in floating point arithmetic

The poses and the main loop of `Verif.Model.Slalom` and `Verif.Model.SearchDriver` (which have real numbers) once more, for any arithmetic. As
there, the wall map is any map, another one in every round.
-/
namespace Verif.Single
open Verif
open Verif.Search (SearchState Commander Searcher Coord WallState TrajectoryKind)

/-- `wall.rs:24-29` `Pose`. -/
structure Place where
  x : F
  y : F
  theta : F

/-- `wall.rs:32-55` `Pose::from_search_state`. -/
noncomputable def placeOfSearch (A : Arith) (s : SearchState) (squareWidth frontOffset : F) : Place :=
  let half := A.div squareWidth (.fin 2)
  let x := A.mul (A.add (.fin s.coord.x) (.fin 1)) half
  let y := A.mul (A.add (.fin s.coord.y) (.fin 1)) half
  match s.posture with
  | .north => ⟨x, A.add y frontOffset, degree A 90⟩
  | .south => ⟨x, A.sub y frontOffset, degree A (-90)⟩
  | .east => ⟨A.add x frontOffset, y, degree A 0⟩
  | .west => ⟨A.sub x frontOffset, y, degree A 180⟩

/-- `wall.rs:57-74` `Pose::from_node`. -/
noncomputable def placeOfNode (A : Arith) (n : Run.Node) (squareWidth : F) : Place where
  x := A.div (A.mul (.fin (n.x + 1 : Nat)) squareWidth) (.fin 2)
  y := A.div (A.mul (.fin (n.y + 1 : Nat)) squareWidth) (.fin 2)
  theta := degree A (match n.posture with
    | .north => 90 | .northEast => 45 | .east => 0 | .southEast => -45
    | .south => -90 | .southWest => -135 | .west => 180 | .northWest => 135)

/-- `trajectory.rs:126-143` `StopTrajectory`. -/
structure Halt where
  clock : Clock
  place : Place

/-- `trajectory.rs:148-168` `StopTrajectory::next`. -/
noncomputable def Halt.next (A : Arith) (s : Halt) : Option Target × Halt :=
  let (o, clock) := s.clock.rest A
  (o.map fun _ => ⟨⟨s.place.x, .fin 0, .fin 0, .fin 0⟩, ⟨s.place.y, .fin 0, .fin 0, .fin 0⟩, ⟨s.place.theta, .fin 0, .fin 0, .fin 0⟩⟩, { s with clock })

/-- The settings of the search: `tests/search.rs:101-114`, `166-181`, `201`, `216`. -/
structure Quest where
  gen : Gen
  spin : Gen
  period : F
  squareWidth : F
  frontOffset : F
  pause : F
  home : Place

/-- The type of `back` (`tests/search.rs:193-226`): straight, stop, spin, stop, straight. -/
abbrev BackState := Option (Option (Option (Option Stretch × Halt) × Journey) × Halt) × Stretch

/-- `ShiftTrajectory::next` for a pose, `trajectory.rs:116-118`. -/
noncomputable abbrev shiftedTo {σ : Type} (A : Arith) (L : Lib) (q : Place) (next : σ → Option Target × σ) : σ → Option Target × σ :=
  shifted A L q.x q.y q.theta next

/-- `next` of the same; the poses are those of the shifted spin and of the shifted second straight. -/
noncomputable def backNext (A : Arith) (L : Lib) (centre turned : Place) : BackState → Option Target × BackState :=
  Slalom.chainNext (Slalom.chainNext (Slalom.chainNext (Slalom.chainNext (Stretch.next A) (Halt.next A)) (shiftedTo A L centre (Journey.spin A))) (Halt.next A))
    (shiftedTo A L turned (Stretch.next A))

/-- The iterators of `tests/search.rs:168-228`. -/
inductive Errand where
  | straight (s : Stretch)
  | slalom (q : Outline) (s : SlalomState)
  | back (centre turned : Place) (s : BackState)

/-- `next` of the same. -/
noncomputable def Errand.next (A : Arith) (L : Lib) : Errand → Option Target × Errand
  | .straight s => ((s.next A).1, .straight (s.next A).2)
  | .slalom q s => ((q.next A L s).1, .slalom q (q.next A L s).2)
  | .back centre turned s => ((backNext A L centre turned s).1, .back centre turned (backNext A L centre turned s).2)

/-- `tests/search.rs:196-199`, `204-207` the pose in the centre of the square ahead. -/
noncomputable def Quest.centre (A : Arith) (c : Quest) : Place := ⟨A.sub (A.div c.squareWidth (.fin 2)) c.frontOffset, .fin 0, .fin 0⟩

/-- `tests/search.rs:211-215`, `220-224` the same pose after half a turn. -/
noncomputable def Quest.turned (A : Arith) (c : Quest) : Place := ⟨A.sub (A.div c.squareWidth (.fin 2)) c.frontOffset, .fin 0, degree A 180⟩

/-- `tests/search.rs:183` `init`. -/
noncomputable def Quest.init (A : Arith) (L : Lib) (c : Quest) : Errand :=
  .straight (c.gen.stretch A L c.period (A.add (A.div c.squareWidth (.fin 2)) c.frontOffset) (.fin 0) c.gen.vMax).1

/-- `tests/search.rs:184-226` `front`, `right`, `left`, `back`, and `294-299` the choice among them. -/
noncomputable def Quest.errand (A : Arith) (L : Lib) (c : Quest) : TrajectoryKind → Errand
  | .front => .straight (c.gen.stretch A L c.period c.squareWidth c.gen.vMax c.gen.vMax).1
  | .right =>
    let q := outline A c.squareWidth c.frontOffset .search90 .right
    .slalom q (q.constantSlalom A L c.period c.gen.vMax)
  | .left =>
    let q := outline A c.squareWidth c.frontOffset .search90 .left
    .slalom q (q.constantSlalom A L c.period c.gen.vMax)
  | .back =>
    let there := (c.gen.stretch A L c.period (A.sub (A.div c.squareWidth (.fin 2)) c.frontOffset) c.gen.vMax (.fin 0)).1
    let spin := (c.spin.journey A L c.period (degree A 180) (.fin 0) (.fin 0)).1
    let back := (c.gen.stretch A L c.period (A.add (A.div c.squareWidth (.fin 2)) c.frontOffset) (.fin 0) c.gen.vMax).1
    .back (c.centre A) (c.turned A)
      (some (some (some (some there, ⟨Clock.new c.pause c.period, c.centre A⟩), spin), ⟨Clock.new c.pause c.period, c.turned A⟩), back)

/-- The variables of the main loop (`tests/search.rs:230-240`); trajectories with the pose they are shifted to. -/
structure Hunt where
  trajectory : Place × Errand
  next : Option (Place × Errand)
  commander : Option Commander
  robot : SearchState

/-- `tests/search.rs:101-114`, `230-240` before the main loop. -/
noncomputable def Quest.start (A : Arith) (L : Lib) (c : Quest) : Hunt where
  trajectory := (c.home, c.init A L)
  next := none
  commander := none
  robot := ⟨⟨0, 1⟩, .north⟩

/-- `tests/search.rs:268-275` the target of the round. -/
noncomputable def track (A : Arith) (L : Lib) (l : Hunt) : R (Target × Hunt) :=
  match shiftedTo A L l.trajectory.1 (Errand.next A L) l.trajectory.2 with
  | (some target, m) => .ok (target, { l with trajectory := (l.trajectory.1, m) })
  | (none, _) =>
    match l.next with
    | none => .error .unreachable
    | some (place, m) =>
      match shiftedTo A L place (Errand.next A L) m with
      | (some target, m) => .ok (target, { l with trajectory := (place, m), next := none })
      | (none, _) => .error .unwrapNone

/-- `tests/search.rs:282-312` the decision of the round; `none` is the `break`. -/
noncomputable def decideNext (A : Arith) (L : Lib) (c : Quest) (W : Nat) (searcher : Searcher) (wallState : Coord → WallState) (l : Hunt) : R (Option Hunt) :=
  match l.commander.map (fun commander : Commander => commander.nextCoordinate wallState) with
  | some (.ok (some nextCoord)) => do
    let place := placeOfSearch A l.robot c.squareWidth c.frontOffset
    let (robot, dir) ← l.robot.update nextCoord
    let dir ← unwrap dir
    return some { l with robot := robot, next := some (place, c.errand A L dir), commander := none }
  | some (.ok none) => return some l
  | some (.error _) => .error .unreachable
  | none =>
    if l.next.isNone then do
      match ← searcher.search W l.robot.coord wallState with
      | .ok (some commander) => return some { l with commander := some commander }
      | .ok none => return none
      | .error _ => .error .unreachable
    else return some l

/-- `tests/search.rs:254-334` the targets of `n` rounds of the main loop, from round number `i` on, and the variables after them, `none` when
the loop has been left. `walls` is what the map says when it is asked in a round. -/
noncomputable def hunt (A : Arith) (L : Lib) (c : Quest) (W : Nat) (searcher : Searcher) (walls : Nat → Coord → WallState) :
    Nat → Nat → Hunt → R (List Target × Option Hunt)
  | 0, _, l => .ok ([], some l)
  | n + 1, i, l => do
    let (target, l) ← track A L l
    match ← decideNext A L c W searcher (walls i) l with
    | none => return ([target], none)
    | some l =>
      let (targets, l) ← hunt A L c W searcher walls n (i + 1) l
      return (target :: targets, l)

end Verif.Single
