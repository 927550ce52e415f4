import Verif.Model.Slalom
/-!
# Model of the caller in `mousecore2/tests/search.rs`

How the project's own integration test of the search run strings the search trajectories together: which target it commands in every
round, and how it decides where to go next. The wall map is what the sensors have made of it; here it is any map, another one in every
round. Estimation, control, simulation and wall detection (lines 255-265, 276-279, 314-333) are other models. Real numbers, as in the
models of the trajectories.
-/
namespace Verif.SearchDriver
open Verif Verif.Control Verif.Straight Verif.Slalom
open Verif.Search (SearchState Commander Searcher Coord WallState TrajectoryKind)

/-- The settings of the search: `tests/search.rs:166-181`, `201`, `216`. -/
structure SearchConfig where
  gen : Gen
  spin : Gen
  period : ℝ
  squareWidth : ℝ
  frontOffset : ℝ
  pause : ℝ

/-- The type of `back` (`tests/search.rs:193-226`): straight, stop, spin, stop, straight. -/
abbrev BackState := Option (Option (Option (Option Straight × Stop) × Spin) × Stop) × Straight

/-- `next` of the same; the poses are those of the shifted spin and of the shifted second straight. -/
noncomputable def backNext (T : Trig) (centre turned : Detect.Pose) : BackState → Option Target × BackState :=
  chainNext (chainNext (chainNext (chainNext Straight.next Stop.next) (shiftNext T centre Spin.next)) Stop.next)
    (shiftNext T turned Straight.next)

/-- The iterators of `tests/search.rs:168-228`. The slalom comes with the pose of its second straight. -/
inductive Move where
  | straight (s : Straight)
  | slalom (pose : Detect.Pose) (s : SlalomState)
  | back (centre turned : Detect.Pose) (s : BackState)

/-- `next` of the same. -/
noncomputable def Move.next (T : Trig) : Move → Option Target × Move
  | .straight s => ((Straight.next s).1, .straight (Straight.next s).2)
  | .slalom pose s => ((slalomNext T pose s).1, .slalom pose (slalomNext T pose s).2)
  | .back centre turned s => ((backNext T centre turned s).1, .back centre turned (backNext T centre turned s).2)

/-- `tests/search.rs:196-199`, `204-207` the pose in the centre of the square ahead. -/
noncomputable def SearchConfig.centre (c : SearchConfig) : Detect.Pose := ⟨c.squareWidth / 2 - c.frontOffset, 0, 0⟩

/-- `tests/search.rs:211-215`, `220-224` the same pose after half a turn. -/
noncomputable def SearchConfig.turned (c : SearchConfig) : Detect.Pose := ⟨c.squareWidth / 2 - c.frontOffset, 0, degree 180⟩

/-- `tests/search.rs:183` `init`. -/
noncomputable def SearchConfig.init (c : SearchConfig) : Move :=
  .straight (straightGenerate c.gen c.period (c.squareWidth / 2 + c.frontOffset) 0 c.gen.vMax).1

/-- `tests/search.rs:184-226` `front`, `right`, `left`, `back`, and `294-299` the choice among them. -/
noncomputable def SearchConfig.move (c : SearchConfig) : TrajectoryKind → Move
  | .front => .straight (straightGenerate c.gen c.period c.squareWidth c.gen.vMax c.gen.vMax).1
  | .right =>
    let p := parameters c.squareWidth c.frontOffset .search90 .right
    .slalom p.curveEnd (constantSlalom c.period p c.gen.vMax)
  | .left =>
    let p := parameters c.squareWidth c.frontOffset .search90 .left
    .slalom p.curveEnd (constantSlalom c.period p c.gen.vMax)
  | .back =>
    let there := (straightGenerate c.gen c.period (c.squareWidth / 2 - c.frontOffset) c.gen.vMax 0).1
    let spin := spinGenerate c.spin c.period (degree 180)
    let back := (straightGenerate c.gen c.period (c.squareWidth / 2 + c.frontOffset) 0 c.gen.vMax).1
    .back c.centre c.turned
      (some (some (some (some there, ⟨0, c.centre, c.period, c.pause⟩), spin), ⟨0, c.turned, c.period, c.pause⟩), back)

/-- The variables of the main loop (`tests/search.rs:230-240`); trajectories with the pose they are shifted to. -/
structure Loop where
  trajectory : Detect.Pose × Move
  next : Option (Detect.Pose × Move)
  commander : Option Commander
  robot : SearchState

/-- `tests/search.rs:101-114`, `230-240` before the main loop: the mouse stands in the centre of the first square and faces north. -/
noncomputable def SearchConfig.start (c : SearchConfig) : Loop where
  trajectory := (⟨c.squareWidth / 2, c.squareWidth / 2, degree 90⟩, c.init)
  next := none
  commander := none
  robot := ⟨⟨0, 1⟩, .north⟩

/-- `tests/search.rs:268-275` the target of the round. -/
noncomputable def track (T : Trig) (l : Loop) : R (Target × Loop) :=
  match shiftNext T l.trajectory.1 (Move.next T) l.trajectory.2 with
  | (some target, m) => .ok (target, { l with trajectory := (l.trajectory.1, m) })
  | (none, _) =>
    match l.next with
    | none => .error .unreachable
    | some (pose, m) =>
      match shiftNext T pose (Move.next T) m with
      | (some target, m) => .ok (target, { l with trajectory := (pose, m), next := none })
      | (none, _) => .error .unwrapNone

/-- `tests/search.rs:282-312` the decision of the round; `none` is the `break`. -/
noncomputable def decideNext (c : SearchConfig) (W : Nat) (searcher : Searcher) (wallState : Coord → WallState) (l : Loop) : R (Option Loop) :=
  match l.commander.map (fun commander : Commander => commander.nextCoordinate wallState) with
  | some (.ok (some nextCoord)) => do
    let pose := poseOfSearch l.robot c.squareWidth c.frontOffset
    let (robot, dir) ← l.robot.update nextCoord
    let dir ← unwrap dir
    return some { l with robot := robot, next := some (pose, c.move dir), commander := none }
  | some (.ok none) => return some l
  | some (.error _) => .error .unreachable
  | none =>
    if l.next.isNone then do
      match ← searcher.search W l.robot.coord wallState with
      | .ok (some commander) => return some { l with commander := some commander }
      | .ok none => return none
      | .error _ => .error .unreachable
    else return some l

/-- `tests/search.rs:254-334` the targets of `n` rounds of the main loop, from round number `i` on, and the variables after them, `none` when
the loop has been left. `walls` is what the map says when it is asked in a round. -/
noncomputable def rounds (T : Trig) (c : SearchConfig) (W : Nat) (searcher : Searcher) (walls : Nat → Coord → WallState) :
    Nat → Nat → Loop → R (List Target × Option Loop)
  | 0, _, l => .ok ([], some l)
  | n + 1, i, l => do
    let (target, l) ← track T l
    match ← decideNext c W searcher (walls i) l with
    | none => return ([target], none)
    | some l =>
      let (targets, l) ← rounds T c W searcher walls n (i + 1) l
      return (target :: targets, l)

end Verif.SearchDriver
