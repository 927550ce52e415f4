import Verif.Model.SearchDriver
import Verif.Model.Sim
import Verif.Model.Estimate
/-!
# Model of the whole integration test `mousecore2/tests/search.rs`

Everything that the main loop of the test calls, in its order: simulator, estimator, trajectories, navigation, tracker, controller,
planner, wall detector and wall map. Real numbers, SI units; the trigonometric functions are a parameter, but the pose converter uses the
exact ones. Which target is commanded and where to go next is `Verif.SearchDriver`.
-/
namespace Verif.Trial
open Verif Verif.Control Verif.Estimate Verif.Sim Verif.Detect Verif.Convert Verif.SearchDriver Verif.Straight
open Verif.Search (Coord WallState Searcher)
open Verif.Slalom (degree)

/-- What does not change in the loop: `tests/search.rs:115-131`, `141-144`, `164-228`; the constant `PI`, the functions `sin` and `cos`,
and the order of equal distances in the converter. -/
structure Gear where
  T : Trig
  pi : ℝ
  W : Nat
  sort : List (Dir × F) → List (Dir × F)
  config : SearchConfig
  navigation : Navigation
  poses : List Pose
  searcher : Searcher

/-- What changes: `tests/search.rs:133-140`, `145-163`, `230-252`. -/
structure Trial where
  state : State
  walls : Walls.Walls
  tracker : Tracker
  controller : Controller
  estimator : Estimator
  detector : Detector
  loop : Loop
  simulator : Simulator

/-- The converter of the simulator and of the detector, both `PoseConverter::default()` (`lib.rs:53-54`, `wall.rs:130`). -/
noncomputable def Gear.convert (g : Gear) : Pose → Option WallInfo := Converter.default.convert g.W g.sort

open Classical in
/-- The closure `|coord| walls.wall_state(coord)` (`tests/search.rs:284`, `305`, `338`, `342`). Reading a wall can panic; the planner asks about
walls of the maze and centres of squares, and here a panic about any of these counts as one. -/
noncomputable def asking (W : Nat) (w : Walls.Walls) : R (Coord → WallState) :=
  if ∀ c : Coord, c.x < 2 * W → c.y < 2 * W → ¬ (c.x % 2 = 1 ∧ c.y % 2 = 1) → ∃ st, Walls.wallState W w c = .ok st then
    .ok fun c => match Walls.wallState W w c with
      | .ok st => st
      | .error _ => .unchecked
  else .error .unreachable

/-- `tests/search.rs:256-264` the value of the sensors. -/
noncomputable def sensed (T : Trig) (s : Simulator) : Sensor :=
  ⟨(s.distance T).1, (s.distance T).2, s.transAcc T, s.angularVelocity⟩

/-- `tests/search.rs:316-322` the pose of a distance sensor. -/
noncomputable def sensorPose (T : Trig) (state : State) (pose : Pose) : Pose :=
  let cosTh := T.cos state.theta.x
  let sinTh := T.sin state.theta.x
  { x := state.x.x + pose.x * cosTh - pose.y * sinTh
    y := state.y.x + pose.x * sinTh + pose.y * cosTh
    theta := state.theta.x + pose.theta }

/-- `tests/search.rs:315-331` the walls seen in a round. -/
noncomputable def Gear.lookAround (g : Gear) (s : Simulator) (state : State) : List Pose → Detector × Walls.Walls → R (Detector × Walls.Walls)
  | [], dw => .ok dw
  | pose :: rest, (detector, walls) => do
    let pose := sensorPose g.T state pose
    match ← s.distanceFromWall g.convert g.W pose with
    | none => g.lookAround s state rest (detector, walls)
    | some (mean, stddev) => do
      let (detector, seen) ← detectAndUpdate exact g.convert g.W detector mean stddev pose
      match seen with
      | none => g.lookAround s state rest (detector, walls)
      | some (coord, wallState) => do
        let walls ← Walls.update g.W walls coord wallState
        g.lookAround s state rest (detector, walls)

/-- `tests/search.rs:255-333` one round of the loop; `false` when it leaves the loop. -/
noncomputable def Gear.turn (g : Gear) (m : Trial) : R (Bool × Trial) := do
  let (estimator, state) := m.estimator.estimate g.T m.state (sensed g.T m.simulator)
  let (target, loop) ← track g.T m.loop
  let input := g.navigation.navigate state target
  let (tracker, controlTarget, controlState) := m.tracker.track g.T g.pi state target input
  let (controller, vol) := m.controller.control controlTarget controlState
  let simulator := m.simulator.apply vol.left vol.right
  let wallState ← asking g.W m.walls
  match ← decideNext g.config g.W g.searcher wallState loop with
  | none => return (false, { m with state, tracker, controller, estimator, loop, simulator })
  | some loop => do
    let (detector, walls) ← g.lookAround simulator state g.poses (m.detector, m.walls)
    return (true, { state, walls, tracker, controller, estimator, detector, loop, simulator := simulator.step g.T })

/-- `tests/search.rs:254-334` at most `n` rounds. -/
noncomputable def Gear.go (g : Gear) : Nat → Trial → R (Bool × Trial)
  | 0, m => .ok (true, m)
  | n + 1, m => do
    let (on, m) ← g.turn m
    if on then g.go n m else return (false, m)

/-- `tests/search.rs:336-345` the assertion at the end. -/
noncomputable def Gear.check (g : Gear) (m : Trial) : R Unit := do
  let mine ← asking g.W m.walls
  let its ← asking g.W m.simulator.walls
  let path ← g.searcher.shortestPath g.W fun c => decide (mine c ≠ .checked false)
  let path' ← g.searcher.shortestPath g.W fun c => decide (its c ≠ .checked false)
  if path = path' then return () else .error .assert

/-- `tests/search.rs:254-345` with at most `n` rounds; `none` when these are over and the loop has not been left. -/
noncomputable def Gear.test (g : Gear) (n : Nat) (m : Trial) : R (Option Unit) := do
  let (on, m) ← g.go n m
  if on then return none else some <$> g.check m

/-! ## The values of the test -/

/-- `tests/search.rs:97`, `165-181`, `201`. -/
noncomputable def config (frontOffset : ℝ) : SearchConfig where
  gen := ⟨0.3, 10, 100⟩
  spin := ⟨degree 1440, degree 14400, degree 28800⟩
  period := 0.001
  squareWidth := 0.09
  frontOffset
  pause := 0.1

/-- `tests/search.rs:115-131`. -/
noncomputable def poses : List Pose := [⟨0.023, 0, degree 0⟩, ⟨0.013, 0.0115, degree 90⟩, ⟨0.013, -0.0115, degree (-90)⟩]

/-- The same with the planner of `tests/search.rs:164`. -/
noncomputable def gear (T : Trig) (pi : ℝ) (W : Nat) (sort : List (Dir × F) → List (Dir × F)) (searcher : Searcher) (frontOffset : ℝ) : Gear where
  T
  pi
  W
  sort
  config := config frontOffset
  navigation := ⟨40, 4⟩
  poses
  searcher

/-- `tests/search.rs:101-114`. -/
noncomputable def standing : State := ⟨⟨0.045, 0, 0⟩, ⟨0.045, 0, 0⟩, ⟨degree 90, 0, 0⟩⟩

/-- `tests/search.rs:133-163`, `230-252`: the map `walls` is `Walls::new()`, `maze` is the parsed text. -/
noncomputable def initial (walls maze : Walls.Walls) (frontOffset : ℝ) : Trial where
  state := standing
  walls
  tracker := { xi := 0, period := 0.001, xiThreshold := 0.2, zeta := 1, b := 1 }
  controller := .new ⟨4.8497, 29.5783, 0, 1.865, 0.4443⟩ ⟨0.21134, 2.9317, 0, 82.39, 0.2855⟩ 0.001
  estimator := .new 0.001
  detector := Detect.new
  loop := (config frontOffset).start
  simulator := .new maze standing standing 3.7 0.001 1.865 0.4443 82.39 0.2855 0.0335

/-- `tests/search.rs:90-346` `test_search` with at most `n` rounds of the loop: the text of a maze, the goals, and the offset. -/
noncomputable def wholeTest (T : Trig) (pi : ℝ) (W : Nat) (sort : List (Dir × F) → List (Dir × F)) (n : Nat) (text : List Char)
    (goals : List (Nat × Nat)) (frontOffset : ℝ) : R (Option Unit) := do
  let goals ← goals.mapM fun p => unwrap (Coord.new W p.1 p.2)
  let walls ← Walls.new W
  let searcher ← Searcher.new W ⟨0, 1⟩ goals
  match ← Walls.fromStr W text with
  | .error _ => .error .unwrapNone
  | .ok maze => (gear T pi W sort searcher frontOffset).test n (initial walls maze frontOffset)

end Verif.Trial
