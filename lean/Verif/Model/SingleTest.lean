import Verif.Model.Trial
import Verif.Model.SingleSim
import Verif.Model.SingleSearch
/-!
# The whole integration test `mousecore2/tests/search.rs` in floating point arithmetic

The loop of `Verif.Model.Trial` (which has real numbers) once more, for any arithmetic: every number of simulator, estimator, trajectories, navigation,
tracker, controller, pose converter and detector is a floating point number.
-/
namespace Verif.Single
open Verif Verif.Detect
open Verif.Search (Coord WallState Searcher)

/-- What does not change in the loop: `tests/search.rs:115-131`, `164-228`; and the order of equal distances in the converter. (Gains of the
navigation are part of the robot.) -/
structure Kit where
  W : Nat
  sort : List (Convert.Dir × F) → List (Convert.Dir × F)
  quest : Quest
  poses : List Place
  searcher : Searcher

/-- What changes: `tests/search.rs:101-114`, `133-163`, `230-252`. -/
structure Attempt where
  robot : Robot
  walls : Walls.Walls
  detector : Detector
  hunt : Hunt
  simulator : Simulator

/-- `tests/search.rs:256-264` the value of the sensors. -/
noncomputable def senses (A : Arith) (L : Lib) (s : Simulator) : Sensor :=
  ⟨(s.distance A L).1, (s.distance A L).2, s.transAcc A L, s.angularVelocity⟩

/-- `tests/search.rs:316-322` the pose of a distance sensor. -/
noncomputable def sensorPlace (A : Arith) (L : Lib) (state : State) (pose : Place) : Place :=
  let cosTh := L.cos state.theta.x
  let sinTh := L.sin state.theta.x
  { x := A.sub (A.add state.x.x (A.mul pose.x cosTh)) (A.mul pose.y sinTh)
    y := A.add (A.add state.y.x (A.mul pose.x sinTh)) (A.mul pose.y cosTh)
    theta := A.add state.theta.x pose.theta }

/-- `tests/search.rs:324-331` the walls seen from sensor poses that need not be finite. The detector does nothing with its pose but
ask the converter about it (`wall.rs:161-170`), so what the converter says about the pose is put in. -/
noncomputable def Kit.lookAround (A : Arith) (L : Lib) (g : Kit) (s : Simulator) : List Place → Detector → Walls.Walls → R (Detector × Walls.Walls)
  | [], detector, walls => .ok (detector, walls)
  | pose :: rest, detector, walls => do
    match ← s.distanceFromWall A L g.W g.sort pose.x pose.y pose.theta with
    | none => g.lookAround A L s rest detector walls
    | some (mean, stddev) => do
      let (detector, seen) ← detectAndUpdate A
        (fun _ => (Finder.default A).convert A L g.W g.sort pose.x pose.y pose.theta) g.W detector mean stddev ⟨0, 0, 0⟩
      match seen with
      | none => g.lookAround A L s rest detector walls
      | some (coord, wallState) => do
        let walls ← Walls.update g.W walls coord wallState
        g.lookAround A L s rest detector walls

/-- `tests/search.rs:255-333` one round of the loop; `false` when it leaves the loop. The estimate, which cannot panic, is part of `Robot.round`. -/
noncomputable def Kit.turn (A : Arith) (L : Lib) (g : Kit) (m : Attempt) : R (Bool × Attempt) := do
  let (target, hunt) ← track A L m.hunt
  let (robot, vol) := m.robot.round A L (senses A L m.simulator) target
  let simulator := m.simulator.apply vol.left vol.right
  let wallState ← Trial.asking g.W m.walls
  match ← decideNext A L g.quest g.W g.searcher wallState hunt with
  | none => return (false, { m with robot, hunt, simulator })
  | some hunt => do
    let (detector, walls) ← g.lookAround A L simulator (g.poses.map (sensorPlace A L robot.state)) m.detector m.walls
    return (true, { robot, walls, detector, hunt, simulator := simulator.step A L })

/-- `tests/search.rs:254-334` at most `n` rounds. -/
noncomputable def Kit.go (A : Arith) (L : Lib) (g : Kit) : Nat → Attempt → R (Bool × Attempt)
  | 0, m => .ok (true, m)
  | n + 1, m => do
    let (on, m) ← g.turn A L m
    if on then g.go A L n m else return (false, m)

/-- `tests/search.rs:336-345` the assertion at the end. -/
noncomputable def Kit.check (g : Kit) (m : Attempt) : R Unit := do
  let mine ← Trial.asking g.W m.walls
  let its ← Trial.asking g.W m.simulator.walls
  let path ← g.searcher.shortestPath g.W fun c => decide (mine c ≠ .checked false)
  let path' ← g.searcher.shortestPath g.W fun c => decide (its c ≠ .checked false)
  if path = path' then return () else .error .assert

/-- `tests/search.rs:254-345` with at most `n` rounds; `none` when these are over and the loop has not been left. -/
noncomputable def Kit.test (A : Arith) (L : Lib) (g : Kit) (n : Nat) (m : Attempt) : R (Option Unit) := do
  let (on, m) ← g.go A L n m
  if on then return none else some <$> g.check m

end Verif.Single
