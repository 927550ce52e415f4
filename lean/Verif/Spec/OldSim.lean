import Verif.Model.OldSim
import Verif.Spec.OldRobot
import Verif.Spec.SimDrift
/-!
# Specification of the former simulator and of the former robot in it
-/
namespace Verif.Spec
open Verif Verif.Old.Sim Verif.Old.Robot Verif.Old.Manager Verif.Old.Search
open Verif.Old.Detect hiding State
open Verif.Detect (Pose)

/-! ## Motion -/

/-- The newer simulator in the same state, with any walls. -/
def asNewer (w : Inner) (walls : Walls.Walls) (wheel max : ℝ) : Verif.Sim.Simulator :=
  ⟨walls, w.current, w.prev, w.rightVoltage, w.leftVoltage, max, w.period, w.transK, w.transT1, w.rotK, w.rotT1, wheel⟩

/-- What the encoders and the inertial sensor measure. -/
noncomputable def measures (w : Inner) (wheel : ℝ) : Estimate.Sensor := ⟨w.encoder wheel .left, w.encoder wheel .right, w.acceleration, w.gyro⟩

/-- Calls that change the simulator: of one of the motors, and of the stepper. -/
inductive InnerCall where
  | motor (side : Side) (v : ℝ)
  | step

noncomputable def innerRun (max : ℝ) : List InnerCall → Inner → Inner
  | [], w => w
  | .motor side v :: cs, w => innerRun max cs (w.motor max side v)
  | .step :: cs, w => innerRun max cs w.step

/-! ## Distance sensors -/

/-- The walls of the simulator are those of this maze: those whose probability exceeds one less the threshold. -/
def Built (W : Nat) (walls : Manager) (real : Old.Wall → Bool) : Prop :=
  ∃ (t : ℝ) (prob : Old.Wall → ℝ), walls.threshold = .fin t ∧ Recalls W walls (fun w => .fin (prob w)) ∧ ∀ w, InMaze W w → (real w = true ↔ 1 - t < prob w)

/-- Where the simulator takes a sensor to sit that is mounted somewhere, in terms of the detector, which counts `x` forward and `y` to the left. -/
def seat : Copy → Pose → Pose
  | .utils, m => m
  | .mousesim, m => ⟨m.y, -m.x, m.theta⟩

/-- What a sensor reads in a robot at `s`: the distance from the wall seen, or beyond if it does not stand. -/
noncomputable def glance (k : Copy) (see : Pose → Option Seen) (real : Old.Wall → Bool) (s : Control.State) (mount : Pose) : Option (ℝ × ℝ) :=
  (see (aimed (stands s) (seat k mount) 0 0)).map fun e => (if real e.wall then e.near else e.far, k.deviation)

/-- A sensor of the robot during one call: where it is mounted, and the mutexes of the memory held elsewhere when it is read and written. -/
structure Mounted where
  mount : Pose
  busyRead : List Old.Wall
  busyWrite : List Old.Wall

structure Mounted.Fair (W : Nat) (m : Mounted) : Prop where
  read : ∀ w ∈ m.busyRead, InMaze W w
  write : ∀ w ∈ m.busyWrite, InMaze W w

/-- The same with the simulated reading. -/
noncomputable def Mounted.look (m : Mounted) (k : Copy) (see : Pose → Option Seen) (real : Old.Wall → Bool) (s : Control.State) : Look :=
  ⟨m.mount, glance k see real s m.mount, m.busyRead, m.busyWrite⟩

/-- A search in the simulator (copy `utils`) with a robot that knows its pose: calls of the detector at any poses with any deviations, the sensors, mounted as given, reading
what the simulator says; and calls of the commander. -/
inductive SimPatrol (P : Config) (t : F) (real : Old.Wall → Bool) (conv : FPose → R (Except ConvError Info)) (see : Pose → Option Seen) (mounts : List Pose) :
    Detector → Commander → List Reply → Prop
  | start (m : Manager) : new P.W t = .ok m → SimPatrol P t real conv see mounts (Detector.new m) (Commander.new P.start) []
  | detect (d d' : Detector) (c : Commander) (rs : List Reply) (s : Control.State) (sx sy : ℝ) (ms : List Mounted) (s' : Old.Detect.State) :
      SimPatrol P t real conv see mounts d c rs → ms.map Mounted.mount = mounts → (∀ m ∈ ms, m.Fair P.W) →
      detectAndUpdate exact conv P.W d ((ms.map fun m => m.look .utils see real s).map (Look.input P.W)) (stateAt (stands s) sx sy) = .ok (d', s') →
      SimPatrol P t real conv see mounts d' c rs
  | call (d : Detector) (c c' : Commander) (r : Reply) (rs : List Reply) (ws : List Old.Wall) : SimPatrol P t real conv see mounts d c rs →
      nextCommand P (belief exact P.W (held P.W ws) d.memory) c = .ok (r, c') → SimPatrol P t real conv see mounts d c' (rs ++ [r])

/-! ## The robot in the simulator -/

/-- Everything around the robot: the simulator but its state, and the converter of the robot. -/
structure Rig where
  wheel : ℝ
  max : ℝ
  copy : Copy
  walls : Manager
  conv : FPose → R (Except ConvError Info)
  W : Nat

/-- What a distance sensor delivers to the detector; it does not care for the kind of error (`wall_detector.rs:164-171`). -/
noncomputable def Rig.input (S : Rig) (w : Inner) (m : Mounted) : R Input := do
  let r ← w.getDistance S.copy S.conv S.W S.walls m.mount
  return ⟨m.mount, r.toOption, held S.W m.busyRead, held S.W m.busyWrite⟩

noncomputable def Rig.inputs (S : Rig) (w : Inner) : List Mounted → R (List Input)
  | [] => .ok []
  | m :: ms => do
    let i ← S.input w m
    let is ← S.inputs w ms
    return i :: is

/-- The loop of the tests (`mousecore/tests/search_operator.rs`): the simulator makes a step, then the robot is called with a target and what the simulated sensors measure, and
does something to the motors. -/
inductive Drives (S : Rig) (pi : ℝ) : Inner → Robot → List (Control.Target × List Mounted) → Inner → Robot → List (ℝ × ℝ) → Prop
  | nil (w r) : Drives S pi w r [] w r []
  | lap (w r t ms rest inputs r1 a b res w' r' vs) : S.inputs w.step ms = .ok inputs →
      r.trackAndUpdate exact pi S.conv S.W ⟨sensed (measures w.step S.wheel), t, inputs⟩ = .ok (r1, [.left (.fin a), .right (.fin b)], res) →
      Drives S pi ((w.step.motor S.max .left a).motor S.max .right b) r1 rest w' r' vs →
      Drives S pi w r ((t, ms) :: rest) w' r' ((a, b) :: vs)

/-- Settings with which the tracker can always divide and take roots. -/
structure Steerable (c : Settings) : Prop where
  fair : Settings.Fair c
  trans : c.trans.modelK ≠ 0
  rot : c.rot.modelK ≠ 0
  bound : 0 ≤ c.lowerBound
  b : 0 ≤ c.lowB

/-- At most six distance sensors, any targets. -/
def FairLap (W : Nat) (x : Control.Target × List Mounted) : Prop := x.2.length ≤ 6 ∧ ∀ m ∈ x.2, m.Fair W

/-- The simulator and the robot fit: the maze, the converter, the period, the voltages at the beginning. -/
structure Rig.Fits (S : Rig) (see : Pose → Option Seen) (real : Old.Wall → Bool) (c : Settings) (w : Inner) : Prop where
  width : Supported S.W
  sees : Sees S.W S.conv see
  built : Built S.W S.walls real
  period : w.period = c.period
  limit : 0 ≤ S.max
  left : |w.leftVoltage| ≤ S.max
  right : |w.rightVoltage| ≤ S.max

/-- A target on the line through `(x, y)` in direction `φ`, heading that way. -/
def LineTarget (x y φ : ℝ) (t : Control.Target) : Prop :=
  ∃ p v a j : ℝ, t.x = ⟨x + p * Real.cos φ, v * Real.cos φ, a * Real.cos φ, j * Real.cos φ⟩ ∧ t.y = ⟨y + p * Real.sin φ, v * Real.sin φ, a * Real.sin φ, j * Real.sin φ⟩ ∧
    t.theta.x = φ ∧ t.theta.v = 0 ∧ t.theta.a = 0

end Verif.Spec
