import Verif.Model.OldSensors
import Verif.Spec.OldDetect
import Verif.Spec.Sensors
import Verif.Spec.Tof
import Verif.Spec.Imu
/-!
# Specification of the former sensor drivers
-/
namespace Verif.Spec
open Verif Verif.Old.Sensors Verif.Old.Manager Verif.Old.Search
open Verif.Old.Detect hiding State
open Verif.Detect (Pose)

/-! ## Encoder, voltmeter, motors -/

/-- Calling `get_relative_distance` once per counter value: the reported distances. -/
noncomputable def distances : List Nat → Encoder → R (List ℝ × Encoder)
  | [], e => .ok ([], e)
  | c :: l, e => do
    let (d, e) ← e.getRelativeDistance c
    let (ds, e) ← distances l e
    return (d :: ds, e)

/-- Voltages applied one after the other, each to one of several motors with these maximum duties that share a voltmeter: the duties. -/
noncomputable def duties : List (Nat × ℝ) → Voltmeter → List (Nat × Nat) × Voltmeter
  | [], v => ([], v)
  | (max, u) :: l, v =>
    let (d, v) := apply max max v u
    let (ds, v) := duties l v
    (d :: ds, v)

/-- The mean voltage at a motor between two pins with these duties. -/
noncomputable def bridge (max : Nat) (battery : ℝ) (d : Nat × Nat) : ℝ := (d.2 - d.1) / max * battery

/-! ## Distance sensors -/

/-- The operation that asks for a measurement. -/
def startOp (address : Nat) : Verif.Tof.Op := .write address (regBytes 0x0018 ++ [1])

/-- It was done, and it was tried in vain. -/
def Asks (address : Nat) (piece : Verif.Tof.Log) : Prop := ∃ x, (startOp address, some x) ∈ piece
def AsksInVain (address : Nat) (piece : Verif.Tof.Log) : Prop := (startOp address, none) ∈ piece

/-- Calls of `get_distance` of one sensor, while anything may be done on the bus in between: what each call did on the bus, and its result. -/
inductive Polls (w : Verif.Tof.World) : Tof → List (Verif.Tof.Log × Option (ℝ × ℝ)) → Tof → Prop
  | nil (t) : Polls w t [] t
  | snoc (t0 l t log r t' piece) : Polls w t0 l t → t.getDistance w log = (r, t', log ++ piece) → Polls w t0 (l ++ [(piece, r.toOption)]) t'

/-- What a call that has a result did: it saw that a measurement is there, read it, and cleared the interrupt. -/
def Delivers (address mm : Nat) (piece : Verif.Tof.Log) : Prop :=
  ∃ status x, status &&& 4 = 4 ∧
    piece = [(.writeRead address (regBytes 0x004F), some status), (.writeRead address (regBytes 0x0062), some mm), (.write address (regBytes 0x0015 ++ [7]), some x)]

/-! ## Sensors on a bus, and the detector -/

/-- Each of the sensors is asked once: what it did on the bus and its result. -/
noncomputable def sweep (w : Verif.Tof.World) : List Tof → Verif.Tof.Log → List (Verif.Tof.Log × Option (ℝ × ℝ)) × List Tof × Verif.Tof.Log
  | [], log => ([], [], log)
  | t :: ts, log =>
    match t.getDistance w log with
    | (r, t', log') =>
      match sweep w ts log' with
      | (rs, ts', log'') => ((log'.drop log.length, r.toOption) :: rs, t' :: ts', log'')

open Classical in
/-- Where the robot was when the measurement not yet delivered was asked for, given what a sensor did and delivered during a call at `here`. -/
noncomputable def askedAt (before : Option Pose) (here : Pose) (address : Nat) (x : Verif.Tof.Log × Option (ℝ × ℝ)) : Option Pose :=
  if x.2.isSome then none else if Asks address x.1 then some here else before

/-- What a sensor contributes to a call, with the walls whose mutexes are held elsewhere. -/
noncomputable def lookOf (t : Tof) (x : Verif.Tof.Log × Option (ℝ × ℝ)) (busy : List Old.Wall × List Old.Wall) : Look := ⟨t.pose, x.2, busy.1, busy.2⟩

noncomputable def looksOf : List Tof → List (Verif.Tof.Log × Option (ℝ × ℝ)) → (Nat → List Old.Wall × List Old.Wall) → Nat → List Look
  | t :: ts, x :: xs, busy, i => lookOf t x (busy i) :: looksOf ts xs busy (i + 1)
  | _, _, _, _ => []

/-- The reading is nearer to the distance that is right for the maze, seen from where the measurement was asked for. -/
def RightFrom (real : Old.Wall → Bool) (see : Pose → Option Seen) (asked : Option Pose) (mount : Pose) (x : Option (ℝ × ℝ)) : Prop :=
  ∀ q z s e, asked = some q → x = some (z, s) → see (aimed q mount 0 0) = some e →
    if real e.wall then |z - e.near| ≤ |z - e.far| else |z - e.far| ≤ |z - e.near|

/-- A search with the former detector and the former distance sensors on one bus, by a robot that is sure of its position (as the former robot always is, C104): calls of the detector at any
poses, calls of the commander, and anything else done on the bus. No request fails; everything else on the bus may. Measurements are right for the pose at which they were asked for.
The fourth last argument tells where the robot was when the measurement of each sensor was asked for. -/
inductive BusPatrol (P : Config) (t : F) (real : Old.Wall → Bool) (conv : FPose → R (Except ConvError Info)) (see : Pose → Option Seen) (w : Verif.Tof.World) :
    List Tof → Verif.Tof.Log → (Nat → Option Pose) → Detector → Commander → List Reply → Prop
  | start (m : Manager) (ts : List Tof) (log) : new P.W t = .ok m → ts.length ≤ 6 → (∀ x ∈ ts, x.dev.state = .idle) →
      BusPatrol P t real conv see w ts log (fun _ => none) (Detector.new m) (Commander.new P.start) []
  | bus (ts log more asked d c rs) : BusPatrol P t real conv see w ts log asked d c rs → BusPatrol P t real conv see w ts (log ++ more) asked d c rs
  | detect (ts : List Tof) (log) (asked : Nat → Option Pose) (d d' : Detector) (c : Commander) (rs : List Reply) (p : Pose) (xs ts' log') (busy : Nat → List Old.Wall × List Old.Wall)
      (s' : Old.Detect.State) :
      BusPatrol P t real conv see w ts log asked d c rs → sweep w ts log = (xs, ts', log') →
      (∀ (i : Nat) (b : Tof) (x : Verif.Tof.Log × Option (ℝ × ℝ)), ts[i]? = some b → xs[i]? = some x → ¬ AsksInVain b.dev.address x.1) →
      (∀ (i : Nat) (b : Tof) (x : Verif.Tof.Log × Option (ℝ × ℝ)), ts[i]? = some b → xs[i]? = some x → RightFrom real see (asked i) b.pose x.2) →
      (∀ i, (∀ v ∈ (busy i).1, InMaze P.W v) ∧ ∀ v ∈ (busy i).2, InMaze P.W v) →
      detectAndUpdate exact conv P.W d ((looksOf ts xs busy 0).map (Look.input P.W)) (stateAt p 0 0) = .ok (d', s') →
      BusPatrol P t real conv see w ts' log'
        (fun i => match ts[i]?, xs[i]? with
          | some b, some x => askedAt (asked i) p b.dev.address x
          | _, _ => asked i) d' c rs
  | call (ts log asked) (d : Detector) (c c' : Commander) (r : Reply) (rs : List Reply) (ws : List Old.Wall) : BusPatrol P t real conv see w ts log asked d c rs →
      nextCommand P (belief exact P.W (held P.W ws) d.memory) c = .ok (r, c') → BusPatrol P t real conv see w ts log asked d c' (rs ++ [r])

/-! ## Inertial sensor -/

/-- One public call of the former driver. -/
noncomputable def oldImuStep (w : Verif.Imu.World) (s : Verif.Imu.Imu × Verif.Imu.Log) : ImuCall → Verif.Imu.Imu × Verif.Imu.Log
  | .gyro => (Verif.Imu.angularVelocity w s).2
  | .accel => (Verif.Imu.translationalAcceleration w s).2
  | .calibrate => (Verif.Imu.calibrate w s).2
  | .init fuel => (imuInit fuel w s).2

noncomputable def oldImuRun (w : Verif.Imu.World) (calls : List ImuCall) (s : Verif.Imu.Imu × Verif.Imu.Log) : Verif.Imu.Imu × Verif.Imu.Log := calls.foldl (oldImuStep w) s

end Verif.Spec
