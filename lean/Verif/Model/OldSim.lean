import Verif.Model.OldRobot
import Verif.Model.Sim
/-!
# The former simulator

`obsolete/mousesim/src/lib.rs`, and its copy for the tests of the former core crate, `obsolete/mousecore/utils/src/sensors.rs`, which differs from
it in the distance sensors only. Real numbers, SI units, exact sines and cosines. `split` hands out parts that share the inner simulator; here they are functions of it.
The settings of the parts (wheel interval, largest voltage, pose of a sensor, converter) are arguments. Not modelled: voltages that are not finite numbers, and `borrow`
(no part holds a borrow when it returns).
-/
namespace Verif.Old.Sim
open Verif Verif.Old Verif.Old.Manager
open Verif.Old.Detect hiding State
open Verif.Control (State)
open Verif.Detect (Pose)

/-- `lib.rs:161-171` `AgentSimulatorInner`, with the standard deviations of the state, which `step` copies. -/
structure Inner where
  current : State
  prev : State
  sx : ℝ
  sy : ℝ
  rightVoltage : ℝ
  leftVoltage : ℝ
  period : ℝ
  transK : ℝ
  transT1 : ℝ
  rotK : ℝ
  rotT1 : ℝ

/-- `lib.rs:36-62` `new`. -/
def Inner.new (state : State) (sx sy period transK transT1 rotK rotT1 : ℝ) : Inner :=
  ⟨state, state, sx, sy, 0, 0, period, transK, transT1, rotK, rotT1⟩

/-- `lib.rs:207-209` `trans_vel`, also `lib.rs:253-255` `translational_velocity`. -/
noncomputable def transVel (s : State) : ℝ := s.x.v * Real.cos s.theta.x + s.y.v * Real.sin s.theta.x

/-- `lib.rs:211-222` `next_trans_vel`. -/
noncomputable def Inner.nextTransVel (self : Inner) : ℝ :=
  let alpha := self.transT1 / (self.transT1 + self.period)
  let current := transVel self.current
  let voltage := (self.rightVoltage + self.leftVoltage) / 2
  current * alpha + (1 - alpha) * (self.transK * voltage)

/-- `lib.rs:224-234` `next_rot_vel`. -/
noncomputable def Inner.nextRotVel (self : Inner) : ℝ :=
  let alpha := self.rotT1 / (self.rotT1 + self.period)
  let current := self.current.theta.v
  let voltage := (self.rightVoltage - self.leftVoltage) / 2
  current * alpha + (1 - alpha) * (self.rotK * voltage)

/-- `lib.rs:174-205` `step`. -/
noncomputable def Inner.step (self : Inner) : Inner :=
  let curVel := transVel self.current
  let nextVel := self.nextTransVel
  let nextRot := self.nextRotVel
  let thetaX := self.current.theta.x + nextRot * self.period
  let thetaA := (nextRot - self.current.theta.v) / self.period
  let curSin := Real.sin self.current.theta.x
  let curCos := Real.cos self.current.theta.x
  let nextSin := Real.sin thetaX
  let nextCos := Real.cos thetaX
  let xx := self.current.x.x + (curVel * curCos + nextVel * nextCos) * self.period / 2
  let yx := self.current.y.x + (curVel * curSin + nextVel * nextSin) * self.period / 2
  let xv := nextVel * nextCos
  let yv := nextVel * nextSin
  let xa := (xv - self.current.x.v) / self.period
  let ya := (yv - self.current.y.v) / self.period
  { self with
    prev := self.current
    current := ⟨⟨xx, xv, xa⟩, ⟨yx, yv, ya⟩, ⟨thetaX, nextRot, thetaA⟩⟩ }

/-- `lib.rs:240-244` `Direction`. -/
inductive Side where
  | right | left

/-- `lib.rs:261-269` `average`. -/
noncomputable def Inner.average (self : Inner) (f : State → ℝ) : ℝ := (f self.current + f self.prev) / 2

/-- `lib.rs:275-287` `get_relative_distance`. -/
noncomputable def Inner.encoder (self : Inner) (wheelInterval : ℝ) : Side → ℝ
  | .right => (self.average transVel + self.average (fun s => s.theta.v) * wheelInterval / 2) * self.period
  | .left => (self.average transVel - self.average (fun s => s.theta.v) * wheelInterval / 2) * self.period

/-- `lib.rs:297-299` `get_angular_velocity`. -/
def Inner.gyro (self : Inner) : ℝ := self.current.theta.v

/-- `lib.rs:301-305` `get_translational_acceleration`. -/
noncomputable def Inner.acceleration (self : Inner) : ℝ :=
  self.current.x.a * Real.cos self.current.theta.x + self.current.y.a * Real.sin self.current.theta.x

open Classical in
/-- `lib.rs:315-327` `apply`. -/
noncomputable def Inner.motor (self : Inner) (maxVoltage : ℝ) (side : Side) (v : ℝ) : Inner :=
  let v := if v > maxVoltage then maxVoltage else if v < -maxVoltage then -maxVoltage else v
  match side with
  | .right => { self with rightVoltage := v }
  | .left => { self with leftVoltage := v }

/-- `lib.rs:150-152` `state`. -/
def Inner.state (self : Inner) : State := self.current

/-- `lib.rs:155-158` `voltage`: right and left. -/
def Inner.voltage (self : Inner) : ℝ × ℝ := (self.rightVoltage, self.leftVoltage)

/-! ## Distance sensors -/

/-- The two copies of the sensor. -/
inductive Copy where
  /-- `obsolete/mousesim/src/lib.rs` -/
  | mousesim
  /-- `obsolete/mousecore/utils/src/sensors.rs` -/
  | utils

/-- `mousesim/src/lib.rs:345-352`, `utils/src/sensors.rs:346-353` the pose of the sensor in the maze. -/
noncomputable def Copy.pose (k : Copy) (s : State) (mount : Pose) : Pose :=
  let sinTh := Real.sin s.theta.x
  let cosTh := Real.cos s.theta.x
  match k with
  | .mousesim => ⟨s.x.x + mount.x * sinTh + mount.y * cosTh, s.y.x + mount.y * sinTh - mount.x * cosTh, s.theta.x + mount.theta⟩
  | .utils => ⟨s.x.x + mount.x * cosTh - mount.y * sinTh, s.y.x + mount.x * sinTh + mount.y * cosTh, s.theta.x + mount.theta⟩

/-- `mousesim/src/lib.rs:361`, `utils/src/sensors.rs:368` the standard deviation reported. -/
noncomputable def Copy.deviation : Copy → ℝ
  | .mousesim => 1 / 1000
  | .utils => 2 / 1000

/-- The errors of `get_distance`: `ConversionError`, and `utils/src/sensors.rs:332-336` `DistanceSensorError`. -/
inductive SensorError where
  | conversion (e : ConvError)
  | notANumber

open Classical in
/-- `mousesim/src/lib.rs:344-363`, `utils/src/sensors.rs:345-370` `get_distance`: mean and standard deviation. The walls belong to the simulator alone: nobody holds one of their
mutexes, so that `exists` (`mazes.rs:16-24`, `wall_manager.rs:307-310`) returns at the first attempt. -/
noncomputable def Inner.getDistance (self : Inner) (k : Copy) (conv : FPose → R (Except ConvError Info)) (W : Nat) (walls : Manager) (mount : Pose) :
    R (Except SensorError (F × F)) := do
  let pose := k.pose self.current mount
  match ← conv ⟨.fin pose.x, .fin pose.y, pose.theta⟩ with
  | .error e => return .error (.conversion e)
  | .ok info => do
    let wall ← spin (fun _ => tryExists exact W (fun _ => false) walls info.wall) 1 0
    let distance := if wall then info.existing else info.notExisting
    match k with
    | .mousesim => return .ok (distance, .fin k.deviation)
    | .utils => if distance.isNan then return .error .notANumber else return .ok (distance, .fin k.deviation)

end Verif.Old.Sim
