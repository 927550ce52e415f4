import Verif.Model.Control
import Verif.Model.Convert
/-!
# Model of the simulator, `mousesim2/src/lib.rs`

Real numbers, SI units, trigonometric functions as a parameter.
-/
namespace Verif.Sim
open Verif Verif.Control Verif.Search Verif.Detect

/-- `lib.rs:36-55` `Simulator`; the pose converter (always the default one) is a parameter where it is used. -/
structure Simulator where
  walls : Walls.Walls
  current : State
  last : State
  rightVoltage : ℝ
  leftVoltage : ℝ
  maxVoltage : ℝ
  period : ℝ
  transK : ℝ
  transT1 : ℝ
  rotK : ℝ
  rotT1 : ℝ
  wheelInterval : ℝ

/-- The builder: both voltages start at zero (`lib.rs:41-44`). -/
def Simulator.new (walls : Walls.Walls) (current last : State) (maxVoltage period transK transT1 rotK rotT1 wheelInterval : ℝ) :
    Simulator :=
  { walls, current, last, rightVoltage := 0, leftVoltage := 0, maxVoltage, period, transK, transT1, rotK, rotT1, wheelInterval }

/-- `lib.rs:93-95` `trans_vel`. -/
noncomputable def transVel (T : Trig) (s : State) : ℝ := s.x.v * T.cos s.theta.x + s.y.v * T.sin s.theta.x

/-- `lib.rs:97-104` `next_trans_vel`. -/
noncomputable def Simulator.nextTransVel (T : Trig) (self : Simulator) : ℝ :=
  let alpha := self.transT1 / (self.transT1 + self.period)
  let voltage := (self.rightVoltage + self.leftVoltage) / 2
  transVel T self.current * alpha + (1 - alpha) * (self.transK * voltage)

/-- `lib.rs:106-113` `next_rot_vel`. -/
noncomputable def Simulator.nextRotVel (self : Simulator) : ℝ :=
  let alpha := self.rotT1 / (self.rotT1 + self.period)
  let voltage := (self.rightVoltage - self.leftVoltage) / 2
  self.current.theta.v * alpha + (1 - alpha) * (self.rotK * voltage)

/-- `lib.rs:62-91` `step`. -/
noncomputable def Simulator.step (T : Trig) (self : Simulator) : Simulator :=
  let currentVel := transVel T self.current
  let nextVel := self.nextTransVel T
  let nextRot := self.nextRotVel
  let thetaX := self.current.theta.x + nextRot * self.period
  let thetaA := (nextRot - self.current.theta.v) / self.period
  let curSin := T.sin self.current.theta.x
  let curCos := T.cos self.current.theta.x
  let nextSin := T.sin thetaX
  let nextCos := T.cos thetaX
  let xx := self.current.x.x + (currentVel * curCos + nextVel * nextCos) * self.period / 2
  let yx := self.current.y.x + (currentVel * curSin + nextVel * nextSin) * self.period / 2
  let xv := nextVel * nextCos
  let yv := nextVel * nextSin
  let xa := (xv - self.current.x.v) / self.period
  let ya := (yv - self.current.y.v) / self.period
  { self with
    last := self.current
    current := ⟨⟨xx, xv, xa⟩, ⟨yx, yv, ya⟩, ⟨thetaX, nextRot, thetaA⟩⟩ }

/-- `lib.rs:126-134` `average`. -/
noncomputable def Simulator.average (self : Simulator) (f : State → ℝ) : ℝ := (f self.current + f self.last) / 2

/-- `lib.rs:115-124` `distance`: the encoder outputs, left and right. -/
noncomputable def Simulator.distance (T : Trig) (self : Simulator) : ℝ × ℝ :=
  let trans := self.average fun s => s.x.v * T.cos s.theta.x + s.y.v * T.sin s.theta.x
  let rot := self.average fun s => s.theta.v
  ((trans - rot * self.wheelInterval / 2) * self.period, (trans + rot * self.wheelInterval / 2) * self.period)

/-- `lib.rs:136-138` `angular_velocity`. -/
def Simulator.angularVelocity (self : Simulator) : ℝ := self.current.theta.v

/-- `lib.rs:140-143` `translational_acceleration`. -/
noncomputable def Simulator.transAcc (T : Trig) (self : Simulator) : ℝ :=
  self.current.x.a * T.cos self.current.theta.x + self.current.y.a * T.sin self.current.theta.x

open Classical in
/-- `lib.rs:146-154` the closure `limit`. -/
noncomputable def limit (max val : ℝ) : ℝ := if val > max then max else if val < -max then -max else val

/-- `lib.rs:145-159` `apply`. -/
noncomputable def Simulator.apply (self : Simulator) (left right : ℝ) : Simulator :=
  { self with leftVoltage := limit self.maxVoltage left, rightVoltage := limit self.maxVoltage right }

open Classical in
/-- `lib.rs:161-178` `distance_from_wall`: mean and standard deviation. -/
noncomputable def Simulator.distanceFromWall (convert : Pose → Option WallInfo) (W : Nat) (self : Simulator) (pose : Pose) :
    R (Option (F × F)) := do
  match convert pose with
  | none => return none
  | some info => do
    let st ← Walls.wallState W self.walls info.coord
    let distance := if st = .checked true then info.existing else info.notExisting
    if distance.isNan then return none else return some (distance, .fin (2 / 1000))

end Verif.Sim
