import Verif.Model.Single
import Verif.Model.SingleConvert
import Verif.Model.Walls
/-!
# Model of the simulator, `mousesim2/src/lib.rs`, in floating point arithmetic

The counterpart of `Verif.Model.Sim`: every operation is rounded, infinities and `nan` take the paths they take in the source.
-/
namespace Verif.Single
open Verif Verif.Search Verif.Detect

/-- `lib.rs:36-55` `Simulator`; the pose converter is always the default one. -/
structure Simulator where
  walls : Walls.Walls
  current : State
  last : State
  rightVoltage : F
  leftVoltage : F
  maxVoltage : F
  period : F
  transK : F
  transT1 : F
  rotK : F
  rotT1 : F
  wheelInterval : F

/-- The builder: both voltages start at zero (`lib.rs:41-44`). -/
noncomputable def Simulator.new (walls : Walls.Walls) (current last : State) (maxVoltage period transK transT1 rotK rotT1 wheelInterval : F) :
    Simulator :=
  { walls, current, last, rightVoltage := .fin 0, leftVoltage := .fin 0, maxVoltage, period, transK, transT1, rotK, rotT1, wheelInterval }

/-- `lib.rs:93-95` `trans_vel`. -/
noncomputable def transVel (A : Arith) (L : Lib) (s : State) : F :=
  A.add (A.mul s.x.v (L.cos s.theta.x)) (A.mul s.y.v (L.sin s.theta.x))

/-- `lib.rs:97-113` the low-pass filter of `next_trans_vel` and `next_rot_vel`, for the sum or difference `volts` of the voltages. -/
noncomputable def lowPass (A : Arith) (t1 period k current volts : F) : F :=
  let alpha := A.div t1 (A.add t1 period)
  A.add (A.mul current alpha) (A.mul (A.sub (.fin 1) alpha) (A.mul k (A.div volts (.fin 2))))

/-- `lib.rs:97-104` `next_trans_vel`. -/
noncomputable def Simulator.nextTransVel (A : Arith) (L : Lib) (self : Simulator) : F :=
  lowPass A self.transT1 self.period self.transK (transVel A L self.current) (A.add self.rightVoltage self.leftVoltage)

/-- `lib.rs:106-113` `next_rot_vel`. -/
noncomputable def Simulator.nextRotVel (A : Arith) (self : Simulator) : F :=
  lowPass A self.rotT1 self.period self.rotK self.current.theta.v (A.sub self.rightVoltage self.leftVoltage)

/-- `lib.rs:62-91` `step`. -/
noncomputable def Simulator.step (A : Arith) (L : Lib) (self : Simulator) : Simulator :=
  let currentVel := transVel A L self.current
  let nextVel := self.nextTransVel A L
  let nextRot := self.nextRotVel A
  let thetaX := A.add self.current.theta.x (A.mul nextRot self.period)
  let thetaA := A.div (A.sub nextRot self.current.theta.v) self.period
  let curSin := L.sin self.current.theta.x
  let curCos := L.cos self.current.theta.x
  let nextSin := L.sin thetaX
  let nextCos := L.cos thetaX
  let xx := A.add self.current.x.x (A.div (A.mul (A.add (A.mul currentVel curCos) (A.mul nextVel nextCos)) self.period) (.fin 2))
  let yx := A.add self.current.y.x (A.div (A.mul (A.add (A.mul currentVel curSin) (A.mul nextVel nextSin)) self.period) (.fin 2))
  let xv := A.mul nextVel nextCos
  let yv := A.mul nextVel nextSin
  let xa := A.div (A.sub xv self.current.x.v) self.period
  let ya := A.div (A.sub yv self.current.y.v) self.period
  { self with
    last := self.current
    current := ⟨⟨xx, xv, xa⟩, ⟨yx, yv, ya⟩, ⟨thetaX, nextRot, thetaA⟩⟩ }

/-- `lib.rs:126-134` `average`. -/
noncomputable def Simulator.average (A : Arith) (self : Simulator) (f : State → F) : F :=
  A.div (A.add (f self.current) (f self.last)) (.fin 2)

/-- `lib.rs:115-124` `distance`: the encoder outputs, left and right. -/
noncomputable def Simulator.distance (A : Arith) (L : Lib) (self : Simulator) : F × F :=
  let trans := self.average A fun s => A.add (A.mul s.x.v (L.cos s.theta.x)) (A.mul s.y.v (L.sin s.theta.x))
  let rot := self.average A fun s => s.theta.v
  (A.mul (A.sub trans (A.div (A.mul rot self.wheelInterval) (.fin 2))) self.period,
   A.mul (A.add trans (A.div (A.mul rot self.wheelInterval) (.fin 2))) self.period)

/-- `lib.rs:136-138` `angular_velocity`. -/
def Simulator.angularVelocity (self : Simulator) : F := self.current.theta.v

/-- `lib.rs:140-143` `translational_acceleration`. -/
noncomputable def Simulator.transAcc (A : Arith) (L : Lib) (self : Simulator) : F :=
  A.add (A.mul self.current.x.a (L.cos self.current.theta.x)) (A.mul self.current.y.a (L.sin self.current.theta.x))

open Classical in
/-- `lib.rs:146-154` the closure `limit`. -/
noncomputable def limit (max val : F) : F := if max.lt val then max else if val.lt max.neg then max.neg else val

/-- `lib.rs:145-159` `apply`. -/
noncomputable def Simulator.apply (self : Simulator) (left right : F) : Simulator :=
  { self with leftVoltage := limit self.maxVoltage left, rightVoltage := limit self.maxVoltage right }

open Classical in
/-- `lib.rs:161-178` `distance_from_wall`: mean and standard deviation. -/
noncomputable def Simulator.distanceFromWall (A : Arith) (L : Lib) (W : Nat) (sort : List (Convert.Dir × F) → List (Convert.Dir × F))
    (self : Simulator) (x y theta : F) : R (Option (F × F)) := do
  match (Finder.default A).convert A L W sort x y theta with
  | none => return none
  | some info => do
    let st ← Walls.wallState W self.walls info.coord
    let distance := if st = .checked true then info.existing else info.notExisting
    if distance.isNan then return none else return some (distance, A.rnd (2 / 1000))

/-- `mousecore2/tests/search.rs:315-331` the walls seen from a list of sensor poses. The poses are finite here; how they are computed
from the estimated state (`search.rs:316-322`) is in `Verif.Model.SingleTest`. -/
noncomputable def Simulator.inspect (A : Arith) (L : Lib) (W : Nat) (sort : List (Convert.Dir × F) → List (Convert.Dir × F))
    (self : Simulator) : List Pose → Detector → Walls.Walls → R (Detector × Walls.Walls)
  | [], detector, walls => .ok (detector, walls)
  | pose :: rest, detector, walls => do
    match ← self.distanceFromWall A L W sort (.fin pose.x) (.fin pose.y) (.fin pose.theta) with
    | none => self.inspect A L W sort rest detector walls
    | some (mean, stddev) => do
      let (detector, seen) ← detectAndUpdate A
        (fun p => (Finder.default A).convert A L W sort (.fin p.x) (.fin p.y) (.fin p.theta)) W detector mean stddev pose
      match seen with
      | none => self.inspect A L W sort rest detector walls
      | some (coord, wallState) => do
        let walls ← Walls.update W walls coord wallState
        self.inspect A L W sort rest detector walls

end Verif.Single
