import Verif.Model.OldManager
import Verif.Model.Convert
import Mathlib.Analysis.SpecialFunctions.Pow.NNReal
/-!
# Wall detector of the former core crate

`obsolete/mousecore/src/wall_detector.rs`. The functions `new`, `remquof_with_width`, `is_near_pillar` and the first part of
`convert` of the pose converter are, up to the treatment of values that are not numbers, the same code as in the newer crate; the
definitions of `Verif.Model.Convert` are used for them. Units are erased (metres, radians); angles and the poses of the sensors on
the machine are exact and finite numbers. Sines and cosines are exact ones, rounded.
-/
namespace Verif.Old.Detect
open Verif Verif.Old Verif.Old.Manager
open Verif.Detect (Pose)
open Verif.Convert (Converter Dir revolution asU8)

/-- A pose of the machine: the position may be infinite or not a number. -/
structure FPose where
  x : F
  y : F
  theta : ℝ

/-- `wall_detector.rs:24-29` `WallInfo`. -/
structure Info where
  wall : Wall
  existing : F
  notExisting : F

/-- `wall_detector.rs:392-396` `ConversionError`. -/
inductive ConvError where
  | wallCreation | outOfBound
  deriving DecidableEq, Repr

/-- `wall_detector.rs:504-529` the wall in a direction. -/
def sideWall (W : Nat) (xQuo yQuo : Int) : Dir → Except ConvError Wall
  | .right => if xQuo < 0 ∨ yQuo < 0 then .error .outOfBound else make (Wall.new W (asU8 xQuo) (asU8 yQuo) false)
  | .left => if xQuo < 1 ∨ yQuo < 0 then .error .outOfBound else make (Wall.new W (asU8 (xQuo - 1)) (asU8 yQuo) false)
  | .top => if xQuo < 0 ∨ yQuo < 0 then .error .outOfBound else make (Wall.new W (asU8 xQuo) (asU8 yQuo) true)
  | .bottom => if xQuo < 0 ∨ yQuo < 1 then .error .outOfBound else make (Wall.new W (asU8 xQuo) (asU8 (yQuo - 1)) true)
where
  /-- The conversion of the error of `Wall::new`, `wall_detector.rs:398-402`. -/
  make : Option Wall → Except ConvError Wall
    | some w => .ok w
    | none => .error .wallCreation

open Classical in
/-- `wall_detector.rs:411-543` `PoseConverter::convert` for a pose of finite numbers, with the definitions of
`Verif.Model.Convert` for `wall_detector.rs:315-383` and `wall_detector.rs:450-502`. The sort is a parameter: the order of equal
distances is not specified. -/
noncomputable def convert (c : Converter) (W : Nat) (sort : List (Dir × F) → List (Dir × F)) (pose : Pose) : Except ConvError Info :=
  let (xRem, xQuo) := c.remquo pose.x
  let (yRem, yQuo) := c.remquo pose.y
  if c.isNearPillar ⟨xRem, yRem, pose.theta⟩ then .error .outOfBound
  else if xRem ≤ c.n1 ∨ c.p1 ≤ xRem ∨ yRem ≤ c.n1 ∨ c.p1 ≤ yRem then .error .outOfBound
  else
    match sort (c.axes (revolution pose.theta) xRem yRem (Real.cos pose.theta) (Real.sin pose.theta)) with
    | (dir, existing) :: (_, notExisting) :: _ =>
      match sideWall W xQuo yQuo dir with
      | .error e => .error e
      | .ok wall => if existing.le (.fin c.ignoreLength) then .error .outOfBound else .ok ⟨wall, existing, notExisting⟩
    | _ => .error .outOfBound

open Classical in
/-- `wall_detector.rs:371-380` the distance from a pillar, for a position that is not finite. -/
noncomputable def pillarDist (x y : F) (theta : ℝ) (p : ℝ × ℝ) : F :=
  (exact.sub (exact.mul (.fin (Real.sin theta)) (exact.sub x (.fin p.1)))
    (exact.mul (.fin (Real.cos theta)) (exact.sub y (.fin p.2)))).abs

open Classical in
/-- `wall_detector.rs:411-543` `PoseConverter::convert`. A position that is not a number fails the assertions; of an infinite one the
remainder is infinite as well, so that it is out of bounds unless the comparison of the distances from the pillars panics
(`utils/total.rs:8-10`). -/
noncomputable def convertF (c : Converter) (W : Nat) (sort : List (Dir × F) → List (Dir × F)) (pose : FPose) : R (Except ConvError Info) :=
  match pose.x, pose.y with
  | .nan, _ | _, .nan => .error .assert
  | .fin x, .fin y => .ok (convert c W sort ⟨x, y, pose.theta⟩)
  | x, y =>
    let x := match x with | .fin x => .fin (c.remquo x).1 | x => x
    let y := match y with | .fin y => .fin (c.remquo y).1 | y => y
    let pillars := c.pillars (revolution pose.theta)
    if (pillarDist x y pose.theta pillars.1).isNan ∨ (pillarDist x y pose.theta pillars.2).isNan then .error .unwrapNone
    else .ok (.error .outOfBound)

/-- `wall_detector.rs:49` `SENSOR_SIZE_UPPER_BOUND`. -/
def SENSORS : Nat := 6

/-- What one sensor delivers during a call, `wall_detector.rs:39-47`: its pose on the machine, the mean and the standard deviation it
measures if it measures anything, and the mutexes held when the memory is read and when it is updated. -/
structure Input where
  mount : Pose
  reading : Option (F × F)
  lockedRead : Nat → Bool
  lockedWrite : Nat → Bool

/-- `utils/robot_state.rs:8-12` the part of `RobotState` that the detector reads or writes. -/
structure State where
  x : F
  y : F
  sx : F
  sy : F
  theta : ℝ

/-- The variables of the loop, `wall_detector.rs:157-161`, with the field `past_poses` and the memory. -/
structure Acc where
  past : Nat → Option FPose
  memory : Manager
  dx : F
  dy : F
  sigma2 : F

/-- `wall_detector.rs:176-193` `sensor_pose`. -/
noncomputable def sensorPose (A : Arith) (m : FPose) (r : Pose) (dx dy : F) : FPose :=
  let s := A.rnd (Real.sin m.theta)
  let c := A.rnd (Real.cos m.theta)
  { x := A.add (A.sub (A.add m.x (A.mul (.fin r.x) c)) (A.mul (.fin r.y) s)) dx
    y := A.add (A.add (A.add m.y (A.mul (.fin r.x) s)) (A.mul (.fin r.y) c)) dy
    theta := m.theta + r.theta }

/-- `wall_detector.rs:211-219` the correction of the position by the distance from a wall that is known to exist. -/
noncomputable def correct (A : Arith) (theta : ℝ) (existing mean stddev : F) (a : Acc) : Acc :=
  let sens2 := A.mul stddev stddev
  let k := A.div a.sigma2 (A.add a.sigma2 sens2)
  let diff := A.mul k (A.sub existing mean)
  { a with
    dx := A.add a.dx (A.mul diff (A.rnd (Real.cos theta)))
    dy := A.add a.dy (A.mul diff (A.rnd (Real.sin theta)))
    sigma2 := A.mul a.sigma2 (A.sub (.fin 1) k) }

/-- `wall_detector.rs:223-228`, `wall_detector.rs:229-234` logarithm of the likelihood: `-tmp * tmp / 2`. -/
noncomputable def score (A : Arith) (expected mean stddev : F) : F :=
  let tmp := A.div (A.sub expected mean) stddev
  A.div (A.mul tmp.neg tmp) (.fin 2)

open Classical in
/-- `wall_detector.rs:236-254` the new probability. -/
noncomputable def posterior (A : Arith) (p existVal notExistVal : F) : R F :=
  if existVal.isNan then .error .assert
  else if notExistVal.isNan then .error .assert
  else
    let min := if existVal.lt notExistVal then existVal else notExistVal
    let e := A.mul (A.exp (A.sub existVal min)) p
    let n := A.mul (A.exp (A.sub notExistVal min)) (reverse A p)
    if e.isInfinite then .ok (.fin 1)
    else if n.isInfinite then .ok (.fin 0)
    else
      match probNew (A.div e (A.add e n)) with
      | some p => .ok p
      | none => .error .unreachable

open Classical in
/-- `wall_detector.rs:163-257` the body of the loop for sensor number `i`. -/
noncomputable def step (A : Arith) (conv : FPose → R (Except ConvError Info)) (W : Nat) (current : FPose) (i : Nat) (inp : Input) (a : Acc) : R Acc := do
  let past ← arrGet SENSORS a.past i
  match inp.reading with
  | none =>
    match past with
    | none => do
      let ps ← arrSet SENSORS a.past i (some current)
      return { a with past := ps }
    | some _ => return a
  | some (mean, stddev) => do
    let ps ← arrSet SENSORS a.past i none
    let a := { a with past := ps }
    let machine := past.getD current
    if machine.x.isNan ∨ machine.y.isNan then .error .assert
    else do
      let pose := sensorPose A machine inp.mount a.dx a.dy
      match ← conv pose with
      | .error _ => return a
      | .ok info => do
        match ← tryProbability W inp.lockedRead a.memory info.wall with
        | none => return a
        | some p =>
          if isZero p then return a
          else if isOne A p then return correct A pose.theta info.existing mean stddev a
          else do
            let p' ← posterior A p (score A info.existing mean stddev) (score A info.notExisting mean stddev)
            match ← tryUpdate W inp.lockedWrite a.memory info.wall p' with
            | none => return a
            | some m => return { a with memory := m }

/-- `wall_detector.rs:163-258` the loop over the sensors, from number `i` on. -/
noncomputable def loop (A : Arith) (conv : FPose → R (Except ConvError Info)) (W : Nat) (current : FPose) : Nat → List Input → Acc → R Acc
  | _, [], a => .ok a
  | i, inp :: rest, a => do
    let a ← step A conv W current i inp a
    loop A conv W current (i + 1) rest a

/-- `utils/math.rs:10-48` `sqrt`, rounded (the code uses an approximation where the standard library is missing). -/
noncomputable def sqrtF (A : Arith) : F → F
  | .nan | .ninf => .nan
  | .pinf => .pinf
  | .fin r => if r < 0 then .nan else A.rnd (Real.sqrt r)

/-- `wall_detector.rs:51-57` `WallDetector`: the past poses, and the memory shared with the search. -/
structure Detector where
  past : Nat → Option FPose
  memory : Manager

/-- `wall_detector.rs:60-71` `WallDetector::new`. -/
def Detector.new (memory : Manager) : Detector := ⟨fun _ => none, memory⟩

/-- `wall_detector.rs:148-265` `detect_and_update`: the new detector and the new state. -/
noncomputable def detectAndUpdate (A : Arith) (conv : FPose → R (Except ConvError Info)) (W : Nat) (d : Detector) (inputs : List Input)
    (s : State) : R (Detector × State) := do
  let average := A.div (A.add s.sx s.sy) (.fin 2)
  let a ← loop A conv W ⟨s.x, s.y, s.theta⟩ 0 inputs ⟨d.past, d.memory, .fin 0, .fin 0, A.mul average average⟩
  let sd := sqrtF A a.sigma2
  return (⟨a.past, a.memory⟩, { s with x := A.add s.x a.dx, y := A.add s.y a.dy, sx := sd, sy := sd })

end Verif.Old.Detect
