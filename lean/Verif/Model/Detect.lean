import Verif.Model.Walls
import Verif.Model.Float
/-!
# Model of the wall detector, `mousecore2/src/wall.rs:76-220`

Units are erased (lengths in metres, angles in radians). The arithmetic is a parameter; the pose converter
(`Verif.Model.Convert`) is a parameter as well.
-/
namespace Verif.Detect
open Verif Verif.Search

/-- `wall.rs:24-29` `Pose`. -/
structure Pose where
  x : ℝ
  y : ℝ
  theta : ℝ

/-- `wall.rs:18-22` `WallInfo`. -/
structure WallInfo where
  coord : Coord
  existing : F
  notExisting : F

/-- `wall.rs:76` `EXISTENCE_ARRAY_LEN`. -/
def LEN : Nat := WIDTH * WIDTH * 2

/-- `wall.rs:78-82` `WallDetector`: the array of probabilities (the converter is fixed by `Default`). -/
abbrev Detector := Nat → F

/-- `core::f32::EPSILON`. -/
noncomputable def EPSILON : ℝ := 1 / 2 ^ 23

/-- `wall.rs:88-94` `Probability::new`. A negative zero cannot occur in this model. -/
noncomputable def probability (v : F) : Option F :=
  open Classical in
  if v.isNan ∨ v.lt (.fin 0) ∨ (F.fin 1).lt v then none else some v

/-- `wall.rs:108-110` `Probability::reverse`. -/
noncomputable def reverse (A : Arith) (p : F) : F := A.sub (.fin 1) p

/-- `wall.rs:112-114` `Probability::is_one`. -/
def isOne (A : Arith) (p : F) : Prop := (A.sub p (.fin 1)).abs.lt (.fin EPSILON)

/-- `wall.rs:116-118` `Probability::is_zero`. -/
def isZero (p : F) : Prop := p.abs.lt (.fin EPSILON)

/-- `wall.rs:128-133` `WallDetector::new`. -/
noncomputable def new : Detector := fun _ => .fin (1 / 2)

/-- `wall.rs:142-146` the probability for a known state. -/
noncomputable def ofState : WallState → F
  | .unchecked => .fin (1 / 2)
  | .checked true => .fin 1
  | .checked false => .fin 0

/-- `wall.rs:139-147` the loop over `k`, `n` rounds left. -/
noncomputable def withK (W : Nat) (w : Walls.Walls) (i j : Nat) : Nat → Nat → Detector → R Detector
  | 0, _, d => .ok d
  | n + 1, k, d => do
    let c ← unwrap (Coord.new W ((i <<< 1) ||| ((1 + k) &&& 1)) ((j <<< 1) ||| k))
    let st ← Walls.wallState W w c
    let d ← arrSet LEN d (c.asIndex W) (ofState st)
    withK W w i j n (k + 1) d

/-- `wall.rs:138-148` the loop over `j`. -/
noncomputable def withJ (W : Nat) (w : Walls.Walls) (i : Nat) : Nat → Nat → Detector → R Detector
  | 0, _, d => .ok d
  | n + 1, j, d => do
    let d ← withK W w i j 2 0 d
    withJ W w i n (j + 1) d

/-- `wall.rs:137-149` the loop over `i`. -/
noncomputable def withI (W : Nat) (w : Walls.Walls) : Nat → Nat → Detector → R Detector
  | 0, _, d => .ok d
  | n + 1, i, d => do
    let d ← withJ W w i W 0 d
    withI W w n (i + 1) d

/-- `wall.rs:135-151` `WallDetector::with_walls`. -/
noncomputable def withWalls (W : Nat) (w : Walls.Walls) : R Detector := withI W w W 0 new

/-- `wall.rs:177-180`, `wall.rs:181-184` logarithm of the likelihood: `-tmp * tmp / 2`. -/
noncomputable def score (A : Arith) (expected mean stddev : F) : F :=
  let tmp := A.div (A.sub expected mean) stddev
  A.div (A.mul tmp.neg tmp) (.fin 2)

open Classical in
/-- `wall.rs:186-204` the new probability. -/
noncomputable def posterior (A : Arith) (p existVal notExistVal : F) : R F :=
  if existVal.isNan then .error .assert
  else if notExistVal.isNan then .error .assert
  else
    let min := if existVal.lt notExistVal then existVal else notExistVal
    let e := A.mul (A.exp (A.sub existVal min)) p
    let n := A.mul (A.exp (A.sub notExistVal min)) (reverse A p)
    if e.isInfinite then .ok (.fin 1)
    else if n.isInfinite then .ok (.fin 0)
    else unwrap (probability (A.div e (A.add e n)))

/-- `wall.rs:220` `WALL_EXISTENCE_TH`, the literal 0.1. -/
noncomputable def TH (A : Arith) : F := A.rnd (1 / 10)

open Classical in
/-- `wall.rs:208-214` the state reported for a probability. -/
noncomputable def report (A : Arith) (p : F) : WallState :=
  if p.lt (TH A) then .checked false
  else if (reverse A (TH A)).lt p then .checked true
  else .unchecked

open Classical in
/-- `wall.rs:161-217` `WallDetector::detect_and_update`: the new detector and the returned value. -/
noncomputable def detectAndUpdate (A : Arith) (convert : Pose → Option WallInfo) (W : Nat) (d : Detector)
    (mean stddev : F) (pose : Pose) : R (Detector × Option (Coord × WallState)) := do
  match convert pose with
  | none => return (d, none)
  | some info => do
    let p ← arrGet LEN d (info.coord.asIndex W)
    if isZero p ∨ isOne A p then return (d, none)
    else do
      let p' ← posterior A p (score A info.existing mean stddev) (score A info.notExisting mean stddev)
      let d ← arrSet LEN d (info.coord.asIndex W) p'
      return (d, some (info.coord, report A p'))

end Verif.Detect
