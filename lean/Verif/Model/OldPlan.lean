import Verif.Model.OldNode
/-!
# Goals and costs of the former core crate

Positions in `obsolete/mousecore/src/nodes.rs`, and `pattern_converters.rs`.
-/
namespace Verif.Old
open Verif
open Verif.Run (Posture Node SlalomKind SlalomDirection TrajectoryKind)

/-! ## Positions -/

/-- `nodes.rs:47-57` `Position::new`. -/
def positionNew (W : Nat) (x y : Int) : Option (Nat × Nat) :=
  if x < 0 ∨ y < 0 ∨ x > 2 * W - 1 ∨ y > 2 * W - 1 then none
  else if x.toNat &&& y.toNat &&& 1 = 1 then none
  else some (x.toNat, y.toNat)

/-- `commanders.rs:53` -/
def GOAL_MAX : Nat := 8

/-- `nodes.rs:80-84` the nodes of the list of directions; `collect` panics when the vector is full. -/
def goalNodes (W x y : Nat) : List Posture → List Node → R (List Node)
  | [], acc => .ok acc
  | dir :: rest, acc =>
    match RunNode.new W x y dir with
    | none => .error .unreachable
    | some n => do
      let acc ← pushCap GOAL_MAX acc n
      goalNodes W x y rest acc

/-- `nodes.rs:69-87` `GoalVec::<RunNode>::from(Position)`. -/
def goalsOf (W x y : Nat) : R (List Node) :=
  if (x ^^^ y) &&& 1 = 1 then goalNodes W x y [.northEast, .southEast, .southWest, .northWest] []
  else if (x ||| y) &&& 1 = 0 then goalNodes W x y [.north, .east, .south, .west] []
  else .error .unreachable

/-! ## Costs -/

/-- `pattern_converters.rs:18-28`, `pattern_converters.rs:96-106` the costs of the turns in both converters. -/
structure TurnCosts where
  search90 : Nat
  fastRun45 : Nat
  fastRun90 : Nat
  fastRun135 : Nat
  fastRun180 : Nat
  fastRunDiagonal90 : Nat
  spinBack : Nat

/-- `pattern_converters.rs:75-81`, `pattern_converters.rs:123-129` the turns of `convert`. -/
def TurnCosts.of (c : TurnCosts) : Pattern → Nat
  | .straight _ | .straightDiagonal _ => 0
  | .search90 => c.search90
  | .fastRun45 => c.fastRun45
  | .fastRun90 => c.fastRun90
  | .fastRun135 => c.fastRun135
  | .fastRun180 => c.fastRun180
  | .fastRunDiagonal90 => c.fastRunDiagonal90
  | .spinBack => c.spinBack

/-- `pattern_converters.rs:62-84` `LinearPatternConverter::convert`, for a cost type with largest value `MAX`. -/
def linearConvert (MAX : Nat) (c : TurnCosts) (straight diagonal : Nat) : Pattern → R Nat
  | .straight n => if n * straight ≤ MAX then .ok (n * straight) else .error .overflow
  | .straightDiagonal n => if n * diagonal ≤ MAX then .ok (n * diagonal) else .error .overflow
  | p => .ok (c.of p)

/-- `pattern_converters.rs:110-132` `DefaultPatternConverter::convert`. -/
def tableConvert (c : TurnCosts) (straight diagonal : List Nat) : Pattern → R Nat
  | .straight n => match straight[n]? with | some v => .ok v | none => .error .index
  | .straightDiagonal n => match diagonal[n]? with | some v => .ok v | none => .error .index
  | p => .ok (c.of p)

/-- `pattern_converters.rs:32-46`, `pattern_converters.rs:157-166` the default costs of turns. -/
def defaultTurns : TurnCosts := ⟨8, 12, 15, 20, 25, 15, 15⟩

/-- `pattern_converters.rs:42-43` -/
def defaultLinear : Pattern → R Nat := linearConvert 65535 defaultTurns 10 7

/-- `pattern_converters.rs:167-172` -/
def defaultStraight : List Nat :=
  [0, 10, 16, 20, 24, 27, 29, 31, 33, 35, 37, 39, 42, 44, 46, 49, 51, 53, 55, 58, 60,
    62, 65, 67, 69, 72, 74, 76, 78, 81, 83, 85]

/-- `pattern_converters.rs:173-180` -/
def defaultDiagonal : List Nat :=
  [0, 7, 13, 18, 22, 26, 29, 32, 35, 37, 40, 42, 44, 45, 47, 49, 50, 52, 53, 55, 56,
    57, 58, 59, 61, 62, 63, 64, 65, 67, 68, 70, 71, 72, 74, 75, 77, 78, 79, 81, 82, 84,
    85, 87, 88, 90, 91, 92, 94, 95, 97, 98, 99, 101, 102, 104, 105, 107, 108, 109, 111,
    112, 114, 115]

/-- `pattern_converters.rs:157-183` -/
def defaultTable : Pattern → R Nat := tableConvert defaultTurns defaultStraight defaultDiagonal

end Verif.Old
