import Verif.Model.OldSearch
import Verif.Model.Float
import Verif.Model.Walls
/-!
# Wall memory of the former core crate

`obsolete/mousecore/src/wall_manager.rs`, `utils/probability.rs`, and the trait `WallChecker` of `mazes.rs`. The memory is an array of
mutexes; which of them are held elsewhere is an argument of the functions that call `try_lock`. `N as u8` is `W` (at most 32).
-/
namespace Verif.Old.Manager
open Verif Verif.Old

/-- `utils/probability.rs:13-19` `Probability::new`. A negative zero, which the code rejects, cannot occur in this model. -/
noncomputable def probNew (v : F) : Option F :=
  open Classical in
  if v.isNan ∨ v.lt (.fin 0) ∨ (F.fin 1).lt v then none else some v

/-- `utils/probability.rs:37-39` `Probability::reverse`. -/
noncomputable def reverse (A : Arith) (p : F) : F := A.sub (.fin 1) p

/-- `core::f32::EPSILON`. -/
noncomputable def EPSILON : ℝ := 1 / 2 ^ 23

/-- `utils/probability.rs:41-43` `Probability::is_one`. -/
def isOne (A : Arith) (p : F) : Prop := (A.sub p (.fin 1)).abs.lt (.fin EPSILON)

/-- `utils/probability.rs:45-47` `Probability::is_zero`. -/
def isZero (p : F) : Prop := p.abs.lt (.fin EPSILON)

/-- `wall_manager.rs:15-16` -/
def WALL_MAX : Nat := 2 * WIDTH_MAX * WIDTH_MAX

/-- `wall_manager.rs:101-104` `WallManager`. -/
structure Manager where
  walls : Nat → F
  threshold : F

/-- `wall_manager.rs:157-165` `WallManager::_new`. -/
noncomputable def raw (threshold : F) : Manager := ⟨fun _ => .fin (1 / 2), threshold⟩

/-- `wall_manager.rs:196-201` `WallManager::_update`. -/
def put (W : Nat) (m : Manager) (x y : Nat) (top : Bool) (p : F) : R Manager :=
  match Wall.new W x y top with
  | none => .error .unreachable
  | some w => do
    let walls ← arrSet WALL_MAX m.walls (w.index W) p
    return { m with walls := walls }

/-- `wall_manager.rs:182-188` the loop of `init`, `n` rounds left. -/
noncomputable def initLoop (W : Nat) : Nat → Nat → Manager → R Manager
  | 0, _, m => .ok m
  | n + 1, i, m => do
    let m ← put W m i (W - 1) true (.fin 1)
    let m ← put W m (W - 1) i false (.fin 1)
    initLoop W n (i + 1) m

/-- `wall_manager.rs:179-194` `WallManager::init`. -/
noncomputable def init (W : Nat) (m : Manager) : R Manager := do
  let m ← initLoop W W 0 m
  let m ← put W m 0 0 false (.fin 1)
  put W m 0 0 true (.fin 0)

/-- `wall_manager.rs:173-177` `WallManager::new`. -/
noncomputable def new (W : Nat) (threshold : F) : R Manager := init W (raw threshold)

/-- `wall_manager.rs:248-273` the body of the inner loop of `init_with_str`, for character `c` with index `x` of line `y`. -/
noncomputable def readChar (W y x : Nat) (c : Char) (m : Manager) : R Manager :=
  let y := y % 256
  let x := x % 256
  if y % 2 = 0 then
    if x % 4 ≠ 1 then .ok m
    else if W < y / 2 + 1 then .error .overflow
    else put W m (x / 4) (W - y / 2 - 1) true (if c = '-' then .fin 1 else .fin 0)
  else
    if x % 4 ≠ 0 then .ok m
    else if W < y / 2 + 1 ∨ x / 4 = 0 then .error .overflow
    else put W m (x / 4 - 1) (W - y / 2 - 1) false (if c = '|' then .fin 1 else .fin 0)

/-- `wall_manager.rs:247-273` the loop over the characters of line `y` from index `x` on. -/
noncomputable def readLine (W y : Nat) : Nat → List Char → Manager → R Manager
  | _, [], m => .ok m
  | x, c :: cs, m => do
    let m ← readChar W y x c m
    readLine W y (x + 1) cs m

/-- `wall_manager.rs:245-274` the loop over the lines from index `y` on. -/
noncomputable def readLines (W : Nat) : Nat → List (List Char) → Manager → R Manager
  | _, [], m => .ok m
  | y, l :: ls, m => do
    let m ← readLine W y 1 (l.drop 1) m
    readLines W (y + 1) ls m

/-- `wall_manager.rs:234-275` `WallManager::with_str`, `init_with_str`. -/
noncomputable def withStr (W : Nat) (threshold : F) (input : List Char) : R Manager :=
  readLines W 0 ((Walls.lines input).take (2 * W)) (raw threshold)

/-- `wall_manager.rs:289-291` `try_existence_probability`; `locked` are the mutexes held elsewhere. -/
def tryProbability (W : Nat) (locked : Nat → Bool) (m : Manager) (w : Wall) : R (Option F) := do
  let p ← arrGet WALL_MAX m.walls (w.index W)
  return if locked (w.index W) then none else some p

/-- `wall_manager.rs:293-296` `try_update`. -/
def tryUpdate (W : Nat) (locked : Nat → Bool) (m : Manager) (w : Wall) (p : F) : R (Option Manager) := do
  let walls ← arrSet WALL_MAX m.walls (w.index W) p
  return if locked (w.index W) then none else some { m with walls := walls }

/-- `mazes.rs:16-24` `block!`, `mazes.rs:33-39`, `wall_manager.rs:277-279` `update`: the attempts at times `t`, `t + 1`, … until one succeeds. -/
def spin {α : Type} (attempt : Nat → R (Option α)) : Nat → Nat → R α
  | 0, _ => .error .diverge
  | fuel + 1, t => do
    match ← attempt t with
    | some a => return a
    | none => spin attempt fuel (t + 1)

open Classical in
/-- `wall_manager.rs:302-305` `try_is_checked`. -/
noncomputable def tryChecked (A : Arith) (W : Nat) (locked : Nat → Bool) (m : Manager) (w : Wall) : R (Option Bool) := do
  let p ← tryProbability W locked m w
  return p.map fun p => decide (p.lt m.threshold ∨ (reverse A m.threshold).lt p)

open Classical in
/-- `wall_manager.rs:307-310` `try_exists`. -/
noncomputable def tryExists (A : Arith) (W : Nat) (locked : Nat → Bool) (m : Manager) (w : Wall) : R (Option Bool) := do
  let p ← tryProbability W locked m w
  return p.map fun p => decide ((reverse A m.threshold).lt p)

/-! ## Display -/

/-- `wall_manager.rs:117-120` the closure `prob` of `fmt`, formatted by `show_` (`{:1.1}`). -/
def shown (show_ : F → List Char) (W : Nat) (m : Manager) (x y : Nat) (top : Bool) : R (List Char) := do
  let w ← unwrap (Wall.new W x y top)
  let p ← arrGet WALL_MAX m.walls (w.index W)
  return show_ p

/-- `wall_manager.rs:124-126` the loop over the top walls of a row, `n` rounds left. -/
def showTops (show_ : F → List Char) (W : Nat) (m : Manager) (y : Nat) : Nat → Nat → R (List Char)
  | 0, _ => .ok []
  | n + 1, x => do
    let p ← shown show_ W m x y true
    let rest ← showTops show_ W m y n (x + 1)
    return p ++ "--+--".toList ++ rest

/-- `wall_manager.rs:136-138` the loop over the right walls of a row. -/
def showRights (show_ : F → List Char) (W : Nat) (m : Manager) (y : Nat) : Nat → Nat → R (List Char)
  | 0, _ => .ok []
  | n + 1, x => do
    let p ← shown show_ W m x y false
    let rest ← showRights show_ W m y n (x + 1)
    return "    ".toList ++ p ++ " ".toList ++ rest

/-- A text written `n` times. -/
def times (n : Nat) (s : String) : List Char := (List.replicate n s.toList).flatten

/-- `wall_manager.rs:122-146` the loop over the rows, `n` rounds left. -/
def showRows (show_ : F → List Char) (W : Nat) (m : Manager) : Nat → R (List Char)
  | 0 => .ok []
  | n + 1 => do
    let tops ← showTops show_ W m n (W - 1) 0
    let last ← shown show_ W m (W - 1) n true
    let rights ← showRights show_ W m n W 0
    let rest ← showRows show_ W m n
    return " +--".toList ++ tops ++ last ++ "--+\n".toList ++ " |  ".toList ++ times W "     |  " ++ "\n".toList ++
      "1.0 ".toList ++ rights ++ "\n".toList ++ " |  ".toList ++ times W "     |  " ++ "\n".toList ++ rest

/-- `wall_manager.rs:115-154` `Display for WallManager`. -/
def display (show_ : F → List Char) (W : Nat) (m : Manager) : R (List Char) := do
  let rows ← showRows show_ W m W
  return "\n".toList ++ rows ++ " +--".toList ++ times (W - 1) "1.0--+--" ++ "1.0--+\n".toList

/-- What the search commander reads from the memory. A `Wall` with coordinates outside of the maze cannot be made with `Wall::new`;
here it counts as not checked. -/
noncomputable def belief (A : Arith) (W : Nat) (locked : Nat → Bool) (m : Manager) : Belief where
  checked w := decide (w.x < W ∧ w.y < W) && decide (tryChecked A W (fun _ => false) m w = .ok (some true))
  present w := decide (w.x < W ∧ w.y < W) && decide (tryExists A W (fun _ => false) m w = .ok (some true))
  locked w := locked (w.index W)

end Verif.Old.Manager
