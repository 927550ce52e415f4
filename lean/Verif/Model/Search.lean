import Verif.Model.Basic
/-!
# Model of `mousecore2/src/solve/search.rs`

The const generic `W : u8` is an ordinary argument `W : Nat`.  Values of type `u8` are `Nat`s, values
of type `i8` are `Int`s; the conversions and checks made by the code are explicit.
-/
namespace Verif.Search
open Verif

/-- `search.rs:8` `FIL_LEN`. -/
def FIL_LEN : Nat := WIDTH * WIDTH / 4

/-- `search.rs:276` `QUE_MAX`. -/
def QUE_MAX : Nat := WIDTH * WIDTH * 2

/-- `search.rs:44-48` `Coordinate<W>`; the two fields are `u8`. -/
structure Coord where
  x : Nat
  y : Nat
  deriving DecidableEq, Repr

/-- `search.rs:36-41` `NeighborKind`. -/
inductive Kind where
  | verticalOrHorizontal
  | bottomLeftToTopRight
  | topLeftToBottomRight
  deriving DecidableEq, Repr

/-- `search.rs:51-56` `Coordinate::new`, for every `u8` value of `W`. `W << 1` on `u8` drops the top
bit. -/
def Coord.new (W x y : Nat) : Option Coord :=
  if !isPow2 W || decide (x ≥ (W <<< 1) % 256) || decide (y ≥ (W <<< 1) % 256)
      || decide ((x ^^^ y) &&& 1 = 0) then
    none
  else
    some ⟨x, y⟩

/-- `search.rs:58-62` `Coordinate::as_index`. -/
def Coord.asIndex (W : Nat) (c : Coord) : Nat :=
  ((c.y >>> 1) <<< (trailingZeros W + 1)) ||| ((c.x >>> 1) <<< 1) ||| (c.y &&& 1)

/-- `search.rs:64-66` `Coordinate::is_top`. -/
def Coord.isTop (c : Coord) : Bool := c.y &&& 1 == 1

/-- `search.rs:244-255` `Coordinate::new_relative`.
Simplification: `2 * W as i8` is written `2 * W`; the two agree for `W ≤ 32` (for `W ≥ 64` the Rust
expression overflows). -/
def Coord.newRelative (W : Nat) (c : Coord) (dx dy : Int) : Option Coord :=
  match checkedAddI8 (asI8 c.x) dx with
  | none => none
  | some x =>
    match checkedAddI8 (asI8 c.y) dy with
    | none => none
    | some y =>
      if x < 0 || y < 0 || decide (x ≥ 2 * (W : Int)) || decide (y ≥ 2 * (W : Int)) then none
      else some ⟨x.toNat, y.toNat⟩

/-! ## Filter (a set of coordinates as bits) -/

/-- `search.rs:10` `Filter([u8; FIL_LEN])`; the byte array as a function on indices. -/
abbrev Filter := Nat → BitVec 8

/-- `search.rs:13-15` `Filter::new`. -/
def Filter.new : Filter := fun _ => 0#8

/-- `search.rs:25-28` `Filter::set`. -/
def Filter.set (W : Nat) (f : Filter) (c : Coord) : R Filter := do
  let index := c.asIndex W
  let b ← arrGet FIL_LEN f (index >>> 3)
  arrSet FIL_LEN f (index >>> 3) (b ||| (1#8 <<< (index &&& 7)))

/-- `search.rs:30-33` `Filter::contains`. -/
def Filter.contains (W : Nat) (f : Filter) (c : Coord) : R Bool := do
  let index := c.asIndex W
  let b ← arrGet FIL_LEN f (index >>> 3)
  return (b >>> (index &&& 7)) &&& 1#8 == 1#8

/-- `search.rs:17-23` `Filter::with_coord`. -/
def Filter.withCoord (W : Nat) (coords : List Coord) : R Filter :=
  coords.foldlM (Filter.set W) Filter.new

/-! ## Neighbours -/

/-- `search.rs:116-132` one `add_seq!(|i| add_with_check(dx * i, dy * i, kind))`: walk away from `c`
until an excluded kind, the border, or a coordinate rejected by `filter`.
The counter `i : i8` of `(1..)` would overflow after 127, which is the error of the `0` case. -/
def scanLine (W : Nat) (c : Coord) (filter : Coord → Bool) (excluded : Bool) (dx dy : Int)
    (kind : Kind) : Nat → Nat → List (Coord × Kind) → R (List (Coord × Kind))
  | 0, _, _ => .error .overflow
  | fuel + 1, i, acc =>
    if excluded then .ok acc
    else
      match c.newRelative W (dx * i) (dy * i) with
      | some c' =>
        if filter c' then do
          let acc ← pushCap (6 * WIDTH) acc (c', kind)
          scanLine W c filter excluded dx dy kind fuel (i + 1) acc
        else .ok acc
      | none => .ok acc

/-- `search.rs:108-145` `Coordinate::extended_neighbors`. -/
def Coord.extendedNeighbors (W : Nat) (c : Coord) (filter : Coord → Bool) (excludes : Kind → Bool) :
    R (List (Coord × Kind)) := do
  let scan := fun dx dy kind acc => scanLine W c filter (excludes kind) dx dy kind 127 1 acc
  let acc ← scan 1 1 .bottomLeftToTopRight []
  let acc ← scan (-1) (-1) .bottomLeftToTopRight acc
  let acc ← scan (-1) 1 .topLeftToBottomRight acc
  let acc ← scan 1 (-1) .topLeftToBottomRight acc
  if c.isTop then do
    let acc ← scan 0 2 .verticalOrHorizontal acc
    scan 0 (-2) .verticalOrHorizontal acc
  else do
    let acc ← scan 2 0 .verticalOrHorizontal acc
    scan (-2) 0 .verticalOrHorizontal acc

/-- `search.rs:155-168` one `add_seq!(|i| add_with_check(dx * i, dy * i))` of `intermediate_coords`. -/
def interLine (W : Nat) (c other : Coord) (dx dy : Int) : Nat → Nat → List Coord → R (List Coord)
  | 0, _, _ => .error .overflow
  | fuel + 1, i, acc =>
    match c.newRelative W (dx * i) (dy * i) with
    | some c' =>
      if c' ≠ other then do
        let acc ← pushCap (2 * WIDTH) acc c'
        interLine W c other dx dy fuel (i + 1) acc
      else .ok acc
    | none => .ok acc

/-- `search.rs:151-192` `Coordinate::intermediate_coords`. Note the steps `(i, 0)` and `(0, i)` (not
`2 * i`) in the horizontal and vertical cases. The subtractions of `i8` values below 64 cannot
overflow. -/
def Coord.intermediateCoords (W : Nat) (c other : Coord) : R (List Coord) := do
  let coords ← pushCap (2 * WIDTH) [] c
  let dx := asI8 other.x - asI8 c.x
  let dy := asI8 other.y - asI8 c.y
  if dx = dy ∧ dx > 0 then interLine W c other 1 1 127 1 coords
  else if dx = dy ∧ dx < 0 then interLine W c other (-1) (-1) 127 1 coords
  else if dx = -dy ∧ dx < 0 then interLine W c other (-1) 1 127 1 coords
  else if dx = -dy ∧ dx > 0 then interLine W c other 1 (-1) 127 1 coords
  else if dy = 0 ∧ dx > 0 ∧ dx % 2 = 0 ∧ !c.isTop then interLine W c other 1 0 127 1 coords
  else if dy = 0 ∧ dx < 0 ∧ dx % 2 = 0 ∧ !c.isTop then interLine W c other (-1) 0 127 1 coords
  else if dx = 0 ∧ dy > 0 ∧ dy % 2 = 0 ∧ c.isTop then interLine W c other 0 1 127 1 coords
  else if dx = 0 ∧ dy < 0 ∧ dy % 2 = 0 ∧ c.isTop then interLine W c other 0 (-1) 127 1 coords
  else .error .unreachable

/-- `search.rs:263-268` `WallState`. -/
inductive WallState where
  | unchecked
  | checked (exists_ : Bool)
  deriving DecidableEq, Repr

/-- `search.rs:215-221` `add_with_check` of `neighbors`. -/
def addNeighbor (W : Nat) (c : Coord) (wallState : Coord → WallState) (dx dy : Int)
    (acc : List Coord) : R (List Coord) :=
  match c.newRelative W dx dy with
  | some c' => if wallState c' ≠ .checked true then pushCap 6 acc c' else .ok acc
  | none => .ok acc

/-- `search.rs:213-234` `Coordinate::neighbors`. -/
def Coord.neighbors (W : Nat) (c : Coord) (wallState : Coord → WallState) : R (List Coord) := do
  let acc ← addNeighbor W c wallState 1 (-1) []
  let acc ← addNeighbor W c wallState (-1) (-1) acc
  let acc ← addNeighbor W c wallState (-1) 1 acc
  let acc ← addNeighbor W c wallState 1 1 acc
  if c.isTop then do
    let acc ← addNeighbor W c wallState 0 (-2) acc
    addNeighbor W c wallState 0 2 acc
  else do
    let acc ← addNeighbor W c wallState (-2) 0 acc
    addNeighbor W c wallState 2 0 acc

/-- `search.rs:236-242` `Coordinate::is_neighbor`. -/
def Coord.isNeighbor (c other : Coord) : Bool :=
  let d := (asI8 other.x - asI8 c.x, asI8 other.y - asI8 c.y)
  (c.isTop && (d == (0, -2) || d == (0, 2)))
    || (!c.isTop && (d == (-2, 0) || d == (2, 0)))
    || (d == (1, -1) || d == (-1, -1) || d == (-1, 1) || d == (1, 1))

/-! ## Searcher -/

/-- `search.rs:258-261` `Searcher`. -/
structure Searcher where
  start : Coord
  goalFilter : Filter

/-- `search.rs:293-298` `Searcher::new`. -/
def Searcher.new (W : Nat) (start : Coord) (goals : List Coord) : R Searcher := do
  let goalFilter ← Filter.withCoord W goals
  return { start, goalFilter }

/-- The local variables `que`, `prev`, `kinds` of `bfs_tree`, `search.rs:304-306`. -/
structure BfsState where
  que : List Coord
  prev : Nat → Option Coord
  kinds : Nat → Kind → Bool

/-- How the `for` loop of `bfs_tree` ends: normally, or with `return Some((prev, next))`. -/
inductive BfsOut where
  | cont (s : BfsState)
  | found (prev : Nat → Option Coord) (goal : Coord)

/-- `search.rs:311-321` the `for` loop of `bfs_tree`. -/
def bfsFor (W : Nat) (goal : Filter) (node : Coord) : List (Coord × Kind) → BfsState → R BfsOut
  | [], s => .ok (.cont s)
  | (next, kind) :: rest, s => do
    let i := next.asIndex W
    let ks ← arrGet QUE_MAX s.kinds i
    let kinds ← arrSet QUE_MAX s.kinds i (fun k => if k = kind then true else ks k)
    let p ← arrGet QUE_MAX s.prev i
    if p.isSome then bfsFor W goal node rest { s with kinds }
    else do
      let prev ← arrSet QUE_MAX s.prev i (some node)
      if ← goal.contains W next then .ok (.found prev next)
      else do
        let que ← pushCap QUE_MAX s.que next
        bfsFor W goal node rest { que, prev, kinds }

/-- `search.rs:310-323` the `while` loop of `bfs_tree`. -/
def bfsLoop (W : Nat) (goal : Filter) (isWall : Coord → Bool) :
    Nat → BfsState → R (Option ((Nat → Option Coord) × Coord))
  | 0, _ => .error .diverge
  | fuel + 1, s =>
    match s.que with
    | [] => .ok none
    | node :: que => do
      let excludes ← arrGet QUE_MAX s.kinds (node.asIndex W)
      let ns ← node.extendedNeighbors W (fun c => !isWall c) excludes
      match ← bfsFor W goal node ns { s with que } with
      | .found prev g => .ok (some (prev, g))
      | .cont s' => bfsLoop W goal isWall fuel s'

/-- `search.rs:300-324` `Searcher::bfs_tree`. -/
def Searcher.bfsTree (W : Nat) (self : Searcher) (isWall : Coord → Bool) :
    R (Option ((Nat → Option Coord) × Coord)) := do
  let que ← pushCap QUE_MAX [] self.start
  let prev ← arrSet QUE_MAX (fun _ => none) (self.start.asIndex W) (some self.start)
  bfsLoop W self.goalFilter isWall (QUE_MAX + 1) { que, prev, kinds := fun _ _ => false }

/-- `search.rs:332-338` the `while` loop of `shortest_path`. -/
def pathLoop (W : Nat) (start : Coord) (prev : Nat → Option Coord) :
    Nat → Coord → List Coord → R (List Coord)
  | 0, _, _ => .error .diverge
  | fuel + 1, cur, path => do
    match ← arrGet QUE_MAX prev (cur.asIndex W) with
    | none => .ok path
    | some next => do
      let path ← pushCap QUE_MAX path cur
      if cur = start then .ok path else pathLoop W start prev fuel next path

/-- `search.rs:326-341` `Searcher::shortest_path`. -/
def Searcher.shortestPath (W : Nat) (self : Searcher) (isWall : Coord → Bool) :
    R (Option (List Coord)) := do
  match ← self.bfsTree W isWall with
  | none => return none
  | some (prev, cur) => do
    let path ← pathLoop W self.start prev (QUE_MAX + 1) cur []
    return some path.reverse

/-- `search.rs:353-359` the body of the loop of `unchecked_walls` for one pair `(cur, next)`. -/
def markUnchecked (W : Nat) (wallState : Coord → WallState) :
    List Coord → Filter × Bool → R (Filter × Bool)
  | [], s => .ok s
  | node :: rest, (filter, flag) =>
    if wallState node = .unchecked then do
      let filter ← filter.set W node
      markUnchecked W wallState rest (filter, true)
    else markUnchecked W wallState rest (filter, flag)

/-- `search.rs:352-364` the `while` loop of `unchecked_walls`. -/
def uncheckedLoop (W : Nat) (start : Coord) (wallState : Coord → WallState)
    (prev : Nat → Option Coord) : Nat → Coord → Filter × Bool → R (Filter × Bool)
  | 0, _, _ => .error .diverge
  | fuel + 1, cur, s => do
    match ← arrGet QUE_MAX prev (cur.asIndex W) with
    | none => .ok s
    | some next => do
      let coords ← cur.intermediateCoords W next
      let s ← markUnchecked W wallState coords s
      if next = start then .ok s else uncheckedLoop W start wallState prev fuel next s

/-- `search.rs:343-370` `Searcher::unchecked_walls`. -/
def Searcher.uncheckedWalls (W : Nat) (self : Searcher) (wallState : Coord → WallState)
    (prev : Nat → Option Coord) (goal : Coord) : R (Option Filter) := do
  let (filter, flag) ← uncheckedLoop W self.start wallState prev (QUE_MAX + 1) goal
    (Filter.new, false)
  return if flag then some filter else none

/-- Pushing a list element by element, `search.rs:387-394`. -/
def pushAll (cap : Nat) : List Coord → List Coord → R (List Coord)
  | [], acc => .ok acc
  | c :: cs, acc => do
    let acc ← pushCap cap acc c
    pushAll cap cs acc

/-- `search.rs:382-396` the closure `candidates` of `Searcher::candidates`. -/
def arrange (current : Coord) (neighbors : List Coord) (nearest : Coord) : R (List Coord) := do
  let isNear := fun c => nearest.isNeighbor c
  let isSelf := fun c => decide (nearest = c) || decide (current = c)
  let acc ← pushCap 6 [] nearest
  let acc ← pushAll 6 (neighbors.filter fun c => isNear c && !isSelf c) acc
  pushAll 6 (neighbors.filter fun c => !isNear c && !isSelf c) acc

/-- Local variables `que`, `is_visisted` of `candidates`, `search.rs:377-378`. -/
structure CandState where
  que : List (Coord × Nat)
  visited : Nat → Bool

/-- How a loop of `candidates` ends: normally, or with `return` of the index of the neighbour that
leads to the wall found. -/
inductive CandOut where
  | cont (s : CandState)
  | found (origin : Nat)

/-- `search.rs:398-404` the first loop of `candidates`. -/
def candFirst (W : Nat) (unchecked : Coord → R Bool) :
    List Coord → Nat → CandState → R CandOut
  | [], _, s => .ok (.cont s)
  | next :: rest, i, s => do
    if ← unchecked next then .ok (.found i)
    else do
      let que ← pushCap QUE_MAX s.que (next, i)
      let visited ← arrSet QUE_MAX s.visited (next.asIndex W) true
      candFirst W unchecked rest (i + 1) { que, visited }

/-- `search.rs:407-416` the `for` loop of `candidates`. -/
def candFor (W : Nat) (unchecked : Coord → R Bool) (i : Nat) :
    List Coord → CandState → R CandOut
  | [], s => .ok (.cont s)
  | next :: rest, s => do
    if ← arrGet QUE_MAX s.visited (next.asIndex W) then candFor W unchecked i rest s
    else do
      if ← unchecked next then .ok (.found i)
      else do
        let visited ← arrSet QUE_MAX s.visited (next.asIndex W) true
        let que ← pushCap QUE_MAX s.que (next, i)
        candFor W unchecked i rest { que, visited }

/-- `search.rs:406-417` the `while` loop of `candidates`. -/
def candLoop (W : Nat) (wallState : Coord → WallState) (unchecked : Coord → R Bool) :
    Nat → CandState → R (Option Nat)
  | 0, _ => .error .diverge
  | fuel + 1, s =>
    match s.que with
    | [] => .ok none
    | (node, i) :: que => do
      let ns ← node.neighbors W wallState
      match ← candFor W unchecked i ns { s with que } with
      | .found i => .ok (some i)
      | .cont s' => candLoop W wallState unchecked fuel s'

/-- `search.rs:372-419` `Searcher::candidates`. -/
def candidates (W : Nat) (current : Coord) (wallState : Coord → WallState)
    (unchecked : Coord → R Bool) : R (Option (List Coord)) := do
  let visited ← arrSet QUE_MAX (fun _ => false) (current.asIndex W) true
  let neighbors ← current.neighbors W wallState
  let pick := fun (i : Nat) => do
    match neighbors[i]? with
    | some n => return some (← arrange current neighbors n)
    | none => .error .index
  match ← candFirst W unchecked neighbors 0 { que := [], visited } with
  | .found i => pick i
  | .cont s =>
    match ← candLoop W wallState unchecked (QUE_MAX + 1) s with
    | some i => pick i
    | none => return none

/-- `search.rs:271-274` `SearchError`. -/
inductive SearchError where
  | unreachable
  deriving DecidableEq, Repr

/-- `search.rs:447-450` `Commander`. -/
structure Commander where
  candidates : List Coord
  deriving DecidableEq, Repr

/-- `search.rs:421-444` `Searcher::search`. -/
def Searcher.search (W : Nat) (self : Searcher) (current : Coord) (wallState : Coord → WallState) :
    R (Except SearchError (Option Commander)) := do
  match ← self.bfsTree W (fun c => decide (wallState c = .checked true)) with
  | none => return .error .unreachable
  | some (prev, goal) => do
    match ← self.uncheckedWalls W wallState prev goal with
    | none => return .ok none
    | some walls => do
      match ← candidates W current wallState (fun c => walls.contains W c) with
      | none => return .error .unreachable
      | some candidates => return .ok (some { candidates })

/-- `search.rs:453-465` `Commander::next_coordinate`, on the candidate list. -/
def nextCoordinateAux (wallState : Coord → WallState) :
    List Coord → Except SearchError (Option Coord)
  | [] => .error .unreachable
  | c :: cs =>
    match wallState c with
    | .checked false => .ok (some c)
    | .unchecked => .ok none
    | .checked true => nextCoordinateAux wallState cs

/-- `search.rs:453-465` `Commander::next_coordinate`. -/
def Commander.nextCoordinate (self : Commander) (wallState : Coord → WallState) :
    Except SearchError (Option Coord) :=
  nextCoordinateAux wallState self.candidates

/-- `search.rs:467-475` `Commander::force_next_coordinate`. -/
def Commander.forceNextCoordinate (self : Commander) (wallState : Coord → WallState) :
    Option Coord :=
  self.candidates.find? fun c => decide (wallState c = .checked false)

/-! ## Robot state -/

/-- `search.rs:478-484` `Posture`. -/
inductive Posture where
  | north | east | south | west
  deriving DecidableEq, Repr

/-- `search.rs:486-492` `TrajectoryKind`. -/
inductive TrajectoryKind where
  | front | right | left | back
  deriving DecidableEq, Repr

/-- `search.rs:494-498` `SearchState`. -/
structure SearchState where
  coord : Coord
  posture : Posture
  deriving DecidableEq, Repr

/-- `search.rs:501-508` `SearchState::new`. -/
def SearchState.new (coord : Coord) (posture : Posture) : Option SearchState :=
  match coord.isTop, posture with
  | true, .north | true, .south | false, .east | false, .west => some { coord, posture }
  | _, _ => none

open Posture TrajectoryKind in
/-- `search.rs:539-569` the match of `SearchState::update`: new absolute posture and relative
direction, `none` for `return None`, error for `unreachable!()`. -/
def updateTable (top : Bool) (p : Posture) (dx dy : Int) :
    R (Option (Posture × TrajectoryKind)) :=
  match top, p with
  | true, .north =>
    .ok (if (dx, dy) = (0, 2) then some (north, front)
      else if (dx, dy) = (1, 1) then some (east, right)
      else if (dx, dy) = (-1, 1) then some (west, left)
      else if (dx, dy) = (0, -2) ∨ (dx, dy) = (1, -1) ∨ (dx, dy) = (-1, -1) then some (south, back)
      else none)
  | true, .south =>
    .ok (if (dx, dy) = (0, -2) then some (south, front)
      else if (dx, dy) = (1, -1) then some (east, left)
      else if (dx, dy) = (-1, -1) then some (west, right)
      else if (dx, dy) = (0, 2) ∨ (dx, dy) = (1, 1) ∨ (dx, dy) = (-1, 1) then some (north, back)
      else none)
  | false, .east =>
    .ok (if (dx, dy) = (2, 0) then some (east, front)
      else if (dx, dy) = (1, -1) then some (south, right)
      else if (dx, dy) = (1, 1) then some (north, left)
      else if (dx, dy) = (-2, 0) ∨ (dx, dy) = (-1, -1) ∨ (dx, dy) = (-1, 1) then some (west, back)
      else none)
  | false, .west =>
    .ok (if (dx, dy) = (-2, 0) then some (west, front)
      else if (dx, dy) = (-1, -1) then some (south, left)
      else if (dx, dy) = (-1, 1) then some (north, right)
      else if (dx, dy) = (2, 0) ∨ (dx, dy) = (1, -1) ∨ (dx, dy) = (1, 1) then some (east, back)
      else none)
  | _, _ => .error .unreachable

/-- `search.rs:528-575` `SearchState::update`: the new state and the returned value. -/
def SearchState.update (self : SearchState) (next : Coord) :
    R (SearchState × Option TrajectoryKind) := do
  let dx := asI8 next.x - asI8 self.coord.x
  let dy := asI8 next.y - asI8 self.coord.y
  match ← updateTable self.coord.isTop self.posture dx dy with
  | none => return (self, none)
  | some (abs, rel) =>
    let coord := if rel ≠ .back then next else self.coord
    return ({ coord, posture := abs }, some rel)

end Verif.Search
