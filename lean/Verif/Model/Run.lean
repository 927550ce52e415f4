import Verif.Model.Search
/-!
# Model of `mousecore2/src/solve/run.rs`

`u8`/`u16` values are `Nat`s, `i8` values are `Int`s, the const generic `W` is an argument.
-/
namespace Verif.Run
open Verif

/-- `run.rs:11-13`. -/
def QUE_MAX : Nat := WIDTH * WIDTH * 16
def PATH_MAX : Nat := WIDTH * WIDTH
def NEIGHBOR_MAX : Nat := 2 * WIDTH + 4

/-- `run.rs:15-25` `Posture`. -/
inductive Posture where
  | north | northEast | east | southEast | south | southWest | west | northWest
  deriving DecidableEq, Repr

/-- `posture as u8`, `run.rs:17-24`. -/
def Posture.toU8 : Posture → Nat
  | .north => 0 | .northEast => 1 | .east => 2 | .southEast => 3
  | .south => 4 | .southWest => 5 | .west => 6 | .northWest => 7

/-- `run.rs:28-42` `Posture::from_u8`. -/
def Posture.fromU8 : Nat → R Posture
  | 0 => .ok .north | 1 => .ok .northEast | 2 => .ok .east | 3 => .ok .southEast
  | 4 => .ok .south | 5 => .ok .southWest | 6 => .ok .west | 7 => .ok .northWest
  | _ => .error .unreachable

/-- `run.rs:45-49` `RunCoord` and `run.rs:69-73` `Node`, in one structure. -/
structure Node where
  x : Nat
  y : Nat
  posture : Posture
  deriving DecidableEq, Repr

/-- `run.rs:52-57` `RunCoord::new`. `W << 1` on `u8` drops the top bit. -/
def coordNew (W x y : Nat) : Option (Nat × Nat) :=
  if !isPow2 W || decide (x ≥ (W <<< 1) % 256) || decide (y ≥ (W <<< 1) % 256) then none else some (x, y)

/-- `run.rs:59-66` `RunCoord::new_relative`. -/
def coordRelative (W x y : Nat) (dx dy : Int) : Option (Nat × Nat) :=
  match checkedAddI8 (asI8 x) dx with
  | none => none
  | some x' =>
    match checkedAddI8 (asI8 y) dy with
    | none => none
    | some y' => if x' < 0 || y' < 0 then none else coordNew W x'.toNat y'.toNat

/-- `run.rs:76-91` `Node::new`. -/
def Node.new (W x y : Nat) (posture : Posture) : Option Node :=
  match coordNew W x y with
  | none => none
  | some _ =>
    match posture, x &&& 1, y &&& 1 with
    | .northEast, 1, 0 | .northWest, 1, 0 | .southEast, 1, 0 | .southWest, 1, 0
    | .northEast, 0, 1 | .northWest, 0, 1 | .southEast, 0, 1 | .southWest, 0, 1
    | .north, 0, 0 | .east, 0, 0 | .south, 0, 0 | .west, 0, 0 => some ⟨x, y, posture⟩
    | _, _, _ => none

/-- `run.rs:133-135` `Node::y_offset`. -/
def yOffset (W : Nat) : Nat := trailingZeros W + 1

/-- `run.rs:137-139` `Node::dir_offset`. -/
def dirOffset (W : Nat) : Nat := (trailingZeros W + 1) <<< 1

/-- `run.rs:108-126` the direction number used by `Node::as_index`. -/
def Node.dirCode (n : Node) : R Nat :=
  if (n.x ^^^ n.y) &&& 1 = 1 then
    match n.posture with
    | .northEast => .ok 0 | .southEast => .ok 1 | .southWest => .ok 2 | .northWest => .ok 3
    | _ => .error .unreachable
  else if (n.x ||| n.y) &&& 1 = 0 then
    match n.posture with
    | .north => .ok 0 | .east => .ok 1 | .south => .ok 2 | .west => .ok 3
    | _ => .error .unreachable
  else .error .unreachable

/-- `run.rs:105-131` `Node::as_index`. -/
def Node.asIndex (W : Nat) (n : Node) : R Nat := do
  let dir ← n.dirCode
  return n.x ||| (n.y <<< yOffset W) ||| (dir <<< dirOffset W)

/-- `run.rs:325-334` `EdgeKind`. -/
inductive EdgeKind where
  | straight (n : Nat)
  | straightDiagonal (n : Nat)
  | slalom45 | slalom90 | slalom135 | slalom180 | slalomDiagonal90
  deriving DecidableEq, Repr

/-- `trajectory/slalom.rs` `SlalomKind`. -/
inductive SlalomKind where
  | search90 | fastRun45 | fastRun45Rev | fastRun90 | fastRun135 | fastRun135Rev | fastRun180
  | fastRunDiagonal90
  deriving DecidableEq, Repr

/-- `trajectory/slalom.rs` `SlalomDirection`. -/
inductive SlalomDirection where
  | left | right
  deriving DecidableEq, Repr

/-- `run.rs:318-323` `TrajectoryKind`. -/
inductive TrajectoryKind where
  | straight (n : Nat)
  | straightDiagonal (n : Nat)
  | slalom (kind : SlalomKind) (dir : SlalomDirection)
  deriving DecidableEq, Repr

/-! ## Successors -/

/-- The successor list under construction and whether the control flow continues. -/
abbrev Flow := List (Node × EdgeKind) → R (List (Node × EdgeKind) × Bool)

/-- `f?; g`. -/
def Flow.then (f g : Flow) : Flow := fun l => do
  let (l, b) ← f l
  if b then g l else return (l, false)

/-- `f; g` where the outcome of `f` is not looked at. -/
def Flow.andThen (f g : Flow) : Flow := fun l => do
  let (l, _) ← f l
  g l

/-- `run.rs:183-188` the closure `rot`. -/
def Node.rot (n : Node) (dx dy : Int) : Int × Int :=
  match n.posture with
  | .north | .northEast => (dx, dy)
  | .east | .southEast => (dy, -dx)
  | .south | .southWest => (-dx, -dy)
  | .west | .northWest => (-dy, dx)

/-- `run.rs:197-202` rotation of a posture. -/
def Node.rotPosture (n : Node) (dir : Posture) : R Posture :=
  match n.posture with
  | .north | .northEast => .ok dir
  | .east | .southEast => Posture.fromU8 ((dir.toU8 + 2) &&& 7)
  | .south | .southWest => Posture.fromU8 ((dir.toU8 + 4) &&& 7)
  | .west | .northWest => Posture.fromU8 ((dir.toU8 + 6) &&& 7)

/-- `run.rs:147-162` the closure `cont` of `successors`, after `rot` (`run.rs:190-193`). -/
def Node.cont (W : Nat) (n : Node) (isWall : Search.Coord → Bool) (dx dy : Int) : Flow := fun l =>
  let (dx, dy) := n.rot dx dy
  match coordRelative W n.x n.y dx dy with
  | some (x, y) => do
    let c ← match x &&& 1, y &&& 1 with
      | 1, 0 => unwrap (Search.Coord.new W x y)
      | 0, 1 => unwrap (Search.Coord.new W x y)
      | _, _ => .error .unreachable
    return (l, !isWall c)
  | none => return (l, false)

/-- `run.rs:262-268` `Node::new_relative`. -/
def Node.newRelative (W : Nat) (n : Node) (dx dy : Int) (dir : Posture) : Option Node :=
  (coordRelative W n.x n.y dx dy).map fun p => ⟨p.1, p.2, dir⟩

/-- `run.rs:163-170` the closure `add` of `successors`, after rotation (`run.rs:195-204`). -/
def Node.add (W : Nat) (n : Node) (dx dy : Int) (dir : Posture) (kind : EdgeKind) : Flow := fun l => do
  let (dx, dy) := n.rot dx dy
  let dir ← n.rotPosture dir
  match n.newRelative W dx dy dir with
  | some node =>
    let l ← pushCap NEIGHBOR_MAX l (node, kind)
    return (l, true)
  | none => return (l, false)

/-- `(1..).try_for_each(body)` over `i8`, from `i` on. The first argument is the number of rounds before an
arithmetic overflow: in the straight loop (`run.rs:210-213`) `2 * i` overflows at `i = 64`, in the diagonal loops
(`run.rs:236-239`, `run.rs:248-251`) the counter itself overflows after `i = 127`. -/
def tryForEach (body : Nat → Flow) : Nat → Nat → Flow
  | 0, _ => fun _ => .error .overflow
  | fuel + 1, i => (body i).then (tryForEach body fuel (i + 1))

/-- `run.rs:206-232` moves from the centre of a cell. -/
def Node.flowCentre (W : Nat) (n : Node) (isWall : Search.Coord → Bool) : Flow :=
  let cont := n.cont W isWall
  let add := n.add W
  (cont 0 1).then <|
  (tryForEach (fun i => (cont 0 (2 * i - 1)).then (add 0 (2 * i) .north (.straight i))) 63 1).andThen <|
  ((cont 1 2).then <| (add 1 2 .northEast .slalom45).then <| (add 2 2 .east .slalom90).then <|
    (cont 2 1).then <| (add 2 1 .southEast .slalom135).then (add 2 0 .south .slalom180)).andThen <|
  ((cont (-1) 2).then <| (add (-1) 2 .northWest .slalom45).then <| (add (-2) 2 .west .slalom90).then <|
    (cont (-2) 1).then <| (add (-2) 1 .southWest .slalom135).then (add (-2) 0 .south .slalom180)).andThen
  fun l => .ok (l, false)

/-- `run.rs:233-244` diagonal moves, next turn to the left. -/
def Node.flowLeft (W : Nat) (n : Node) (isWall : Search.Coord → Bool) : Flow :=
  let cont := n.cont W isWall
  let add := n.add W
  (cont 1 1).then <|
  (tryForEach (fun i => (cont i i).then (add i i .northEast (.straightDiagonal i))) 127 1).andThen <|
  (add 1 2 .north .slalom45).then <| (cont 0 2).then <| (add 0 2 .northWest .slalomDiagonal90).then <|
  (add (-1) 2 .west .slalom135).then fun l => .ok (l, false)

/-- `run.rs:245-256` diagonal moves, next turn to the right. -/
def Node.flowRight (W : Nat) (n : Node) (isWall : Search.Coord → Bool) : Flow :=
  let cont := n.cont W isWall
  let add := n.add W
  (cont 1 1).then <|
  (tryForEach (fun i => (cont i i).then (add i i .northEast (.straightDiagonal i))) 127 1).andThen <|
  (add 2 1 .east .slalom45).then <| (cont 2 0).then <| (add 2 0 .southEast .slalomDiagonal90).then <|
  (add 2 (-1) .south .slalom135).then fun l => .ok (l, false)

/-- `run.rs:175-260` `Node::succs_flow`. -/
def Node.succsFlow (W : Nat) (n : Node) (isWall : Search.Coord → Bool) : Flow :=
  match n.x &&& 1, n.y &&& 1, n.posture with
  | 0, 0, .north | 0, 0, .east | 0, 0, .south | 0, 0, .west => n.flowCentre W isWall
  | 1, 0, .northEast | 1, 0, .southWest | 0, 1, .northWest | 0, 1, .southEast => n.flowLeft W isWall
  | 0, 1, .northEast | 0, 1, .southWest | 1, 0, .northWest | 1, 0, .southEast => n.flowRight W isWall
  | _, _, _ => fun _ => .error .unreachable

/-- `run.rs:141-173` `Node::successors`. -/
def Node.successors (W : Nat) (n : Node) (isWall : Search.Coord → Bool) : R (List (Node × EdgeKind)) := do
  let (l, _) ← n.succsFlow W isWall []
  return l

/-- `run.rs:278-283` the pose of `other` seen from `self`. The differences of `u8` values below 64 do not
overflow `i8`. -/
def Node.relative (self other : Node) : R (Int × Int × Posture) :=
  let dx := asI8 other.x - asI8 self.x
  let dy := asI8 other.y - asI8 self.y
  match self.posture with
  | .north | .northEast => .ok (dx, dy, other.posture)
  | .east | .southEast => do return (-dy, dx, ← Posture.fromU8 ((6 + other.posture.toU8) &&& 7))
  | .south | .southWest => do return (-dx, -dy, ← Posture.fromU8 ((4 + other.posture.toU8) &&& 7))
  | .west | .northWest => do return (dy, -dx, ← Posture.fromU8 ((2 + other.posture.toU8) &&& 7))

/-- `run.rs:285-296`. -/
def kindCentre (dx dy : Int) (p : Posture) : Option TrajectoryKind :=
  if dx = 0 ∧ p = .north ∧ dy > 0 ∧ dy % 2 = 0 then some (.straight (dy.toNat >>> 1))
  else if dx = 1 ∧ dy = 2 ∧ p = .northEast then some (.slalom .fastRun45 .right)
  else if dx = 2 ∧ dy = 2 ∧ p = .east then some (.slalom .fastRun90 .right)
  else if dx = 2 ∧ dy = 1 ∧ p = .southEast then some (.slalom .fastRun135 .right)
  else if dx = 2 ∧ dy = 0 ∧ p = .south then some (.slalom .fastRun180 .right)
  else if dx = -1 ∧ dy = 2 ∧ p = .northWest then some (.slalom .fastRun45 .left)
  else if dx = -2 ∧ dy = 2 ∧ p = .west then some (.slalom .fastRun90 .left)
  else if dx = -2 ∧ dy = 1 ∧ p = .southWest then some (.slalom .fastRun135 .left)
  else if dx = -2 ∧ dy = 0 ∧ p = .south then some (.slalom .fastRun180 .left)
  else none

/-- `run.rs:297-304`. -/
def kindLeft (dx dy : Int) (p : Posture) : Option TrajectoryKind :=
  if p = .northEast ∧ dx = dy ∧ dx > 0 then some (.straightDiagonal dx.toNat)
  else if dx = 1 ∧ dy = 2 ∧ p = .north then some (.slalom .fastRun45Rev .left)
  else if dx = 0 ∧ dy = 2 ∧ p = .northWest then some (.slalom .fastRunDiagonal90 .left)
  else if dx = -1 ∧ dy = 2 ∧ p = .west then some (.slalom .fastRun135Rev .left)
  else none

/-- `run.rs:305-312`. -/
def kindRight (dx dy : Int) (p : Posture) : Option TrajectoryKind :=
  if p = .northEast ∧ dx = dy ∧ dx > 0 then some (.straightDiagonal dx.toNat)
  else if dx = 2 ∧ dy = 1 ∧ p = .east then some (.slalom .fastRun45Rev .right)
  else if dx = 2 ∧ dy = 0 ∧ p = .southEast then some (.slalom .fastRunDiagonal90 .right)
  else if dx = 2 ∧ dy = -1 ∧ p = .south then some (.slalom .fastRun135Rev .right)
  else none

/-- `run.rs:270-315` `Node::trajectory_kind`. -/
def Node.trajectoryKind (self other : Node) : R (Option TrajectoryKind) := do
  let (dx, dy, p) ← self.relative other
  return match self.x &&& 1, self.y &&& 1, self.posture with
  | 0, 0, .north | 0, 0, .east | 0, 0, .south | 0, 0, .west => kindCentre dx dy p
  | 1, 0, .northEast | 1, 0, .southWest | 0, 1, .northWest | 0, 1, .southEast => kindLeft dx dy p
  | 0, 1, .northEast | 0, 1, .southWest | 1, 0, .northWest | 1, 0, .southEast => kindRight dx dy p
  | _, _, _ => none

/-! ## Node identifiers -/

/-- `run.rs:345-349` `NodeId::from(Node)`; the identifier is the `u16` value. -/
def Node.toId (W : Nat) (n : Node) : R Nat := do
  let i ← n.asIndex W
  let v := ((i % 65536) <<< 1) % 65536 ||| 1
  if v = 0 then .error .unwrapNone else return v

/-- `run.rs:340-342` `NodeId::as_index`. -/
def idIndex (id : Nat) : Nat := id >>> 1

/-- `run.rs:351-384` `Node::from(NodeId)`. -/
def Node.ofId (W value : Nat) : R Node := do
  let x := ((value >>> 1) &&& ((1 <<< yOffset W) - 1)) % 256
  let y := ((value &&& ((1 <<< (dirOffset W + 1)) - 1)) >>> (1 + yOffset W)) % 256
  let dir := value >>> (1 + dirOffset W)
  if (x ^^^ y) &&& 1 = 1 then
    match dir with
    | 0 => return ⟨x, y, .northEast⟩
    | 1 => return ⟨x, y, .southEast⟩
    | 2 => return ⟨x, y, .southWest⟩
    | 3 => return ⟨x, y, .northWest⟩
    | _ => .error .unreachable
  else if (x ||| y) &&& 1 = 0 then
    match dir with
    | 0 => return ⟨x, y, .north⟩
    | 1 => return ⟨x, y, .east⟩
    | 2 => return ⟨x, y, .south⟩
    | 3 => return ⟨x, y, .west⟩
    | _ => .error .unreachable
  else .error .unreachable

/-! ## Priority queue -/

/-- The operations of `heapless::BinaryHeap<CostNode, Min, QUE_MAX>`; entries are (cost, identifier). -/
structure HeapOps where
  H : Type
  empty : H
  /-- `push`, `none` when the heap is full -/
  push : H → Nat × Nat → Option H
  pop : H → Option ((Nat × Nat) × H)

/-- The state of `shortest_path`. `dropped` is not in the code: it records whether some `push(..).ok()`
failed silently. -/
structure St (ops : HeapOps) where
  dist : Nat → Nat
  prev : Nat → Option Nat
  heap : ops.H
  dropped : Bool

/-- `run.rs:441-445`, `run.rs:466` `heap.push(..).ok()`. -/
def St.push {ops : HeapOps} (s : St ops) (e : Nat × Nat) : St ops :=
  match ops.push s.heap e with
  | some h => { s with heap := h }
  | none => { s with dropped := true }

/-- `saturating_add` of the cost type with maximum `MAX`. -/
def satAdd (MAX a b : Nat) : Nat := min (a + b) MAX

/-- `run.rs:460-469` relaxation of the successors. -/
def relax (W MAX : Nat) (ops : HeapOps) (intoCost : EdgeKind → Nat) (cost node : Nat) :
    List (Node × EdgeKind) → St ops → R (St ops)
  | [], s => .ok s
  | (next, kind) :: rest, s => do
    let next ← next.toId W
    let cost' := satAdd MAX cost (intoCost kind)
    let d ← arrGet QUE_MAX s.dist (idIndex next)
    if d ≤ cost' then relax W MAX ops intoCost cost node rest s
    else do
      let s := s.push (cost', next)
      let dist ← arrSet QUE_MAX s.dist (idIndex next) cost'
      let prev ← arrSet QUE_MAX s.prev (idIndex next) (some node)
      relax W MAX ops intoCost cost node rest { s with dist := dist, prev := prev }

/-- `run.rs:449-470` the main loop; the result is the goal found. -/
def mainLoop (W MAX : Nat) (ops : HeapOps) (isGoal : Node → Bool) (isWall : Search.Coord → Bool)
    (intoCost : EdgeKind → Nat) : Nat → St ops → R (Option Nat × St ops)
  | 0, _ => .error .diverge
  | fuel + 1, s =>
    match ops.pop s.heap with
    | none => .ok (none, s)
    | some ((cost, node), h) => do
      let s := { s with heap := h }
      let d ← arrGet QUE_MAX s.dist (idIndex node)
      if d < cost then mainLoop W MAX ops isGoal isWall intoCost fuel s
      else do
        let nodet ← Node.ofId W node
        if isGoal nodet then .ok (some node, s)
        else do
          let succs ← nodet.successors W isWall
          let s ← relax W MAX ops intoCost cost node succs s
          mainLoop W MAX ops isGoal isWall intoCost fuel s

/-- `run.rs:476-483` the path, from the goal back (in the order of the pushes). -/
def backLoop (W : Nat) (prev : Nat → Option Nat) (start : Nat) :
    Nat → Nat → List Node → R (List Node)
  | 0, _, _ => .error .diverge
  | fuel + 1, cur, path => do
    match ← arrGet QUE_MAX prev (idIndex cur) with
    | none => .ok path
    | some next => do
      let node ← Node.ofId W cur
      let path ← pushCap PATH_MAX path node
      if cur = start then .ok path else backLoop W prev start fuel next path

/-- A number of rounds that the main loop never reaches. -/
def FUEL : Nat := NEIGHBOR_MAX * QUE_MAX + 2

/-- `run.rs:386-486` `shortest_path`, for a cost type with maximum `MAX`. Together with the result: whether
a push was dropped. -/
def shortestPath (W MAX : Nat) (ops : HeapOps) (start : Node) (isGoal : Node → Bool)
    (isWall : Search.Coord → Bool) (intoCost : EdgeKind → Nat) : R (Option (List Node × Nat) × Bool) := do
  let start ← start.toId W
  let dist ← arrSet QUE_MAX (fun _ => MAX) (idIndex start) 0
  let prev ← arrSet QUE_MAX (fun _ => none) (idIndex start) (some start)
  let s : St ops := ⟨dist, prev, ops.empty, false⟩
  let s := s.push (0, start)
  let (goal, s) ← mainLoop W MAX ops isGoal isWall intoCost FUEL s
  match goal with
  | none => return (none, s.dropped)
  | some goal => do
    let path ← backLoop W s.prev start (PATH_MAX + 1) goal []
    let d ← arrGet QUE_MAX s.dist (idIndex goal)
    return (some (path.reverse, d), s.dropped)

end Verif.Run
