import Verif.Model.Search
/-!
# Model of the wall map, `mousecore2/src/wall.rs:472-704`

`Walls` is a byte array `[u8; 512]`.  Text is a list of characters; Rust's byte offsets into `&str` are
computed with the UTF-8 length of each character.
-/
namespace Verif.Walls
open Verif Verif.Search

/-- `wall.rs:472` `WALL_ARRAY_LEN`. -/
def LEN : Nat := WIDTH * WIDTH / 2

/-- `wall.rs:474-475` `Walls`: 512 bytes (indices above are never read). -/
abbrev Walls := Nat → BitVec 8

/-- `wall.rs:508-512` the two bits that stand for a state. -/
def bits : WallState → BitVec 8
  | .unchecked => 0#8
  | .checked false => 1#8
  | .checked true => 3#8

/-- `wall.rs:507-517` `Walls::update`. -/
def update (W : Nat) (w : Walls) (c : Coord) (state : WallState) : R Walls := do
  let bit := bits state
  let index := c.asIndex W
  let shift := (index &&& 3) <<< 1
  let b ← arrGet LEN w (index >>> 2)
  let w ← arrSet LEN w (index >>> 2) (b &&& ~~~(3#8 <<< shift))
  let b ← arrGet LEN w (index >>> 2)
  arrSet LEN w (index >>> 2) (b ||| (bit <<< shift))

/-- `wall.rs:519-528` `Walls::wall_state`. -/
def wallState (W : Nat) (w : Walls) (c : Coord) : R WallState := do
  let index := c.asIndex W
  let b ← arrGet LEN w (index >>> 2)
  let bit := (b >>> ((index &&& 3) <<< 1)) &&& 3#8
  if bit = 0#8 then .ok .unchecked
  else if bit = 1#8 then .ok (.checked false)
  else if bit = 3#8 then .ok (.checked true)
  else .error .unreachable

/-- `Coordinate::new(x, y).unwrap()` followed by `Walls::update`. -/
def updateAt (W : Nat) (w : Walls) (x y : Nat) (state : WallState) : R Walls := do
  let c ← unwrap (Coord.new W x y)
  update W w c state

/-- `wall.rs:486-495` the loop of `Walls::new`, `n` rounds left, next index `i`. -/
def newLoop (W : Nat) : Nat → Nat → Walls → R Walls
  | 0, _, w => .ok w
  | n + 1, i, w => do
    let w ← updateAt W w (((W - 1) <<< 1) ||| 1) (i <<< 1) (.checked true)
    let w ← updateAt W w (i <<< 1) (((W - 1) <<< 1) ||| 1) (.checked true)
    newLoop W n (i + 1) w

/-- `wall.rs:484-505` `Walls::new`. -/
def new (W : Nat) : R Walls := do
  let w ← newLoop W W 0 (fun _ => 0#8)
  let w ← updateAt W w 1 0 (.checked true)
  updateAt W w 0 1 (.checked false)

/-- `wall.rs:530-532` `Walls::as_bytes`. -/
def asBytes (w : Walls) : List (BitVec 8) := (List.range LEN).map w

/-- `wall.rs:535-541` `Walls::try_from(&[u8])`: conversion of a slice into an array succeeds exactly for
the right length. -/
def tryFrom (bytes : List (BitVec 8)) : Option Walls :=
  if bytes.length = LEN then some (fun i => bytes.getD i 0#8) else none

/-! ## Text -/

/-- `str::get(..n)`: the first `n` bytes, if `n` is a character boundary. -/
def strGet : List Char → Nat → Option (List Char)
  | [], n => if n = 0 then some [] else none
  | c :: cs, n =>
    if n = 0 then some []
    else if c.utf8Size ≤ n then (strGet cs (n - c.utf8Size)).map (c :: ·) else none

/-- `&s[n..]`: panics unless `n` is a character boundary. -/
def strDrop : List Char → Nat → R (List Char)
  | [], n => if n = 0 then .ok [] else .error .index
  | c :: cs, n =>
    if n = 0 then .ok (c :: cs)
    else if c.utf8Size ≤ n then strDrop cs (n - c.utf8Size) else .error .index

/-- Removal of one trailing carriage return. -/
def stripCr (l : List Char) : List Char := if l.getLast? = some '\r' then l.dropLast else l

/-- `str::lines` (standard library): pieces ended by `\n` or `\r\n`; a last piece without line end is
kept, an empty one is not. The accumulator holds the current line in reverse order. -/
def linesAux : List Char → List Char → List (List Char)
  | acc, [] => if acc = [] then [] else [acc.reverse]
  | acc, c :: cs => if c = '\n' then stripCr acc.reverse :: linesAux [] cs else linesAux (c :: acc) cs

def lines (s : List Char) : List (List Char) := linesAux [] s

/-- `wall.rs:550-554` `ParseWallsErrorKind`. -/
inductive ErrorKind where
  | one (expected : String)
  | two (expected0 expected1 : String)
  deriving DecidableEq, Repr

/-- `wall.rs:543-548` `ParseWallsError`. -/
structure ParseError where
  kind : ErrorKind
  line : Nat
  range : Nat × Nat
  deriving DecidableEq, Repr

/-- `wall.rs:605-611` the closure `check`. -/
def check (s : List Char) (expected : String) (len y x : Nat) : Except ParseError Unit :=
  if strGet s len = some expected.toList then .ok ()
  else .error ⟨.one expected, y, (x, x + len)⟩

/-- `wall.rs:599-604` the closure `update`. -/
def parseUpdate (W : Nat) (w : Walls) (x y : Nat) (exist : Bool) : R Walls :=
  updateAt W w x y (.checked exist)

/-- `wall.rs:618-621` the loop over the bottom line. -/
def bottomLoop (y : Nat) : Nat → Nat → List Char → R (Except ParseError Unit)
  | 0, _, _ => .ok (.ok ())
  | n + 1, x, s =>
    match check s "---+" 4 y (4 * x + 1) with
    | .error e => .ok (.error e)
    | .ok () => do
      let s ← strDrop s 4
      bottomLoop y n (x + 1) s

/-- `wall.rs:624-664` the loop over the cells of a line. -/
def rowLoop (W y : Nat) : Nat → Nat → List Char → Walls → R (Except ParseError Walls)
  | 0, _, _, w => .ok (.ok w)
  | n + 1, x, s, w =>
    if y &&& 1 = 0 then
      match (if x = 0 then check s "+" 1 y x else .ok ()) with
      | .error e => .ok (.error e)
      | .ok () => do
        let s ← if x = 0 then strDrop s 1 else .ok s
        let xt := x <<< 1
        let yt := ((W - (y >>> 1) - 1) <<< 1) ||| 1
        if strGet s 4 = some "---+".toList then do
          let w ← parseUpdate W w xt yt true
          let s ← strDrop s 4
          rowLoop W y n (x + 1) s w
        else if strGet s 4 = some "   +".toList then do
          let w ← parseUpdate W w xt yt false
          let s ← strDrop s 4
          rowLoop W y n (x + 1) s w
        else .ok (.error ⟨.two "---+" "   +", y, (4 * x + 1, 4 * x + 5)⟩)
    else
      match (if x = 0 then check s "|" 1 y x else .ok ()) with
      | .error e => .ok (.error e)
      | .ok () => do
        let s ← if x = 0 then strDrop s 1 else .ok s
        let xt := (x <<< 1) ||| 1
        let yt := (W - (y >>> 1) - 1) <<< 1
        if strGet s 4 = some "   |".toList then do
          let w ← parseUpdate W w xt yt true
          let s ← strDrop s 4
          rowLoop W y n (x + 1) s w
        else if strGet s 4 = some "    ".toList then do
          let w ← parseUpdate W w xt yt false
          let s ← strDrop s 4
          rowLoop W y n (x + 1) s w
        else .ok (.error ⟨.two "   |" "    ", y, (4 * x + 1, 4 * x + 5)⟩)

/-- `wall.rs:613-666` the loop over the lines. -/
def linesLoop (W : Nat) : Nat → List (List Char) → Walls → R (Except ParseError Walls)
  | _, [], w => .ok (.ok w)
  | y, s :: rest, w =>
    if y = 2 * W then
      match check s "+" 1 y 0 with
      | .error e => .ok (.error e)
      | .ok () => do
        let s ← strDrop s 1
        match ← bottomLoop y W 0 s with
        | .error e => .ok (.error e)
        | .ok () => .ok (.ok w)
    else do
      match ← rowLoop W y W 0 s w with
      | .error e => .ok (.error e)
      | .ok w => linesLoop W (y + 1) rest w

/-- `wall.rs:597-667` `Walls::from_str`. -/
def fromStr (W : Nat) (s : List Char) : R (Except ParseError Walls) := do
  let w ← new W
  linesLoop W 0 ((lines s).take (2 * W + 1)) w

/-- `wall.rs:672-677` the closure `exists`. -/
def displayExists (W : Nat) (w : Walls) (x y : Nat) : R Bool := do
  let c ← unwrap (Coord.new W x y)
  let st ← wallState W w c
  return decide (st = .checked true)

/-- `wall.rs:679-685` one line of top walls. -/
def displayTops (W : Nat) (w : Walls) (y : Nat) : Nat → Nat → R (List Char)
  | 0, _ => .ok []
  | n + 1, x => do
    let piece := if ← displayExists W w (x <<< 1) ((y <<< 1) ||| 1) then "+---" else "+   "
    return piece.toList ++ (← displayTops W w y n (x + 1))

/-- `wall.rs:689-695` one line of right walls. -/
def displayRights (W : Nat) (w : Walls) (y : Nat) : Nat → Nat → R (List Char)
  | 0, _ => .ok []
  | n + 1, x => do
    let piece := if ← displayExists W w ((x <<< 1) ||| 1) (y <<< 1) then "   |" else "    "
    return piece.toList ++ (← displayRights W w y n (x + 1))

/-- `wall.rs:678-697` the loop over the rows, from the top (`n` rows left, next row `n - 1`). -/
def displayRows (W : Nat) (w : Walls) : Nat → R (List Char)
  | 0 => .ok []
  | y + 1 => do
    let tops ← displayTops W w y W 0
    let rights ← displayRights W w y W 0
    return tops ++ "+\n".toList ++ "|".toList ++ rights ++ "\n".toList ++ (← displayRows W w y)

/-- `wall.rs:670-704` `Display for Walls`: the text written. -/
def display (W : Nat) (w : Walls) : R (List Char) := do
  let rows ← displayRows W w W
  return rows ++ (List.replicate W "+---".toList).flatten ++ "+\n".toList

end Verif.Walls
