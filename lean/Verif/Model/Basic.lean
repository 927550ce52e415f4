/-!
# Common vocabulary of the model

Panics of the Rust code are explicit error values; loops carry fuel and running out of it is the
separate error `diverge`.
-/
namespace Verif

/-- The ways in which the Rust code can stop abnormally. -/
inductive Panic where
  /-- `Option::unwrap` / `expect` on `None`. -/
  | unwrapNone
  /-- slice or array index out of range -/
  | index
  /-- `push(..).unwrap()` on a full `heapless` container -/
  | capacity
  /-- `unreachable!()` -/
  | unreachable
  /-- arithmetic overflow with overflow checks on -/
  | overflow
  /-- failed `assert!` -/
  | assert
  /-- not a Rust panic: the loop has not ended within the fuel given to the model -/
  | diverge
  deriving DecidableEq, Repr

/-- Result of a function that may panic. -/
abbrev R (α : Type) := Except Panic α

/-- `mousecore2/src/lib.rs:9`. -/
def WIDTH : Nat := 32

/-- `heapless::Vec::push(..).unwrap()` / `heapless::Deque::push_back(..).unwrap()`: append, panic when
the container already holds `cap` elements. -/
def pushCap {α : Type} (cap : Nat) (v : List α) (x : α) : R (List α) :=
  if v.length < cap then .ok (v ++ [x]) else .error .capacity

/-- Reading element `i` of an array `[T; n]`. The array is a function on indices. -/
def arrGet {α : Type} (n : Nat) (a : Nat → α) (i : Nat) : R α :=
  if i < n then .ok (a i) else .error .index

/-- Writing element `i` of an array `[T; n]`. -/
def arrSet {α : Type} (n : Nat) (a : Nat → α) (i : Nat) (v : α) : R (Nat → α) :=
  if i < n then .ok (fun j => if j = i then v else a j) else .error .index

/-- `Option::unwrap` / `Option::expect`. -/
def unwrap {α : Type} : Option α → R α
  | some a => .ok a
  | none => .error .unwrapNone

/-- `u8 as i8` (two's complement reinterpretation). -/
def asI8 (n : Nat) : Int := if n % 256 < 128 then (n % 256 : Nat) else ((n % 256 : Nat) : Int) - 256

/-- `i8::checked_add`. -/
def checkedAddI8 (a b : Int) : Option Int :=
  if -128 ≤ a + b ∧ a + b ≤ 127 then some (a + b) else none

/-- `u8::is_power_of_two` (defined in the standard library as "exactly one bit set"). -/
def isPow2 (w : Nat) : Bool := w ≠ 0 && (w &&& (w - 1)) == 0

/-- `u8::trailing_zeros`. -/
def trailingZeros (w : Nat) : Nat :=
  if w % 256 = 0 then 8 else go 8 w
where
  go : Nat → Nat → Nat
    | 0, _ => 0
    | n + 1, w => if w % 2 = 1 then 0 else go n (w / 2) + 1

end Verif
