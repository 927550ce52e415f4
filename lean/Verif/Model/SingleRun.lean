import Verif.Model.SingleSearch
import Verif.Model.Driver
/-!
# The caller in `mousecore2/tests/run.rs` in floating point arithmetic

The main loop of `Verif.Model.Driver` (which has real numbers) once more, for any arithmetic.
-/
namespace Verif.Single
open Verif
open Verif.Run (Node TrajectoryKind)

/-- The settings of the run: `tests/run.rs:116-122`, `160`. -/
structure Dash where
  gen : Gen
  period : F
  squareWidth : F
  slalomVelocity : F

/-- The boxed iterators of `tests/run.rs:190-207`, before the shift. -/
inductive Stint where
  | straight (s : Stretch)
  | slalom (q : Outline) (s : SlalomState)

/-- `next` of the same. -/
noncomputable def Stint.next (A : Arith) (L : Lib) : Stint → Option Target × Stint
  | .straight s => ((s.next A).1, .straight (s.next A).2)
  | .slalom q s => ((q.next A L s).1, .slalom q (q.next A L s).2)

/-- `tests/run.rs:168-180` start, middle and end velocity of the move number `i` of a path of `len` poses. -/
noncomputable def dashVelocities (A : Arith) (i len : Nat) (velocity run : F) : F × F × F :=
  if i ≤ 1 then (velocity, run, run)
  else if i + 2 = len then (velocity, A.mul velocity (A.rnd 0.6666667), .fin 0)
  else if i + 3 = len then (velocity, A.mul velocity (.fin 0.5), A.mul velocity (.fin 0.5))
  else (run, run, run)

/-- `tests/run.rs:190-207` the trajectory of a move, before the shift, and its terminal velocity; the slaloms are those for front offset zero
(`tests/run.rs:120`). The root of two is the one of the standard library, correctly rounded. -/
noncomputable def Dash.stint (A : Arith) (L : Lib) (c : Dash) (kind : TrajectoryKind) (v : F × F × F) : Stint × F :=
  match kind with
  | .straight x =>
    let (s, terminal) := c.gen.stretch A L c.period (A.mul (.fin x) c.squareWidth) v.1 v.2.2
    (.straight s, terminal)
  | .straightDiagonal x =>
    let (s, terminal) := c.gen.stretch A L c.period (A.div (A.mul (.fin x) c.squareWidth) (A.rnd (Real.sqrt 2))) v.1 v.2.2
    (.straight s, terminal)
  | .slalom kind dir =>
    let q := outline A c.squareWidth (.fin 0) kind dir
    let (s, terminal) := q.slalomWithTerminal A L c.gen c.period v.1 v.2.1 v.2.2
    (.slalom q s, terminal)

/-- `tests/run.rs:158-210` the trajectories for the moves from number `i` on, with the poses they are shifted to. -/
noncomputable def Dash.plan (A : Arith) (L : Lib) (c : Dash) (len : Nat) : Nat → F → List Node → R (List (Place × Stint))
  | i, velocity, n :: m :: path => do
    let place := placeOfNode A n c.squareWidth
    match ← n.trajectoryKind m with
    | none => .error .unreachable
    | some kind =>
      let (stint, terminal) := c.stint A L kind (dashVelocities A i len velocity c.slalomVelocity)
      let stints ← Dash.plan A L c len (i + 1) terminal (m :: path)
      return (place, stint) :: stints
  | _, _, _ => .ok []

/-- `tests/run.rs:228-241` the next target of the main loop; `none` is the `break`. -/
noncomputable def upcoming (A : Arith) (L : Lib) : List (Place × Stint) → R (Option Target × List (Place × Stint))
  | [] => .error .unreachable
  | (place, stint) :: stints =>
    match shiftedTo A L place (Stint.next A L) stint with
    | (some target, stint) => .ok (some target, (place, stint) :: stints)
    | (none, _) =>
      match stints with
      | [] => .ok (none, [])
      | (place, stint) :: stints =>
        match shiftedTo A L place (Stint.next A L) stint with
        | (some target, stint) => .ok (some target, (place, stint) :: stints)
        | (none, _) => .error .unwrapNone

/-- `tests/run.rs:214-256` the targets of the first `n` rounds of the main loop, and whether it has ended. -/
noncomputable def dashTargets (A : Arith) (L : Lib) : Nat → List (Place × Stint) → R (List Target × Bool)
  | 0, _ => .ok ([], false)
  | n + 1, stints => do
    match ← upcoming A L stints with
    | (none, _) => return ([], true)
    | (some target, stints) =>
      let (targets, ended) ← dashTargets A L n stints
      return (target :: targets, ended)

end Verif.Single
