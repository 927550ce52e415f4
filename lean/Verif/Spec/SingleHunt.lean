import Verif.Spec.Bend
import Verif.Model.SingleSearch
import Verif.Model.SearchDriver
import Verif.Spec.Grid
/-!
# Specification of the search run in floating point arithmetic
-/
namespace Verif.Spec
open Verif Verif.Single Verif.Binary32

/-- A pose within 250 m, with a heading within 250 rad. -/
structure Nearby (q : Place) : Prop where
  x : Bd 250 q.x
  y : Bd 250 q.y
  theta : Bd 250 q.theta

/-- A target of moderate size, shifted to a pose nearby. -/
def Commanded (A : Arith) (L : Lib) (t : Target) : Prop :=
  ∃ q t', Nearby q ∧ Tame t' ∧ t = shift A L q.x q.y q.theta t'

/-- Usable settings of a search in single precision: limits of moderate size; squares from 1 cm to 5 m; an offset of at most 3.6 cm that leaves a
millimetre to the centre of a square; a speed of at most 2 m/s, from 14 % to 375 % of the one the slalom was designed for (in real numbers). -/
structure Hunts (V a j Vs as js p s o : ℝ) (c : Quest) : Prop where
  gen : Paced V a j c.gen
  spin : Swings Vs as js c.spin
  period : c.period = .fin p
  brief : Brief p
  width : c.squareWidth = .fin s
  w0 : 0.01 ≤ s
  w1 : s ≤ 5
  offset : c.frontOffset = .fin o
  o0 : 0 ≤ o
  o1 : o ≤ 0.036
  room : 0.001 ≤ s / 2 - o
  pause : ∃ r : ℝ, c.pause = .fin r ∧ r ≤ 8000
  home : Nearby c.home
  low : 1 / 2 ^ 6 ≤ V
  high : V ≤ 2
  slow : ∀ d, 0.14 * (Slalom.parameters s o .search90 d).vRef ≤ V
  fast : ∀ d, V ≤ 3.75 * (Slalom.parameters s o .search90 d).vRef

/-- Two poses, one in floating point numbers, that agree: the coordinates up to `e` and `e'`, the angle up to a millionth. -/
def Matches (q : Place) (r : Detect.Pose) (e e' : ℝ) : Prop :=
  ∃ x y θ : ℝ, q = ⟨.fin x, .fin y, .fin θ⟩ ∧ |x - r.x| ≤ e ∧ |y - r.y| ≤ e' ∧ |θ - r.theta| ≤ 1 / 1000000

open Verif.Search (SearchState Coord TrajectoryKind) in
/-- `l` are the targets of a search up to the state `s`: those of the first trajectory, from the first pose, and then those of moves from side to adjacent
side, each side known to be open, each move the one that the state demands, and shifted to the pose of the state. -/
inductive Itinerary (A : Arith) (L : Lib) (c : Quest) (W : Nat) (known : Coord → Prop) : SearchState → List Target → Prop
  | start {l : List Target} : Produces (Errand.next A L) (c.init A L) l →
      Itinerary A L c W known ⟨⟨0, 1⟩, .north⟩ (l.map (shift A L c.home.x c.home.y c.home.theta))
  | move {s s' : SearchState} {l l' : List Target} {next : Coord} {k : TrajectoryKind} {q : Place} : Itinerary A L c W known s l →
      Adjacent W s.coord next → known next → s.update next = .ok (s', some k) → q = placeOfSearch A s c.squareWidth c.frontOffset →
      Produces (Errand.next A L) (c.errand A L k) l' → Itinerary A L c W known s' (l ++ l'.map (shift A L q.x q.y q.theta))

open Verif.Search (Searcher Coord WallState) in
/-- The sensors are just in time: in the round that commands the last target of a trajectory, a commander that is still asked where to go next need not
wait for a wall any more. -/
def Prompt (A : Arith) (L : Lib) (c : Quest) (W : Nat) (searcher : Searcher) (walls : Nat → Coord → WallState) : Prop :=
  ∀ n l lp t lp' cmd, hunt A L c W searcher walls n 0 (c.start A L) = .ok (l, some lp) → track A L lp = .ok (t, lp') →
    (shiftedTo A L lp'.trajectory.1 (Errand.next A L) lp'.trajectory.2).1 = none → lp'.commander = some cmd →
    cmd.nextCoordinate (walls n) ≠ .ok none

/-! ## Real numbers as floating point numbers -/

def placeOf (q : Detect.Pose) : Place := ⟨.fin q.x, .fin q.y, .fin q.theta⟩

noncomputable def questOf (c : SearchDriver.SearchConfig) : Quest :=
  ⟨genOf c.gen, genOf c.spin, .fin c.period, .fin c.squareWidth, .fin c.frontOffset, .fin c.pause,
    ⟨.fin (c.squareWidth / 2), .fin (c.squareWidth / 2), .fin (Slalom.degree 90)⟩⟩

end Verif.Spec
