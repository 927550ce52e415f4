import Verif.Spec.Drive
import Verif.Spec.Grid
import Verif.Model.SearchDriver
/-!
# Specification of the driver of the search run
-/
namespace Verif.Spec
open Verif Verif.Control Verif.Straight Verif.Slalom Verif.SearchDriver
open Verif.Search (SearchState Coord TrajectoryKind)

/-- Usable settings: limits, period and square width are positive; the offset is not negative, and there is room for stopping from full speed before
the centre of the next square; it is zero unless the squares are those of the slalom table; one step is small; half a turn is possible. -/
structure SearchOk (c : SearchConfig) : Prop where
  v : 0 < c.gen.vMax
  a : 0 < c.gen.aMax
  j : 0 < c.gen.jMax
  sv : 0 < c.spin.vMax
  sa : 0 < c.spin.aMax
  sj : 0 < c.spin.jMax
  period : 0 < c.period
  width : 0 < c.squareWidth
  offset : 0 ≤ c.frontOffset
  nominal : c.squareWidth = 0.09 ∨ c.frontOffset = 0
  room : c.gen.vMax * rampTime c.gen.aMax c.gen.jMax c.gen.vMax < c.squareWidth / 2 - c.frontOffset
  step : c.gen.vMax * c.period ≤ 0.05 * (c.squareWidth / 2 - c.frontOffset)
  turn : 2 * rampDist c.spin 0 (resolution c.spin.vMax) ≤ Real.pi

/-- The largest distance between successive targets: one step and the inaccuracy of the slalom table. -/
noncomputable def searchStep (c : SearchConfig) : ℝ := 1.01 * (c.gen.vMax * c.period) + 4.6e-6 * c.squareWidth

/-- The largest change of speed: what the acceleration allows, and the inaccuracy of the search for a velocity. -/
noncomputable def searchGain (c : SearchConfig) : ℝ := c.gen.aMax * c.period + resolution c.gen.vMax

/-- Full speed, up to the inaccuracy of the search for a velocity. -/
def Cruise (c : SearchConfig) (v : ℝ) : Prop := c.gen.vMax - resolution c.gen.vMax ≤ v ∧ v ≤ c.gen.vMax

/-- The target does not move. -/
def Still (t : Target) : Prop := t.x.v = 0 ∧ t.y.v = 0 ∧ t.theta.v = 0

/-- The mouse stands at a pose. -/
def Rests (q : Detect.Pose) (l : List Target) : Prop := ∀ t ∈ l, At t q ∧ Still t

/-- The mouse turns on the spot to the left, from a pose to a heading, at most `ω * period` every step: the first target is at rest at the pose, the
last is less than one step before the heading. -/
structure Turns (ω period : ℝ) (q : Detect.Pose) (θ : ℝ) (l : List Target) : Prop where
  first : ∃ t, l.head? = some t ∧ At t q ∧ Still t
  last : ∃ t, l.getLast? = some t ∧ t.theta.x ≤ θ ∧ θ < t.theta.x + ω * period
  spot : ∀ t ∈ l, t.x.x = q.x ∧ t.y.x = q.y ∧ t.x.v = 0 ∧ t.y.v = 0 ∧ 0 ≤ t.theta.v ∧ t.theta.v ≤ ω
  steady : l.IsChain fun t t' => t.theta.x ≤ t'.theta.x ∧ t'.theta.x ≤ t.theta.x + ω * period

/-- The mouse goes from a pose to the centre of the next square, stops, turns half round, and goes back to a pose. -/
def TurnBack (c : SearchConfig) (q q' : Detect.Pose) (l : List Target) : Prop :=
  ∃ l1 l2 l3 l4 l5 v', l = l1 ++ l2 ++ l3 ++ l4 ++ l5 ∧ Cruise c v' ∧
    let m := compose q ⟨c.squareWidth / 2 - c.frontOffset, 0, 0⟩
    let m' : Detect.Pose := ⟨m.x, m.y, m.theta + Real.pi⟩
    Drive c.gen.vMax c.gen.aMax c.period q c.gen.vMax m 0 l1 ∧ Rests m l2 ∧ Turns c.spin.vMax c.period m m'.theta l3 ∧ Rests m' l4 ∧
    Drive c.gen.vMax c.gen.aMax c.period m' 0 q' v' l5

/-- One move of the search, from a pose to a pose, starting and ending with full speed. -/
def Leg (c : SearchConfig) (q : Detect.Pose) (k : TrajectoryKind) (q' : Detect.Pose) (l : List Target) : Prop :=
  if k = .back then TurnBack c q q' l else Drive c.gen.vMax c.gen.aMax c.period q c.gen.vMax q' c.gen.vMax l

/-- The targets of a search that has led to a state: from rest in the centre of the first square over its northern side, and from every state to the next
by the move for the change of state, towards a side adjacent to the last that is known to be open. -/
inductive Tour (c : SearchConfig) (W : Nat) (known : Coord → Prop) : SearchState → List Target → Prop
  | start {l : List Target} {v : ℝ} :
      Drive c.gen.vMax c.gen.aMax c.period ⟨c.squareWidth / 2, c.squareWidth / 2, Real.pi / 2⟩ 0
        (poseOfSearch ⟨⟨0, 1⟩, .north⟩ c.squareWidth c.frontOffset) v l →
      Cruise c v → Tour c W known ⟨⟨0, 1⟩, .north⟩ l
  | move {s s' : SearchState} {l l' : List Target} {next : Coord} {k : TrajectoryKind} {q' : Detect.Pose} :
      Tour c W known s l → Adjacent W s.coord next → known next → s.update next = .ok (s', some k) →
      Leg c (poseOfSearch s c.squareWidth c.frontOffset) k q' l' → Near (6e-9 * c.squareWidth) q' (poseOfSearch s' c.squareWidth c.frontOffset) →
      Tour c W known s' (l ++ l')

/-- The sensors are in time: `d` rounds after `search` has answered with a commander, the commander need not wait for a wall any more. -/
def Timely (c : SearchConfig) (W : Nat) (searcher : Search.Searcher) (walls : Nat → Coord → Search.WallState) (d : Nat) : Prop :=
  ∀ n l lp cmd, rounds .real c W searcher walls (n + 1) 0 c.start = .ok (l, some lp) → lp.commander = some cmd →
    cmd.nextCoordinate (walls (n + d)) ≠ .ok none

/-- The sensors are just in time: in the round that commands the last target of a trajectory, a commander that is still asked where to go next need not
wait for a wall any more. -/
def Punctual (c : SearchConfig) (W : Nat) (searcher : Search.Searcher) (walls : Nat → Coord → Search.WallState) : Prop :=
  ∀ n l lp t lp' cmd, rounds .real c W searcher walls n 0 c.start = .ok (l, some lp) → track .real lp = .ok (t, lp') →
    (shiftNext .real lp'.trajectory.1 (Move.next .real) lp'.trajectory.2).1 = none → lp'.commander = some cmd →
    cmd.nextCoordinate (walls n) ≠ .ok none

end Verif.Spec
