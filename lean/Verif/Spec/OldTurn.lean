import Verif.Spec.OldHunt
import Verif.Spec.OldTargets
import Verif.Spec.OldLife
import Verif.Model.OldTurn
/-!
# Specification of the targets of a whole life of the former robot
-/
namespace Verif.Spec
open Verif Verif.Control Verif.Straight Verif.Slalom Verif.Old Verif.Old.FastRun Verif.Old.Life Verif.Old.Turn
open Verif.Spec.Traject (Gives)
open Verif.Run (Node Posture)

/-- The iterator of a trajectory, with exact trigonometric functions. -/
noncomputable abbrev turnStepper : Detect.Pose × Turn.Traj → Option (Target × (Detect.Pose × Turn.Traj)) := Turn.step .real

/-- The mouse turns on the spot by an angle, to the left if it is positive, at most `ω * period` every step: the first target is at rest at the pose, the
last is less than one step before the end. -/
structure Spins (ω period : ℝ) (q : Detect.Pose) (angle : ℝ) (l : List Target) : Prop where
  first : ∃ t, l.head? = some t ∧ At t q ∧ Still t
  last : ∃ t, l.getLast? = some t ∧ |q.theta + angle - t.theta.x| ≤ ω * period
  spot : ∀ t ∈ l, t.x.x = q.x ∧ t.y.x = q.y ∧ t.x.v = 0 ∧ t.y.v = 0 ∧ |t.theta.v| ≤ ω
  steady : l.IsChain fun t t' => 0 ≤ angle * (t'.theta.x - t.theta.x) ∧ |t'.theta.x - t.theta.x| ≤ ω * period

/-- The angle of a rotation. -/
noncomputable def rotationAngle : RotationKind → ℝ
  | .front => 0
  | .right => -(Real.pi / 2)
  | .left => Real.pi / 2
  | .back => Real.pi

/-- What the operators of a life do, one after the other: a search, a rotation, a run (a return or a fast run) along a plan. -/
inductive Phase where
  | hunt (l : List (Node × SearchKind))
  | turn (n : Node) (k : RotationKind)
  | run (path : List Node) (cs : List RunCommand)

/-- The commands of a phase. -/
def Phase.commands : Phase → List Command
  | .hunt l => l.map fun e => .search e.1 e.2
  | .turn n k => [.rotate n k]
  | .run _ cs => cs.map .run

/-- Phases that follow each other: a search from the start, and when it has ended in a cell, rotations and runs from cell to cell in turns, each from the
pose where the one before it ends. -/
inductive Story (W : Nat) (isWall : Verif.Search.Coord → Bool) (start : Node) : List Phase → Node → Prop
  | hunt (l : List (Node × SearchKind)) (m : Node) : l ≠ [] → CommandTour W isWall start l m → InOrder start l → Story W isWall start [.hunt l] m
  | turn (ps : List Phase) (n m : Node) (k : RotationKind) (e : Nat) : Story W isWall start ps n → (∀ n' k', Phase.turn n' k' ∉ ps.getLast?) → CellPose W n →
      (k, e) ∈ turns → Turned n e m → Story W isWall start (ps ++ [.turn n k]) m
  | run (ps : List Phase) (n m n' : Node) (k : RotationKind) (path : List Node) (cs : List RunCommand) : Story W isWall start (ps ++ [.turn n' k]) n →
      path.head? = some n → path.getLast? = some m → cs ≠ [] → Commands W isWall path cs → CellPose W m → Story W isWall start (ps ++ [.turn n' k, .run path cs]) m

/-- The agent of a phase, if nothing disturbs it, hands out these targets: every operator has new generators. -/
def PhaseGives (c : Turn.Config) : Phase → List Target → Prop
  | .hunt l, ts => Gives huntStepper (l.map c.hunt.generate) ts []
  | .turn n k, ts => Gives turnStepper [c.turn (n, k)] ts []
  | .run _ cs, ts => Gives runStepper (Targets.trajectories c.run 0 cs) ts []

/-- The targets of a phase from a pose to a pose. -/
def Carries (c : Turn.Config) (W : Nat) (isWall : Verif.Search.Coord → Bool) (n : Node) (ph : Phase) (m : Node) (ts : List Target) : Prop :=
  match ph with
  | .hunt l => Hunt c.hunt W isWall n l m ts ∧ Steps (searchStep (huntSettings c.hunt)) (searchGain (huntSettings c.hunt)) ts
  | .turn n' k => n' = n ∧ Spins c.spin.vMax c.period (standing c.squareWidth c.frontOffset n) (rotationAngle k) ts ∧
      ∃ z : ℤ, (standing c.squareWidth c.frontOffset n).theta + rotationAngle k = (standing c.squareWidth c.frontOffset m).theta + 2 * Real.pi * z
  | .run path cs => ∃ q' v', Drive c.maxVelocity c.maxAcceleration c.period (standing c.squareWidth c.frontOffset n) 0 q' v' ts ∧
      Near (1e-6 * c.squareWidth) q' (standing c.squareWidth c.frontOffset m) ∧ Visits c.squareWidth ts path.dropLast ∧
      Steps (runStep c.run.toRunConfig) (c.maxAcceleration * c.period + c.runSlalomVelocity) ts ∧
      (3 ≤ cs.length → Roomy c.run.gen c.runSlalomVelocity 0 (0.1564 * c.squareWidth) → v' = 0)

/-- The target `t'` can follow `t` when one operator follows another: it is at most `δ` away, its heading differs by at most `η` apart from full turns, and
it does not move. -/
def TakesOver (δ η : ℝ) (t t' : Target) : Prop :=
  gap t t' ≤ δ ∧ (∃ z : ℤ, |t'.theta.x - t.theta.x - 2 * Real.pi * z| ≤ η) ∧ body t' = (0, 0)

/-- The targets of phases: those of each lead from its pose to that of the next, and can follow those before. -/
inductive Told (c : Turn.Config) (W : Nat) (isWall : Verif.Search.Coord → Bool) (start : Node) : List Phase → Node → List (List Target) → Prop
  | nil : Told c W isWall start [] start []
  | snoc (ps : List Phase) (tss : List (List Target)) (n m : Node) (ph : Phase) (ts : List Target) : Told c W isWall start ps n tss → PhaseGives c ph ts →
      Carries c W isWall n ph m ts → ts ≠ [] →
      (∀ l ∈ tss.getLast?, ∀ t ∈ l.getLast?, ∀ t' ∈ ts.head?, TakesOver (c.maxVelocity * c.period + 2e-6 * c.squareWidth) (c.spin.vMax * c.period) t t') →
      Told c W isWall start (ps ++ [ph]) m (tss ++ [ts])

/-- Usable settings: those of the search, those of the run, and a quarter turn can be begun. -/
structure StoryOk (c : Turn.Config) : Prop where
  hunt : SearchOk (huntSettings c.hunt)
  run : RunOk c.run.toRunConfig
  quarter : 2 * rampDist c.spin 0 (resolution c.spin.vMax) ≤ Real.pi / 2

end Verif.Spec
