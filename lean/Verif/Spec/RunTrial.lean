import Verif.Spec.Driver
import Verif.Model.RunTrial
/-!
# Specification of the whole integration test of the fast run
-/
namespace Verif.Spec
open Verif Verif.Control Verif.Estimate Verif.Sim Verif.Driver Verif.Trial Verif.RunTrial

/-- In the run, only what the maze says to be open is open. -/
def shut (W : Nat) (maze : Walls.Walls) (c : Search.Coord) : Bool := decide (Walls.wallState W maze c ≠ .ok (.checked false))

/-- What the robot takes to be its state in a round. -/
noncomputable def believed (g : RunGear) (m : Runner) : State := (m.estimator.estimate g.T m.state (sensed g.T m.simulator)).2

/-- The input demanded for a target, before the supervisor. -/
noncomputable def demanded (g : RunGear) (m : Runner) (t : Target) : TrackingInput := g.navigation.navigate (believed g m) t

/-- The controller, given this supervised input for a target, computes these voltages. -/
def Volts (g : RunGear) (m : Runner) (t : Target) (i : Supervised) (left right : ℝ) : Prop :=
  ∃ tr a b c v, trackSupervised g.T g.pi m.tracker (believed g m) t i = some (tr, a, b) ∧ m.controller.control a b = (c, v) ∧ v.left = left ∧ v.right = right

/-- Why a round can fail: the supervisor panics, or there are no voltages of at most 4 V. -/
def Refused (g : RunGear) (m : Runner) (t : Target) (e : Panic) : Prop :=
  g.supervisor.supervise g.T (demanded g m t) (believed g m) = .error e ∨
  e = .assert ∧ ∃ i, g.supervisor.supervise g.T (demanded g m t) (believed g m) = .ok i ∧
    ∀ left right, Volts g m t i left right → 4 < |left| ∨ 4 < |right|

/-- A round that does not fail: the voltages are at most 4 V and go to the motors. -/
def Passed (g : RunGear) (m : Runner) (t : Target) (m' : Runner) : Prop :=
  ∃ i left right, g.supervisor.supervise g.T (demanded g m t) (believed g m) = .ok i ∧ Volts g m t i left right ∧ |left| ≤ 4 ∧ |right| ≤ 4 ∧
    m'.simulator = (m.simulator.apply left right).step g.T ∧ m'.state = believed g m

/-- How many rounds a straight run over `k` squares takes. -/
def straightRounds (k : Nat) : Nat := if k = 1 then 230 else if k = 2 then 322 else 90 * k + 136

end Verif.Spec
