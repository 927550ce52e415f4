import Verif.Spec.SingleHunt
import Verif.Spec.Driver
import Verif.Model.SingleRun
/-!
# Specification of the fast run in floating point arithmetic
-/
namespace Verif.Spec
open Verif Verif.Single Verif.Binary32

/-- With acceleration `a` and jerk `j` the speed `η` is reached from rest within the length `D`, with a reserve of 25 % for a rough square root when the
acceleration stays below `a`, and of 4 % otherwise. -/
structure Rises (a j D η : ℝ) : Prop where
  gentle : 1.25 * (η * √(η / j)) ≤ D
  full : a * a ≤ 1.01 * (j * η) → 0.52 * (η * (η / a + a / j)) ≤ D

/-- Usable settings of a run in single precision through a maze of width `W`: limits of moderate size; squares of at least 1 cm and a maze of at most 7 m; a
speed `w` of at most 2 m/s, less than twelve squares per second; a speed `ℓ` of at least two squares per second and 5 cm/s that is reached from rest
within 14 % of a square. -/
structure Dashes (V a j p s w ℓ : ℝ) (W : Nat) (c : Dash) : Prop where
  gen : Paced V a j c.gen
  period : c.period = .fin p
  brief : Brief p
  width : c.squareWidth = .fin s
  w0 : 0.01 ≤ s
  maze : W * s ≤ 7
  run : c.slalomVelocity = .fin w
  pace : Pace V w
  high : w ≤ 2
  fast : w ≤ 12 * s
  low : ℓ ≤ w
  slow : 2 * s ≤ ℓ
  least : 0.05 ≤ ℓ
  rise : Rises a j (0.14 * s) (ℓ + V / 2 ^ 20)
  top : ℓ + V / 2 ^ 20 ≤ V

/-- The main loop issues exactly these targets, one every round, and ends after them. -/
def Hands (A : Arith) (L : Lib) (stints : List (Place × Stint)) (l : List Target) : Prop :=
  ∀ n, dashTargets A L n stints = .ok (l.take n, decide (l.length < n))

/-- Some of the targets are exactly at the poses, in this order. -/
def Calls (l : List Target) (places : List Place) : Prop :=
  ∃ ts, ts.Sublist l ∧ List.Forall₂ (fun t q => t.x.x = q.x ∧ t.y.x = q.y ∧ t.theta.x = q.theta) ts places

/-! ## Real numbers as floating point numbers -/

def dashOf (c : Driver.RunConfig) : Dash := ⟨genOf c.gen, .fin c.period, .fin c.squareWidth, .fin c.slalomVelocity⟩

end Verif.Spec
