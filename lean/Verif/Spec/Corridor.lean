import Verif.Spec.Trial
/-!
# Specification vocabulary: a maze that begins with a straight corridor
-/
namespace Verif.Spec
open Verif.Search

/-- The squares `0` to `k` of the first column are a corridor: nothing between the squares `0` to `k + 1`, and a wall on the right of each of the squares `0` to `k`.
Everything else is arbitrary. -/
def Corridor (W : Nat) (maze : Walls.Walls) (k : Nat) : Prop :=
  ∀ i ≤ k, Walls.wallState W maze ⟨0, 2 * i + 1⟩ = .ok (.checked false) ∧ Walls.wallState W maze ⟨1, 2 * i⟩ = .ok (.checked true)

/-- The goals are positions in the corridor behind the first one. -/
def InCorridor (k : Nat) (goals : List Coord) : Prop := goals ≠ [] ∧ ∀ c ∈ goals, ∃ j, 1 ≤ j ∧ j ≤ k ∧ c = ⟨0, 2 * j + 1⟩

end Verif.Spec
