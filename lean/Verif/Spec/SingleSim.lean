import Verif.Model.SingleSim
/-!
# Specification of the simulator in single precision
-/
namespace Verif.Spec
open Verif Verif.Single

/-- A call of the simulator that changes it. -/
inductive SimEvent where
  | apply (left right : F)
  | step

/-- The simulator after a sequence of calls. -/
noncomputable def simEvents (A : Arith) (L : Lib) : List SimEvent → Simulator → Simulator
  | [], s => s
  | .apply l r :: es, s => simEvents A L es (s.apply l r)
  | .step :: es, s => simEvents A L es (s.step A L)

/-- No voltage of the call is `nan`; it may be infinite. -/
def SimEvent.Numbers : SimEvent → Prop
  | .apply l r => l ≠ .nan ∧ r ≠ .nan
  | .step => True

/-- Sine and cosine of the library are finite for angles up to 2²⁴ rad, and their squares sum up to `1 + η` at most. -/
def CircleTrig (L : Lib) (η : ℝ) : Prop :=
  ∀ x, |x| ≤ 2 ^ 24 → ∃ c s, L.cos (.fin x) = .fin c ∧ L.sin (.fin x) = .fin s ∧ c * c + s * s ≤ 1 + η

/-- A simulator whose parameters are of moderate size; with the ones of `search.rs:96-100` and `search.rs:247-250` this holds for
`η` up to one in a thousand. -/
structure SimFit (s : Simulator) (η M T kt tt kr tr w : ℝ) : Prop where
  max : s.maxVoltage = .fin M ∧ 0 ≤ M ∧ M ≤ 1000
  period : s.period = .fin T ∧ 1 / 10000 ≤ T ∧ T ≤ 1 / 400
  trans : s.transK = .fin kt ∧ |kt| ≤ 1000 ∧ |kt| * M ≤ 99
  transT : s.transT1 = .fin tt ∧ 0 ≤ tt ∧ tt ≤ 1000 * T
  rot : s.rotK = .fin kr ∧ |kr| ≤ 1000 ∧ |kr| * M ≤ 308
  rotT : s.rotT1 = .fin tr ∧ 0 ≤ tr ∧ tr ≤ 1000 * T
  wheel : s.wheelInterval = .fin w ∧ |w| ≤ 1 / 10
  eta : 0 ≤ η ∧ η ≤ 1 / 10 ∧ η * tt ≤ T / 2

/-- The mouse stands still, within 2²⁴ m and 2²⁴ rad. -/
def AtRest (s : State) : Prop :=
  ∃ x y t : ℝ, |x| ≤ 2 ^ 24 ∧ |y| ≤ 2 ^ 24 ∧ |t| ≤ 2 ^ 24 ∧
    s = ⟨⟨.fin x, .fin 0, .fin 0⟩, ⟨.fin y, .fin 0, .fin 0⟩, ⟨.fin t, .fin 0, .fin 0⟩⟩

/-- A finite value up to a bound. -/
def Upto (b : ℝ) (f : F) : Prop := ∃ r, f = .fin r ∧ |r| ≤ b

end Verif.Spec
