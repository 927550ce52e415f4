import Verif.Model.OldConfig
/-!
# Specification of the builder of the former configuration
-/
namespace Verif.Spec
open Verif Verif.Old Verif.Old.Config

/-- What is documented to be optional, with its value if it is not set: a maze of half size, no offset, and so on. All other fields are required, except the pattern converter, of which it is
documented too, but which has a default. -/
noncomputable def defaultOf : (f : Field) → Option f.type
  | .squareWidth => some (0.09 : ℝ)
  | .frontOffset => some (0 : ℝ)
  | .wallWidth => some (0.006 : ℝ)
  | .ignoreRadiusFromPillar => some (0.01 : ℝ)
  | .ignoreLengthFromWall => some (0.008 : ℝ)
  | .estimatorApproximationThreshold => some (0.1 : ℝ)
  | .estimatorStandardDeviationDelta => some (0 : ℝ)
  | .patternConverter => some defaultTable
  | _ => none

/-- A field without which nothing can be built. -/
def Demanded (f : Field) : Prop := defaultOf f = none

/-- A field that is moved out of the builder. -/
def Moved (f : Field) : Prop := Demanded f ∨ f = .patternConverter

/-- The calls of one builder. -/
inductive BuilderCall where
  | set (f : Field) (v : f.type)
  | build

/-- The builder after calls, the last one first. -/
noncomputable def builderAfter : List BuilderCall → Builder
  | [] => Builder.new
  | .set f v :: h => (builderAfter h).set f v
  | .build :: h => (builderAfter h).build.2

open Classical in
/-- The value that counts for a field after calls, the last one first: the one set last, unless it has been moved out by a call of `build` since, which, in the order of the fields, gets as far as
the first one that is demanded and does not have a value. -/
noncomputable def counts : List BuilderCall → (f : Field) → Option f.type
  | [], _ => none
  | .set g v :: h, f => if e : f = g then some (e ▸ v) else counts h f
  | .build :: h, f => if Moved f ∧ ∀ g : Field, Demanded g → g.ctorIdx < f.ctorIdx → (counts h g).isSome then none else counts h f

end Verif.Spec
