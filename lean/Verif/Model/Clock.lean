import Verif.Model.Binary32
/-!
# The clock of the trajectories of `mousecore2`

The parts of the iterators that concern time, for any arithmetic: `Verif.Model.Straight` and `Verif.Model.Slalom` have them
with exact arithmetic only.
-/
namespace Verif
open Verif

/-- The fields `t`, `t_end` and `period` of `straight.rs:478-483`, `spin.rs:43-48`, `slalom.rs:181-189` and
`trajectory.rs:126-131`. -/
structure Clock where
  t : F
  tEnd : F
  period : F

/-- `straight.rs:485-494`, `spin.rs:50-60`, `slalom.rs:205-223`, `trajectory.rs:134-143`: the clock starts at zero. -/
def Clock.new (tEnd period : F) : Clock := ⟨.fin 0, tEnd, period⟩

open Classical in
/-- The time of the next target: `straight.rs:500-505`, `spin.rs:65-70`, `slalom.rs:229-234`. -/
noncomputable def Clock.next (A : Arith) (c : Clock) : Option F × Clock :=
  if c.tEnd.lt c.t then (none, c) else (some c.t, { c with t := A.add c.t c.period })

open Classical in
/-- The same for a stop, `trajectory.rs:148-168`. -/
noncomputable def Clock.rest (A : Arith) (c : Clock) : Option F × Clock :=
  if c.t.lt c.tEnd then (some c.t, { c with t := A.add c.t c.period }) else (none, c)

end Verif
