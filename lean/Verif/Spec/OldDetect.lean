import Verif.Model.OldDetect
import Verif.Spec.OldManager
import Verif.Spec.Convert
import Verif.Spec.Detect
/-!
# Specification of the former wall detector

What a robot can say about walls and about its own position, in real numbers: distances along rays, Bayes' rule for walls that are not
settled, and the weighted mean of two estimates for the position.
-/
namespace Verif.Spec
open Verif Verif.Old Verif.Old.Manager Verif.Old.Detect Verif.Old.Search
open Verif.Detect (Pose)
open Verif.Convert (Converter Dir)

/-- The wall on a side of the cell `(i, j)`: the cell that has it as its right or its upper wall, and which of the two it is. -/
def oldSide (i j : Int) : Dir → Int × Int × Bool
  | .right => (i, j, false)
  | .left => (i - 1, j, false)
  | .top => (i, j, true)
  | .bottom => (i, j - 1, true)

/-- A wall ahead of a sensor, and the distances to be measured with and without it. -/
structure Seen where
  wall : Wall
  near : ℝ
  far : ℝ

/-- The converter returns what is seen from a pose, as far as anything is seen from there. -/
def Sees (W : Nat) (conv : FPose → R (Except ConvError Info)) (see : Pose → Option Seen) : Prop :=
  ∀ p : Pose, match see p with
    | some e => InMaze W e.wall ∧ conv ⟨.fin p.x, .fin p.y, p.theta⟩ = .ok (.ok ⟨e.wall, .fin e.near, .fin e.far⟩)
    | none => ∃ e, conv ⟨.fin p.x, .fin p.y, p.theta⟩ = .ok (.error e)

/-- One sensor during one call: where it sits, what it measures (mean and standard deviation), and the walls whose mutexes are held
elsewhere when they are read and when they are written. -/
structure Look where
  mount : Pose
  reading : Option (ℝ × ℝ)
  busyRead : List Wall
  busyWrite : List Wall

/-- The standard deviation is positive, and the mutexes are those of walls of the maze. -/
structure Look.Fair (W : Nat) (l : Look) : Prop where
  positive : ∀ z s, l.reading = some (z, s) → 0 < s
  read : ∀ w ∈ l.busyRead, InMaze W w
  write : ∀ w ∈ l.busyWrite, InMaze W w

noncomputable def Look.input (W : Nat) (l : Look) : Input :=
  ⟨l.mount, l.reading.map fun r => (.fin r.1, .fin r.2), held W l.busyRead, held W l.busyWrite⟩

/-- What is known at some point of a call: the poses at which sensors have been waiting since for a measurement, the probabilities of
the walls, and the correction of the position with its variance. -/
structure Guess where
  past : Nat → Option Pose
  prob : Wall → ℝ
  dx : ℝ
  dy : ℝ
  var : ℝ

/-- The pose of a sensor mounted at `r` on a machine at `m`, moved by the correction. -/
noncomputable def aimed (m r : Pose) (dx dy : ℝ) : Pose :=
  ⟨m.x + (r.x * Real.cos m.theta - r.y * Real.sin m.theta) + dx, m.y + (r.x * Real.sin m.theta + r.y * Real.cos m.theta) + dy,
    m.theta + r.theta⟩

/-- A probability that is not distinguished from 0, or from 1. -/
def Nil (p : ℝ) : Prop := p < 1 / 2 ^ 23
def Sure (p : ℝ) : Prop := 1 - p < 1 / 2 ^ 23

/-- Where the sensor is taken to look from: where it began to wait, or here. -/
noncomputable def Guess.from (g : Guess) (here : Pose) (i : Nat) (l : Look) : Pose := aimed ((g.past i).getD here) l.mount g.dx g.dy

/-- The wall measured by the sensor, if there is one that can be read. -/
noncomputable def Guess.target (see : Pose → Option Seen) (here : Pose) (i : Nat) (l : Look) (g : Guess) : Option (Seen × ℝ × ℝ) :=
  match l.reading, see (g.from here i l) with
  | some (z, s), some e => if e.wall ∈ l.busyRead then none else some (e, z, s)
  | _, _ => none

/-- The probability after a measurement, by Bayes' rule. -/
noncomputable def updated (p : ℝ) (e : Seen) (z s : ℝ) : ℝ :=
  p * likelihood e.near z s / (p * likelihood e.near z s + (1 - p) * likelihood e.far z s)

/-- What sensor `i` does not tell: since when it has been waiting. -/
def waits (past : Option Pose) (here : Pose) (measured : Bool) : Option Pose :=
  if measured then none else some (past.getD here)

open Classical in
/-- What is known after sensor `i` has been read. -/
noncomputable def Guess.after (see : Pose → Option Seen) (here : Pose) (i : Nat) (l : Look) (g : Guess) : Guess :=
  let past := fun j => if j = i then waits (g.past i) here l.reading.isSome else g.past j
  match g.target see here i l with
  | none => { g with past }
  | some (e, z, s) =>
    if Nil (g.prob e.wall) then { g with past }
    else if Sure (g.prob e.wall) then
      let k := g.var / (g.var + s ^ 2)
      let θ := (g.from here i l).theta
      { g with past, dx := g.dx + k * (e.near - z) * Real.cos θ, dy := g.dy + k * (e.near - z) * Real.sin θ, var := g.var * (1 - k) }
    else if e.wall ∈ l.busyWrite then { g with past }
    else { g with past, prob := fun w => if w = e.wall then updated (g.prob w) e z s else g.prob w }

/-- What is known after all sensors from number `i` on have been read. -/
noncomputable def Guess.afterAll (see : Pose → Option Seen) (here : Pose) : Nat → List Look → Guess → Guess
  | _, [], g => g
  | i, l :: ls, g => Guess.afterAll see here (i + 1) ls (g.after see here i l)

/-- A detector that knows this much. -/
structure Remembers (W : Nat) (d : Detector) (g : Guess) : Prop where
  memory : Recalls W d.memory fun w => .fin (g.prob w)
  past : ∀ i < SENSORS, d.past i = (g.past i).map fun p => ⟨.fin p.x, .fin p.y, p.theta⟩

/-- All probabilities are between 0 and 1. -/
def Chances (W : Nat) (g : Guess) : Prop := ∀ w, InMaze W w → 0 ≤ g.prob w ∧ g.prob w ≤ 1

/-- The measurement is nearer to the distance that is right for the maze. -/
def Truthful (real : Wall → Bool) (see : Pose → Option Seen) (here : Pose) (i : Nat) (l : Look) (g : Guess) : Prop :=
  ∀ e z s, g.target see here i l = some (e, z, s) →
    if real e.wall then |z - e.near| ≤ |z - e.far| else |z - e.far| ≤ |z - e.near|

/-- All measurements of a call are truthful, each at the time at which it is used. -/
def AllTruthful (real : Wall → Bool) (see : Pose → Option Seen) (here : Pose) : Nat → List Look → Guess → Prop
  | _, [], _ => True
  | i, l :: ls, g => Truthful real see here i l g ∧ AllTruthful real see here (i + 1) ls (g.after see here i l)

/-- The state of a robot at `(x, y)` with the given standard deviations. -/
noncomputable def stateAt (p : Pose) (sx sy : ℝ) : State := ⟨.fin p.x, .fin p.y, .fin sx, .fin sy, p.theta⟩

/-- The guess at the beginning of a call. -/
noncomputable def Guess.begin (g : Guess) (sx sy : ℝ) : Guess := { g with dx := 0, dy := 0, var := ((sx + sy) / 2) ^ 2 }

/-- Several calls of one detector, each with the state of the robot and the looks of the sensors. -/
noncomputable def detections (conv : FPose → R (Except ConvError Info)) (W : Nat) : List (Pose × ℝ × ℝ × List Look) → Detector → R Detector
  | [], d => .ok d
  | (p, sx, sy, ls) :: rest, d => do
    let (d, _) ← detectAndUpdate exact conv W d (ls.map (Look.input W)) (stateAt p sx sy)
    detections conv W rest d

/-- Since when a sensor has been waiting, given its pose and whether it has measured at each of the calls, the last one first. -/
def waitingSince : List (Pose × Bool) → Option Pose
  | [] => none
  | (_, true) :: _ => none
  | (p, false) :: older => some ((waitingSince older).getD p)

/-- A search with the former detector: calls of the detector at any poses, with truthful measurements, and calls of the commander. -/
inductive Patrol (P : Config) (t : F) (real : Wall → Bool) (conv : FPose → R (Except ConvError Info)) (see : Pose → Option Seen) :
    Detector → Commander → List Reply → Prop
  | start (m : Manager) : new P.W t = .ok m → Patrol P t real conv see (Detector.new m) (Commander.new P.start) []
  | detect (d d' : Detector) (c : Commander) (rs : List Reply) (p : Pose) (sx sy : ℝ) (ls : List Look) (s' : State) (g : Guess) :
      Patrol P t real conv see d c rs → ls.length ≤ 6 → (∀ l ∈ ls, l.Fair P.W) → Remembers P.W d g →
      AllTruthful real see p 0 ls (g.begin sx sy) →
      detectAndUpdate exact conv P.W d (ls.map (Look.input P.W)) (stateAt p sx sy) = .ok (d', s') → Patrol P t real conv see d' c rs
  | call (d : Detector) (c c' : Commander) (r : Reply) (rs : List Reply) (ws : List Wall) : Patrol P t real conv see d c rs →
      nextCommand P (belief exact P.W (held P.W ws) d.memory) c = .ok (r, c') → Patrol P t real conv see d c' (rs ++ [r])

end Verif.Spec
