import Verif.Model.OldManager
import Verif.Spec.OldExplore
import Verif.Spec.Float
import Verif.Spec.Text
/-!
# Specification of the former wall memory

A memory holds a probability for each wall of the maze; what it holds is seen by reading it.
-/
namespace Verif.Spec
open Verif Verif.Run Verif.Old Verif.Old.Search Verif.Old.Manager

/-- The wall belongs to the maze: it is the upper or the right one of a cell. -/
def InMaze (W : Nat) (w : Wall) : Prop := w.x < W ∧ w.y < W

instance (W w) : Decidable (InMaze W w) := by unfold InMaze; infer_instance

/-- The mutexes of the walls of a list are held. -/
def held (W : Nat) (ws : List Wall) : Nat → Bool := fun i => ws.any fun w => w.index W == i

/-- Reading the memory while nothing is locked returns the values of `f`. -/
def Recalls (W : Nat) (m : Manager) (f : Wall → F) : Prop :=
  ∀ w, InMaze W w → tryProbability W (held W []) m w = .ok (some (f w))

/-- The function with one value changed. -/
def changed (f : Wall → F) (w : Wall) (p : F) : Wall → F := fun v => if v = w then p else f v

/-- What is known before the first measurement: the border and the wall right of the start exist, the one ahead of the start does
not. -/
noncomputable def atFirst (W : Nat) (w : Wall) : F :=
  if w = ⟨0, 0, true⟩ then .fin 0
  else if w = ⟨0, 0, false⟩ ∨ (w.top = true ∧ w.y = W - 1) ∨ (w.top = false ∧ w.x = W - 1) then .fin 1
  else .fin (1 / 2)

/-- The line of a text, and the column in it, in which a wall is drawn, and the sign for it. -/
def drawnAt (W : Nat) (w : Wall) : Nat × Nat × Char :=
  if w.top then (2 * (W - 1 - w.y), 4 * w.x + 1, '-') else (2 * (W - 1 - w.y) + 1, 4 * w.x + 4, '|')

/-- What a text says of a wall: present or not according to the character at its place, if there is one. -/
noncomputable def fromText (W : Nat) (lines : List (List Char)) (w : Wall) : F :=
  match (lines[(drawnAt W w).1]?).bind (fun l => l[(drawnAt W w).2.1]?) with
  | none => .fin (1 / 2)
  | some c => if c = (drawnAt W w).2.2 then .fin 1 else .fin 0

/-- No line is too long. -/
def FitsWidth (W : Nat) (lines : List (List Char)) : Prop :=
  ∀ (i : Nat) (l : List Char), i < 2 * W → lines[i]? = some l → l.length ≤ if i % 2 = 0 then 4 * W + 1 else 4 * W + 4

/-- The changes of a list of updates, the last one first. -/
def history (f : Wall → F) : List (Wall × F) → Wall → F
  | [], w => f w
  | (v, p) :: older, w => if w = v then p else history f older w

/-- The memory after some of the attempts to update a wall have succeeded. -/
inductive Updates (W : Nat) : Manager → List (Wall × F) → Manager → Prop
  | nil (m : Manager) : Updates W m [] m
  | done (m m' m'' : Manager) (l : List (Wall × F)) (ws : List Wall) (w : Wall) (p : F) : Updates W m l m' → InMaze W w →
      tryUpdate W (held W ws) m' w p = .ok (some m'') → Updates W m ((w, p) :: l) m''
  | failed (m m' : Manager) (l : List (Wall × F)) (ws : List Wall) (w : Wall) (p : F) : Updates W m l m' → InMaze W w →
      tryUpdate W (held W ws) m' w p = .ok none → Updates W m l m'

/-- A threshold that tells known walls from unknown ones: 0 lies below it, 1 above the opposite one, and 1/2 between them. -/
structure GoodThreshold (A : Arith) (t : F) : Prop where
  prob : IsProb A t
  pos : (F.fin 0).lt t
  opp : (reverse A t).lt (.fin 1)
  half : t.le (.fin (1 / 2))

/-- A maze that follows the rules: it is closed, and the start has a wall to the right and none ahead. -/
structure Regular (W : Nat) (real : Wall → Bool) : Prop where
  closed : Closed W real
  right : real ⟨0, 0, false⟩ = true
  ahead : real ⟨0, 0, true⟩ = false

/-- The value does not tell anything wrong about the wall, and does not leave it open if it has been `known`. -/
def TrueValue (A : Arith) (t : F) (real known : Bool) (p : F) : Prop :=
  (p.lt t → real = false) ∧ ((reverse A t).lt p → real = true) ∧ (known = true → p.lt t ∨ (reverse A t).lt p)

/-- A run of the search commander on a new memory: truthful updates and calls in any order, with any walls locked. -/
inductive Session (P : Config) (A : Arith) (t : F) (real : Wall → Bool) : Manager → Commander → List Reply → Prop
  | start (m : Manager) : new P.W t = .ok m → Session P A t real m (Commander.new P.start) []
  | sense (m m' : Manager) (s : Commander) (rs : List Reply) (ws : List Wall) (w : Wall) (p : F) : Session P A t real m s rs →
      InMaze P.W w → TrueValue A t (real w) ((belief A P.W (held P.W []) m).checked w) p →
      tryUpdate P.W (held P.W ws) m w p = .ok (some m') → Session P A t real m' s rs
  | call (m : Manager) (s s' : Commander) (r : Reply) (rs : List Reply) (ws : List Wall) : Session P A t real m s rs →
      nextCommand P (belief A P.W (held P.W ws) m) s = .ok (r, s') → Session P A t real m s' (rs ++ [r])

/-- The line and the column at which the display shows the value of a wall. -/
def shownAt (W : Nat) (w : Wall) : Nat × Nat :=
  if w.top then (1 + 4 * (W - 1 - w.y), 4 + 8 * w.x) else (1 + 4 * (W - 1 - w.y) + 2, 8 + 8 * w.x)

end Verif.Spec
