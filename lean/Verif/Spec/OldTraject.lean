import Verif.Model.OldTraject
/-!
# Specification of the targets handed to the former robot
-/
namespace Verif.Spec.Traject
open Verif Verif.Old.Traject

variable {S T : Type}

/-- A trajectory has given these targets; it is then at a state, or over (`none`). -/
inductive Outputs (step : S → Option (T × S)) : S → List T → Option S → Prop
  | start (s : S) : Outputs step s [] (some s)
  | over (s : S) : step s = none → Outputs step s [] none
  | more (s : S) (x : T) (s' : S) (l : List T) (r : Option S) :
    step s = some (x, s') → Outputs step s' l r → Outputs step s (x :: l) r

/-- The trajectories, one after the other, have given these targets; what is left of them. -/
inductive Gives (step : S → Option (T × S)) : List S → List T → List S → Prop
  | nil : Gives step [] [] []
  | partway (s : S) (ss : List S) (l : List T) (s' : S) : Outputs step s l (some s') → Gives step (s :: ss) l (s' :: ss)
  | over (s : S) (ss : List S) (l ts : List T) (left : List S) :
    Outputs step s l none → Gives step ss ts left → Gives step (s :: ss) (l ++ ts) left

/-- The first list is the second with some elements repeated in place. -/
inductive Stutter : List T → List T → Prop
  | nil : Stutter [] []
  | new (l f : List T) (x : T) : Stutter l f → Stutter (l ++ [x]) (f ++ [x])
  | again (l f : List T) (x : T) : Stutter l f → l.getLast? = some x → Stutter (l ++ [x]) f

/-- The trajectory ends. -/
def Finite (step : S → Option (T × S)) (s : S) : Prop := ∃ l, Outputs step s l none

/-- The trajectories of the commands among the answers. -/
def commands (answers : List (Answer S)) : List S :=
  answers.filterMap fun a => match a with
    | .command s => some s
    | _ => none

/-- The trajectory the main loop is about to put in the queue. -/
def underway : Place S → List S
  | .check s | .enter s | .make s => [s]
  | _ => []

/-- The process after the first `n` events of an infinite schedule. -/
def after {M : Type} (A : Manager M S T) (σ : Nat → Event) (p : Proc M S) (n : Nat) : R (List T × Proc M S) :=
  p.run A ((List.range n).map σ)

/-- The first interrupt comes while the lock is free. -/
def FirstFree {M : Type} (A : Manager M S T) (σ : Nat → Event) (p : Proc M S) : Prop :=
  ∀ n q, after A σ p n = .ok ([], q) → σ n = .tick → q.place.held = false

/-- The target at a position (from 0) of the trajectories, one after the other. -/
def Item (step : S → Option (T × S)) (ss : List S) (i : Nat) (x : T) : Prop :=
  ∃ ts left, Gives step ss (ts ++ [x]) left ∧ ts.length = i

/-- The targets of an emergency that begins after the target `b`: those of the emergency trajectory from `b`, and then its last one again. -/
def Emergency (step : S → Option (T × S)) (emer : T → S) (b : T) (l : List T) : Prop :=
  ∃ l1 r k, Outputs step (emer b) l1 r ∧ (k = 0 ∨ r = none) ∧ l = l1 ++ List.replicate k (l1.getLastD b)

/-- The targets handed out: those of the trajectories, interrupted by emergencies. The number is the position after the last target of a
trajectory; then the target before the present emergency and the targets since, if there is an emergency. After an emergency, as many
targets as it took are left out, at least. -/
inductive History (step : S → Option (T × S)) (emer : T → S) (d : T) (ss : List S) : List T → Nat → Option (T × List T) → Prop
  | start : History step emer d ss [] 0 none
  | fresh (xs : List T) (i : Nat) (x : T) :
    History step emer d ss xs i none → Item step ss i x → History step emer d ss (xs ++ [x]) (i + 1) none
  | alarm (xs : List T) (i : Nat) (x : T) : History step emer d ss xs i none → Emergency step emer (xs.getLastD d) [x] →
    History step emer d ss (xs ++ [x]) i (some (xs.getLastD d, [x]))
  | go (xs : List T) (i : Nat) (b : T) (l : List T) (x : T) : History step emer d ss xs i (some (b, l)) → Emergency step emer b (l ++ [x]) →
    History step emer d ss (xs ++ [x]) i (some (b, l ++ [x]))
  | resume (xs : List T) (i j : Nat) (b : T) (l : List T) (x : T) : History step emer d ss xs i (some (b, l)) → i + l.length ≤ j →
    Item step ss j x → History step emer d ss (xs ++ [x]) (j + 1) none

/-- The first trajectory that is not over has more than `k` targets left. -/
inductive Uncut (step : S → Option (T × S)) (k : Nat) : List S → Prop
  | nil : Uncut step k []
  | over (s : S) (q : List S) : step s = none → Uncut step k q → Uncut step k (s :: q)
  | long (s s' : S) (q : List S) (l : List T) : Outputs step s l (some s') → l.length = k → step s' ≠ none → Uncut step k (s :: q)

/-- During the events, no tick that finds the lock free meets a trajectory with fewer targets left than ticks were spent in the emergency. -/
def NeverCut (step : S → Option (T × S)) (emer : T → S) (p : Proc (Searching S T) S) (es : List Event) : Prop :=
  ∀ es1 es2 xs q, es = es1 ++ .tick :: es2 → p.run (searching step emer) es1 = .ok (xs, q) → q.place.held = false →
    Uncut step q.manager.counter q.manager.queue

end Verif.Spec.Traject
