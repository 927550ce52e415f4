import Verif.Model.OldSolver
/-!
# Specification of the former solver

Trips through a weighted graph, what the solver charges for an edge, and what is assumed of the parameters.
-/
namespace Verif.Spec
open Verif Verif.Old

/-- A weighted graph as a relation. -/
abbrev Edges (α : Type) := α → Nat → α → Prop

/-- `Trip E u p c v`: the list `p` is a way from `u` to `v` along edges of `E`, with total cost `c`. -/
inductive Trip {α : Type} (E : Edges α) : α → List α → Nat → α → Prop
  | here (u : α) : Trip E u [u] 0 u
  | step {u x v : α} {w c : Nat} {p : List α} : E u w x → Trip E x p c v → Trip E u (u :: p) (w + c) v

/-- The edges of the maze, with their cost. -/
def edgesOf {α : Type} (G : Graph α) : Edges α := fun u w v => ∃ l, G.successors u = .ok l ∧ (v, w) ∈ l

/-- What the solver charges for an edge: its cost and the distance of its end from the first goal. -/
def charged {α : Type} (G : Graph α) (goal0 : α) : Edges α :=
  fun u w v => ∃ e h, edgesOf G u e v ∧ G.distance v goal0 = .ok h ∧ w = e + h

/-- The nodes that are used: closed under successors, no panic in the coding or the graph, different indices. -/
structure Sound {α ι : Type} (G : Graph α) (C : Coding α ι) (MAX : Nat) (goal0 : α) (Node : α → Prop) : Prop where
  index : ∀ u, Node u → ∃ i, C.index u = .ok i ∧ i < NODE_MAX
  inj : ∀ u v, Node u → Node v → C.index u = C.index v → u = v
  code : ∀ u, Node u → ∃ i, C.id u = .ok i ∧ C.ofId i = .ok u
  succ : ∀ u, Node u → ∃ l, G.successors u = .ok l ∧ l.length ≤ EDGE_MAX ∧ ∀ e ∈ l, Node e.1
  dist : ∀ u, Node u → ∃ h, G.distance u goal0 = .ok h ∧ h ≤ MAX
  fits : ∀ u w v, Node u → charged G goal0 u w v → w ≤ MAX

/-- The number of edges out of the nodes of a list. -/
def edgeCount {α : Type} (G : Graph α) (B : List α) : Nat :=
  (B.map fun u => match G.successors u with | .ok l => l.length | .error _ => 0).sum

/-- Few nodes and edges. -/
def Small {α : Type} (G : Graph α) (Node : α → Prop) : Prop :=
  ∃ B : List α, (∀ u, Node u → u ∈ B) ∧ B.length ≤ PATH_MAX ∧ edgeCount G B < HEAP_MAX

/-- What is assumed of the heap: a bounded multiset, `pop` removes some entry of least cost. -/
structure QueueLaws {ι : Type} (Q : Queue ι) (cap : Nat) where
  elems : Q.H → List (Nat × ι)
  elems_empty : elems Q.empty = []
  push_full : ∀ h e, cap ≤ (elems h).length → Q.push h e = none
  push_ok : ∀ h e, (elems h).length < cap → ∃ h', Q.push h e = some h' ∧ (elems h').Perm (e :: elems h)
  pop_none : ∀ h, Q.pop h = none → elems h = []
  pop_some : ∀ h e h', Q.pop h = some (e, h') → (elems h).Perm (e :: elems h') ∧ ∀ x ∈ elems h, e.1 ≤ x.1

end Verif.Spec
