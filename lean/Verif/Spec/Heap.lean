import Verif.Model.Run
/-!
# Specification of the priority queue

What is assumed of `heapless::BinaryHeap<_, Min, N>`: a bounded multiset; `pop` removes some entry of least cost
(which one among equals is left open), `push` on a full queue is refused.
-/
namespace Verif.Spec
open Verif Verif.Run

structure HeapLaws (ops : HeapOps) (cap : Nat) where
  elems : ops.H → List (Nat × Nat)
  elems_empty : elems ops.empty = []
  push_full : ∀ h e, cap ≤ (elems h).length → ops.push h e = none
  push_ok : ∀ h e, (elems h).length < cap → ∃ h', ops.push h e = some h' ∧ (elems h').Perm (e :: elems h)
  pop_none : ∀ h, ops.pop h = none → elems h = []
  pop_some : ∀ h e h', ops.pop h = some (e, h') → (elems h).Perm (e :: elems h') ∧ ∀ x ∈ elems h, e.1 ≤ x.1

end Verif.Spec
