import Verif.Proof.OldEmergency
import Verif.Props.OldTraject
/-!
# C96: the targets handed to the robot by the former search manager, under the interrupts
-/
namespace Verif.Props
open Verif Verif.Old.Traject Verif.Spec.Traject Verif.Proof.OldT

variable {S T : Type} [Inhabited T] {step : S → Option (T × S)} {emer : T → S} {s : S} {answers : List (Answer S)} {es : List Event} {xs : List T}
  {p p' : Proc (Searching S T) S} {x : T}

/-- **C96, history.** Whatever the interleaving of the interrupts with the main loop, the targets handed to the robot are those of the
trajectories put in the queue, in order, never twice, interrupted by emergencies; an emergency follows the emergency trajectory from the last
target and stays at its end; after an emergency of `n` ticks at least `n` targets are left out; and no targets are left out otherwise. -/
theorem C96_history (h : (Searching.start s answers).run (searching step emer) es = .ok (xs, p)) :
    ∃ i e, History step emer default p.accepted xs i e := by
  obtain ⟨-, i, e, ts, h1, -⟩ := search_inv h
  exact ⟨i, e, h1⟩

/-- **C96, never late.** The target of tick number `t` (from 0), if the lock is free, stands at position `t` or later in the trajectories, or
all trajectories in the queue are used up. -/
theorem C96_never_late (h : (Searching.start s answers).run (searching step emer) es = .ok (xs, p)) (hh : p.place.held = false)
    (ht : p.tick (searching step emer) = .ok (x, p')) : (∃ j, xs.length ≤ j ∧ Item step p.accepted j x) ∨ p'.manager.queue = [] :=
  (search_tick (search_inv h) ht).2 hh

/-- **C96, on time.** If no trajectory with fewer targets left than the ticks of the emergency is met after an emergency, then the target of
tick number `t` (from 0), if the lock is free, is the one at position `t` of the trajectories, or they have no more than `t` targets. -/
theorem C96_on_time (h : (Searching.start s answers).run (searching step emer) es = .ok (xs, p))
    (hc : NeverCut step emer (Searching.start s answers) (es ++ [.tick])) (hh : p.place.held = false)
    (ht : p.tick (searching step emer) = .ok (x, p')) :
    Item step p.accepted xs.length x ∨ ∃ ts, Gives step p.accepted ts [] ∧ ts.length ≤ xs.length := by
  have ho := on_time h fun es1 es2 xs q he hr hh => hc es1 (es2 ++ [.tick]) xs q (by rw [he]; simp) hr hh
  exact (on_tick (search_inv h) ho (fun hh => hc es [] xs p rfl h hh) ht).2 hh

/-- The position of a target is unique up to equal targets: the positions determine the targets. -/
theorem item_unique {ss : List S} {i : Nat} {x y : T} (hx : Item step ss i x) (hy : Item step ss i y) : x = y := by
  obtain ⟨ts, l, h1, h2⟩ := hx
  obtain ⟨ts', l', h3, h4⟩ := hy
  exact gives_same h1 h3 (h2.trans h4.symm)

theorem search_opInv : OpInv (searching step emer) s answers (Searching.start s answers) where
  room := by simp [searching, Searching.start, QUEUE_LENGTH]
  space h := h.elim
  used := ⟨[], rfl, by simp [Searching.start, underway, commands], by intro h; cases h⟩

/-- **C96, commands.** The main loop never panics, at most three trajectories wait, `set_command` takes every command, in the order of the
commander, and `run` fails only by an error of the commander. -/
theorem C96_commands (h : (Searching.start s answers).run (searching step emer) es = .ok (xs, p)) :
    (∃ r, p.main (searching step emer) = .ok r) ∧ p.manager.queue.length ≤ 3 ∧
      ∃ used, answers = used ++ p.answers ∧ p.accepted ++ underway p.place = s :: commands used ∧ (p.place = .failed → .other ∈ used) :=
  C95_commands searching_laws search_opInv h

/-- **C96, no panic.** Nothing ever panics. -/
theorem C96_no_panic (es : List Event) : ∃ r, (Searching.start s answers).run (searching step emer) es = .ok r := by
  induction es using List.reverseRecOn with
  | nil => exact ⟨_, rfl⟩
  | append_singleton es e ih =>
    obtain ⟨⟨xs, q⟩, hr⟩ := ih
    rw [run_snoc, hr]
    simp only [bind, Except.bind, pure, Except.pure]
    cases e with
    | main =>
      obtain ⟨⟨q', h⟩, -⟩ := C96_commands hr
      simp [Proc.event, bind, Except.bind, h, pure, Except.pure]
    | tick => exact ⟨_, rfl⟩

/-- **C96, termination.** If all trajectories end, the commander gives commands and then finishes, and again and again the main loop goes on
and an interrupt finds the lock free, then `run` returns `Ok`, after all commands have been taken and all their trajectories used up. -/
theorem C96_completes {σ : Nat → Event} (hfs : Finite step s) (hfin : ∀ t ∈ commands answers, Finite step t)
    (hplain : ∀ a ∈ answers, (∃ t, a = .command t) ∨ a = .waiting) (hm : ∀ n, ∃ m, n ≤ m ∧ σ m = .main)
    (ht : ∀ n, ∃ m, n ≤ m ∧ σ m = .tick ∧ ∀ xs q, after (searching step emer) σ (Searching.start s answers) m = .ok (xs, q) → q.place.held = false) :
    ∃ n xs q i e, after (searching step emer) σ (Searching.start s answers) n = .ok (xs, q) ∧ q.place = .done ∧
      q.accepted = s :: commands answers ∧ History step emer default (s :: commands answers) xs i e := by
  obtain ⟨f, hf, h0, hrun⟩ := path_of (A := searching step emer) (p := Searching.start s answers) (σ := σ) fun n => C96_no_panic _
  have hl : Live step (searching step emer) (f 0) := by
    rw [h0]
    refine ⟨fun t ht => ?_, fun t ht => ?_, fun a ha => ?_, by simp [Searching.start], by simp [Searching.start], fun h => h.elim, by simp [searching, Searching.start, QUEUE_LENGTH]⟩
    · rw [List.mem_singleton.mp ht]; exact hfs
    · exact hfin t (by simpa [Searching.start, underway] using ht)
    · rcases hplain a ha with ⟨t, rfl⟩ | rfl <;> trivial
  obtain ⟨n, -, hd⟩ := path_done searching_laws hf hl hm (fun n => by
    obtain ⟨m, h1, h2, h3⟩ := ht n
    obtain ⟨xs, hx⟩ := hrun m
    exact ⟨m, h1, h2, h3 _ _ hx⟩) (todo (f 0)) _ 0 (Nat.le_refl _) (fun _ => Nat.le_refl _)
  obtain ⟨xs, hx⟩ := hrun n
  obtain ⟨-, -, used, h1, h2, -⟩ := C96_commands hx
  have ha : (f n).answers = [] := (path_live searching_laws hf hl n).over (.inr hd)
  rw [ha, List.append_nil] at h1
  simp only [hd, underway, List.append_nil] at h2
  obtain ⟨i, e, h3⟩ := C96_history hx
  rw [h2, ← h1] at h3
  exact ⟨n, xs, f n, i, e, hx, hd, by rw [h2, ← h1], h3⟩

/-! ### Cases -/

/-- The emergency trajectories of the cases: two targets. -/
def brake (x : Nat) : List Nat := [x + 100, x + 200]

/-- The search operator of the cases. -/
def twoSearches : Proc (Searching (List Nat) Nat) (List Nat) := Searching.start [1, 2, 3, 4, 5, 6] [.command [7, 8, 9, 10, 11, 12]]

/-- The hypotheses of the theorems are met by a run with an emergency of two ticks, after which the targets are on time: the lock is held at the
second and third tick. -/
example : ∃ p q, twoSearches.run (searching listStep brake) [.tick, .main, .tick, .tick, .main] = .ok ([1, 101, 201], p) ∧
    p.tick (searching listStep brake) = .ok (4, q) ∧ p.place.held = false := ⟨_, _, rfl, rfl, rfl⟩

theorem twoSearches_uncut : NeverCut listStep brake twoSearches ([.tick, .main, .tick, .tick, .main] ++ [.tick]) := by
  intro es1 es2 xs q he hr hh
  have hlen := congrArg List.length he
  simp at hlen
  match es1, he, hr with
  | [], he, hr => cases hr; exact .long _ _ _ [] (.start _) rfl (by simp [listStep])
  | [a], he, hr => cases he
  | [a, b], he, hr => cases he; cases hr; cases hh
  | [a, b, c], he, hr => cases he; cases hr; cases hh
  | [a, b, c, d], he, hr => cases he
  | [a, b, c, d, e], he, hr =>
    cases he
    cases hr
    exact .long _ [4, 5, 6] _ [2, 3] (.more _ _ _ _ _ rfl (.more _ _ _ _ _ rfl (.start _))) rfl (by simp [listStep])
  | a :: b :: c :: d :: e :: f :: g, he, hr => simp at hlen; omega

/-- The hypotheses of `C96_completes` are met by the alternation. -/
example : (∀ n, ∃ m, n ≤ m ∧ alternate m = .main) ∧ (∀ n, ∃ m, n ≤ m ∧ alternate m = .tick ∧
      ∀ xs q, after (searching listStep brake) alternate twoSearches m = .ok (xs, q) → q.place.held = false) := by
  refine ⟨fun n => ⟨2 * n + 1, by omega, by simp [alternate]⟩, fun n => ⟨2 * n + 60, by omega, by simp [alternate], fun xs q h => ?_⟩⟩
  obtain ⟨ys, p, hp, hd⟩ : ∃ ys p, twoSearches.run (searching listStep brake) ((List.range 60).map alternate) = .ok (ys, p) ∧ p.place = .done :=
    ⟨_, _, rfl, rfl⟩
  rw [Nat.add_comm] at h
  rw [done_stays (n := 60) hp hd h]
  rfl

/-- The overshoot: the first trajectory has one target left when the emergency of two ticks ends. It is thrown away, and again two targets of the
next one are left out: tick number 3 gives the target at position 4. -/
theorem C96_overshoot : ∃ p q, (Searching.start [1, 2] [.command [7, 8, 9, 10]]).run (searching listStep brake)
    [.main, .main, .main, .main, .main, .main, .tick, .main, .tick, .tick, .main] = .ok ([1, 101, 201], p) ∧
    p.tick (searching listStep brake) = .ok (9, q) ∧ p.place.held = false ∧
    Item listStep p.accepted 3 8 ∧ Item listStep p.accepted 4 9 := by
  refine ⟨_, _, rfl, rfl, rfl, ⟨[1, 2, 7], [[9, 10]], ?_, rfl⟩, ⟨[1, 2, 7, 8], [[10]], ?_, rfl⟩⟩
  · exact .over _ _ [1, 2] [7, 8] _ (.more _ _ _ _ _ rfl (.more _ _ _ _ _ rfl (.over _ rfl)))
      (.partway _ _ _ _ (.more _ _ _ _ _ rfl (.more _ _ _ _ _ rfl (.start _))))
  · exact .over _ _ [1, 2] [7, 8, 9] _ (.more _ _ _ _ _ rfl (.more _ _ _ _ _ rfl (.over _ rfl)))
      (.partway _ _ _ _ (.more _ _ _ _ _ rfl (.more _ _ _ _ _ rfl (.more _ _ _ _ _ rfl (.start _)))))

end Verif.Props
