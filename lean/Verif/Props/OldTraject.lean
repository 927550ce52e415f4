import Verif.Proof.OldTraject
/-!
# C95: the targets handed to the robot by the former tracking manager, under the interrupts
-/
namespace Verif.Props
open Verif Verif.Old.Traject Verif.Spec.Traject Verif.Proof.OldT

variable {S T M : Type} {step : S → Option (T × S)} {s : S} {answers : List (Answer S)} {es : List Event} {xs : List T}
  {p p' : Proc (Tracking S T) S} {x : T}

/-- **C95, targets.** Whatever the interleaving of the interrupts with the main loop, the targets handed to the robot are those of the
trajectories put in the queue so far, all of them, in order, each once, up to repetitions of the last target. -/
theorem C95_targets (h : (Tracking.start s answers).run (tracking step) es = .ok (xs, p)) :
    ∃ fresh, Gives step p.accepted fresh p.manager.queue ∧ Stutter xs fresh := (track_inv h).2.2

/-- **C95, progress.** A tick that finds the lock free hands out a new target, unless every trajectory put in the queue is over; a tick that
finds it held repeats the last target. -/
theorem C95_progress (h : (Tracking.start s answers).run (tracking step) es = .ok (xs, p)) (ht : p.tick (tracking step) = .ok (x, p')) :
    ∃ fresh, Gives step p.accepted fresh p.manager.queue ∧ Stutter xs fresh ∧
      ((p.place.held = false ∧ Gives step p.accepted (fresh ++ [x]) p'.manager.queue) ∨
        (p.place.held = false ∧ Gives step p.accepted fresh [] ∧ xs.getLast? = some x) ∨ (p.place.held = true ∧ xs.getLast? = some x)) := by
  obtain ⟨h1, h2, fresh, h3, h4⟩ := track_inv h
  have ha : p'.accepted = p.accepted := by obtain ⟨m, -, rfl⟩ := tick_split ht; rfl
  refine ⟨fresh, h3, h4, ?_⟩
  rcases track_tick h1 h3 ht with ⟨e1, e2, -⟩ | ⟨e1, e2, e3, e4⟩
  · exact .inl ⟨e1, ha ▸ e2⟩
  · cases hh : p.place.held with
    | true => exact .inr (.inr ⟨rfl, e1⟩)
    | false =>
      rcases e3 with ⟨e3, -⟩ | e3
      · rw [hh] at e3; cases e3
      · rw [e3, ha] at e4; exact .inr (.inl ⟨rfl, e4, e1⟩)

/-- **C95, panics.** A tick panics exactly if it is the first one and either finds the lock held or no trajectory has any target. -/
theorem C95_panic (h : (Tracking.start s answers).run (tracking step) es = .ok (xs, p)) :
    (∃ a, p.tick (tracking step) = .error a) ↔ xs = [] ∧ (p.place.held = true ∨ Gives step p.accepted [] []) := by
  obtain ⟨h1, h2, fresh, h3, h4⟩ := track_inv h
  have hx : p.manager.last = none ↔ xs = [] := by rw [h1]; exact List.getLast?_eq_none_iff
  have hfresh : xs = [] → fresh = [] := by
    rintro rfl
    generalize hr : ([] : List T) = l at h4
    cases h4 with
    | nil => rfl
    | new l f x _ => exact absurd hr (by simp)
    | again l f x _ _ => exact absurd hr (by simp)
  constructor
  · rintro ⟨a, ha⟩
    unfold Proc.tick at ha
    change (do let (x, m) ← Tracking.next step p.place.held p.manager; _) = _ at ha
    unfold Tracking.next at ha
    cases hl : p.manager.last with
    | some y =>
      exfalso
      rw [hl] at ha
      revert ha
      simp only
      generalize (if p.place.held = true then (none, p.manager.queue) else Tracking.pop step p.manager.queue) = r
      cases r.1 <;> simp [bind, Except.bind, pure, Except.pure]
    | none =>
      have hx' := hx.mp hl
      refine ⟨hx', ?_⟩
      cases hh : p.place.held with
      | true => exact .inl rfl
      | false =>
        right
        have hf := hfresh hx'
        subst hf
        rcases pop_spec h3 with ⟨y, e3, e4⟩ | ⟨-, -, e4⟩
        · rw [hh] at ha
          simp [e3, bind, Except.bind, pure, Except.pure] at ha
        · exact e4
  · rintro ⟨hx', hg⟩
    have hl := hx.mpr hx'
    have hf := hfresh hx'
    subst hf
    refine ⟨.unreachable, ?_⟩
    change (do let (x, m) ← Tracking.next step p.place.held p.manager; _) = _
    unfold Tracking.next
    rw [hl]
    cases hh : p.place.held with
    | true => simp [bind, Except.bind]
    | false =>
      rcases hg with hg | hg
      · rw [hh] at hg; cases hg
      · rcases pop_spec h3 with ⟨y, e3, e4⟩ | ⟨e3, -, -⟩
        · have := gives_len e4 hg
          simp at this
        · simp [e3, bind, Except.bind]

section operator
variable {A : Manager M S T} {q q' : Proc M S}

/-- **C95, commands.** Over either manager: the main loop never panics, at most three trajectories wait, `set_command` takes every command,
in the order of the commander, and `run` fails only by an error of the commander. -/
theorem C95_commands (L : Laws step A) (h0 : OpInv A s answers q) (h : q.run A es = .ok (xs, q')) :
    (∃ r, q'.main A = .ok r) ∧ (A.queue q'.manager).length ≤ 3 ∧
      ∃ used, answers = used ++ q'.answers ∧ q'.accepted ++ underway q'.place = s :: commands used ∧ (q'.place = .failed → .other ∈ used) := by
  have h1 := opInv_run L h0 h
  obtain ⟨r, h2, -⟩ := opInv_main L h1
  exact ⟨⟨r, h2⟩, by have := h1.room; unfold QUEUE_LENGTH at this; omega, h1.used⟩

end operator

theorem start_opInv : OpInv (tracking step) s answers (Tracking.start s answers) where
  room := by simp [tracking, Tracking.start, QUEUE_LENGTH]
  space h := h.elim
  used := ⟨[], rfl, by simp [Tracking.start, underway, commands], by intro h; cases h⟩

/-- **C95, commands** for the tracking manager. -/
theorem C95_commands_tracking (h : (Tracking.start s answers).run (tracking step) es = .ok (xs, p)) :
    (∃ r, p.main (tracking step) = .ok r) ∧ p.manager.queue.length ≤ 3 ∧
      ∃ used, answers = used ++ p.answers ∧ p.accepted ++ underway p.place = s :: commands used ∧ (p.place = .failed → .other ∈ used) :=
  C95_commands tracking_laws start_opInv h

/-- **C95, end.** When `run` returns `Ok`, every target of every trajectory that the commander asked for has been handed to the robot. -/
theorem C95_done (h : (Tracking.start s answers).run (tracking step) es = .ok (xs, p)) (hd : p.place = .done) :
    ∃ used ts, answers = used ++ p.answers ∧ Gives step (s :: commands used) ts [] ∧ Stutter xs ts := by
  obtain ⟨-, h2, fresh, h3, h4⟩ := track_inv h
  obtain ⟨-, -, used, h5, h6, -⟩ := C95_commands_tracking h
  refine ⟨used, fresh, h5, ?_, h4⟩
  simp only [hd, underway, List.append_nil] at h6
  rw [← h6, ← h2 hd]
  exact h3

/-- **C95, no panic.** If the first trajectory has a target and the first interrupt finds the lock free, nothing ever panics. -/
theorem C95_no_panic {σ : Nat → Event} (hs : step s ≠ none) (hσ : FirstFree (tracking step) σ (Tracking.start s answers)) (n : Nat) :
    ∃ r, after (tracking step) σ (Tracking.start s answers) n = .ok r := by
  induction n with
  | zero => exact ⟨_, rfl⟩
  | succ n ih =>
    obtain ⟨⟨xs, q⟩, hr⟩ := ih
    rw [after_succ, hr]
    simp only [bind, Except.bind, pure, Except.pure]
    cases he : σ n with
    | main =>
      obtain ⟨⟨q', h⟩, -⟩ := C95_commands_tracking hr
      simp [Proc.event, bind, Except.bind, h, pure, Except.pure]
    | tick =>
      cases ht : q.tick (tracking step) with
      | ok r => simp [Proc.event, bind, Except.bind, ht, pure, Except.pure]
      | error a =>
        exfalso
        obtain ⟨h1, h2⟩ := (C95_panic hr).mp ⟨a, ht⟩
        subst h1
        have hf := hσ n q hr he
        rcases h2 with h2 | h2
        · rw [hf] at h2; cases h2
        · obtain ⟨-, -, used, -, h6, -⟩ := C95_commands_tracking hr
          obtain ⟨rest, ha⟩ : ∃ rest, q.accepted = s :: rest := by
            cases hq : q.accepted with
            | nil =>
              exfalso
              exact accepted_ne hr hq
            | cons a r => rw [hq, List.cons_append] at h6; exact ⟨r, by rw [(List.cons.inj h6).1]⟩
          rw [ha] at h2
          generalize hl : ([] : List T) = l at h2
          cases h2 with
          | over _ _ l ts _ ho hg =>
            have : l = [] := (List.append_eq_nil_iff.mp hl.symm).1
            subst this
            cases ho with
            | over _ h => exact hs h

/-- **C95, termination.** If all trajectories end, the commander gives commands and then finishes, the first interrupt finds the lock free,
and again and again the main loop goes on and an interrupt finds the lock free, then `run` returns `Ok`, after all targets of all
trajectories have been handed to the robot. -/
theorem C95_completes {σ : Nat → Event} (hs : step s ≠ none) (hfs : Finite step s) (hfin : ∀ t ∈ commands answers, Finite step t)
    (hplain : ∀ a ∈ answers, (∃ t, a = .command t) ∨ a = .waiting) (hσ : FirstFree (tracking step) σ (Tracking.start s answers))
    (hm : ∀ n, ∃ m, n ≤ m ∧ σ m = .main)
    (ht : ∀ n, ∃ m, n ≤ m ∧ σ m = .tick ∧ ∀ xs q, after (tracking step) σ (Tracking.start s answers) m = .ok (xs, q) → q.place.held = false) :
    ∃ n xs q ts, after (tracking step) σ (Tracking.start s answers) n = .ok (xs, q) ∧ q.place = .done ∧
      Gives step (s :: commands answers) ts [] ∧ Stutter xs ts := by
  obtain ⟨f, hf, h0, hrun⟩ := path_of (C95_no_panic hs hσ)
  have hl : Live step (tracking step) (f 0) := by
    rw [h0]
    refine ⟨fun t ht => ?_, fun t ht => ?_, fun a ha => ?_, by simp [Tracking.start], by simp [Tracking.start], fun h => h.elim, by simp [tracking, Tracking.start, QUEUE_LENGTH]⟩
    · rw [List.mem_singleton.mp ht]; exact hfs
    · exact hfin t (by simpa [Tracking.start, underway] using ht)
    · rcases hplain a ha with ⟨t, rfl⟩ | rfl <;> trivial
  obtain ⟨n, -, hd⟩ := path_done tracking_laws hf hl hm (fun n => by
    obtain ⟨m, h1, h2, h3⟩ := ht n
    obtain ⟨xs, hx⟩ := hrun m
    exact ⟨m, h1, h2, h3 _ _ hx⟩) (todo (f 0)) _ 0 (Nat.le_refl _) (fun _ => Nat.le_refl _)
  obtain ⟨xs, hx⟩ := hrun n
  obtain ⟨used, ts, h1, h2, h3⟩ := C95_done hx hd
  have ha : (f n).answers = [] := (path_live tracking_laws hf hl n).over (.inr hd)
  rw [ha, List.append_nil] at h1
  exact ⟨n, xs, f n, ts, hx, hd, h1 ▸ h2, h3⟩

/-! ### Cases -/

/-- A trajectory given by the list of its targets. -/
def listStep : List Nat → Option (Nat × List Nat)
  | [] => none
  | x :: l => some (x, l)

/-- The interrupt and the main loop alternate. -/
def alternate (n : Nat) : Event := if n % 2 = 0 then .tick else .main

/-- The operator of the cases: a first command, and two further ones with a wait between. -/
def threeCommands : Proc (Tracking (List Nat) Nat) (List Nat) := Tracking.start [1, 2] [.command [3], .waiting, .command [4, 5]]

/-- The hypotheses of `C95_targets`, `C95_done` and `C95_commands_tracking` are met by a run that hands out the targets of three commands, with
repetitions. -/
example : ∃ p, threeCommands.run (tracking listStep) ((List.range 46).map alternate) =
    .ok ([1, 1, 2, 2, 2, 2, 3, 3, 3, 3, 3, 3, 3, 3, 3, 4, 4, 5, 5, 5, 5, 5, 5], p) ∧ p.place = .done := ⟨_, rfl, rfl⟩

/-- The hypotheses of `C95_progress` are met at the start, and while the lock is held. -/
example : ∃ p q r, threeCommands.run (tracking listStep) [.tick, .main] = .ok ([1], p) ∧ p.tick (tracking listStep) = .ok (1, q) ∧
    q.run (tracking listStep) [.main] = .ok ([], r) ∧ (∃ q', r.tick (tracking listStep) = .ok (2, q')) :=
  ⟨_, _, _, rfl, rfl, rfl, _, rfl⟩

/-- A first interrupt that comes during `is_full`, or while the second trajectory is generated, panics although there are targets. -/
example : (∃ a, threeCommands.run (tracking listStep) [.main, .tick] = .error a) ∧
    ∃ a, threeCommands.run (tracking listStep) [.main, .main, .main, .main, .main, .tick] = .error a := ⟨⟨_, rfl⟩, _, rfl⟩

/-- Once `run` has returned `Ok`, the operator stays there. -/
theorem done_stays {A : Manager M S T} {σ : Nat → Event} {q0 q q' : Proc M S} {n d : Nat} {xs ys : List T}
    (h : after A σ q0 n = .ok (xs, q)) (hd : q.place = .done) (h' : after A σ q0 (n + d) = .ok (ys, q')) : q'.place = .done := by
  induction d generalizing ys q' with
  | zero => rw [Nat.add_zero, h] at h'; cases h'; exact hd
  | succ d ih =>
    rw [show n + (d + 1) = n + d + 1 from rfl, after_succ] at h'
    cases h1 : after A σ q0 (n + d) with
    | error a => rw [h1] at h'; cases h'
    | ok r =>
      obtain ⟨zs, r⟩ := r
      rw [h1] at h'
      have hr := ih h1
      simp only [bind, Except.bind, pure, Except.pure] at h'
      cases he : σ (n + d) with
      | tick =>
        rw [he, Proc.event] at h'
        cases h2 : r.tick A with
        | error a => rw [h2] at h'; cases h'
        | ok r2 =>
          obtain ⟨x, r2⟩ := r2
          rw [h2] at h'
          obtain ⟨m, -, rfl⟩ := tick_split h2
          cases h'
          exact hr
      | main =>
        rw [he, Proc.event] at h'
        obtain ⟨m, place, rest, acc⟩ := r
        subst hr
        cases h'
        rfl

/-- The hypotheses of `C95_no_panic` and `C95_completes` are met by the alternation. -/
example : FirstFree (tracking listStep) alternate threeCommands ∧ (∀ n, ∃ m, n ≤ m ∧ alternate m = .main) ∧
    (∀ n, ∃ m, n ≤ m ∧ alternate m = .tick ∧
      ∀ xs q, after (tracking listStep) alternate threeCommands m = .ok (xs, q) → q.place.held = false) ∧
    listStep [1, 2] ≠ none ∧ (∀ t ∈ [[1, 2], [3], [4, 5]], Finite listStep t) := by
  refine ⟨fun n q h ht => ?_, fun n => ⟨2 * n + 1, by omega, ?_⟩, fun n => ⟨2 * n + 46, by omega, ?_, fun xs q h => ?_⟩, by simp [listStep], ?_⟩
  · match n with
    | 0 => cases h; rfl
    | 1 => cases ht
    | n + 2 =>
      exfalso
      obtain ⟨ys, h'⟩ : ∃ ys, ((List.range (n + 2)).map alternate) = .tick :: ys := ⟨_, by rw [List.range_succ_eq_map, List.map_cons]; rfl⟩
      unfold after at h
      rw [h'] at h
      simp only [Proc.run, bind, Except.bind, pure, Except.pure] at h
      obtain ⟨r, hr⟩ : ∃ r, Proc.event (tracking listStep) threeCommands .tick = .ok ([1], r) := ⟨_, rfl⟩
      rw [hr] at h
      simp only at h
      split at h
      · cases h
      · injection h with h
        injection h with h1 h2
        cases h1
  · simp [alternate]
  · simp [alternate]
  · obtain ⟨p, hp, hd⟩ : ∃ p, threeCommands.run (tracking listStep) ((List.range 46).map alternate) =
        .ok ([1, 1, 2, 2, 2, 2, 3, 3, 3, 3, 3, 3, 3, 3, 3, 4, 4, 5, 5, 5, 5, 5, 5], p) ∧ p.place = .done := ⟨_, rfl, rfl⟩
    rw [Nat.add_comm] at h
    rw [done_stays (n := 46) hp hd h]
    rfl
  · have hf : ∀ l : List Nat, Finite listStep l := by
      intro l
      induction l with
      | nil => exact ⟨[], .over _ rfl⟩
      | cons x l ih => obtain ⟨ts, h⟩ := ih; exact ⟨x :: ts, .more _ _ _ _ _ rfl h⟩
    exact fun t _ => hf t

end Verif.Props
