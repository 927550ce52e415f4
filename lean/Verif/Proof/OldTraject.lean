import Verif.Spec.OldTraject
import Mathlib.Data.List.Induction
import Mathlib.Tactic.Choose
/-!
# Proofs on the trajectory managers of the former core crate
-/
namespace Verif.Proof.OldT
open Verif Verif.Old.Traject Verif.Spec.Traject

variable {S T M : Type} {step : S → Option (T × S)}

/-! ### Trajectories -/

theorem outputs_snoc {s : S} {l : List T} {s' s'' : S} {x : T} (h : Outputs step s l (some s')) (hx : step s' = some (x, s'')) :
    Outputs step s (l ++ [x]) (some s'') := by
  generalize hr : some s' = r at h
  induction h with
  | start s => cases hr; exact .more _ _ _ _ _ hx (.start _)
  | over s h => cases hr
  | more s y s1 l r h1 h2 ih => exact .more _ _ _ _ _ h1 (ih hr)

theorem outputs_end {s : S} {l : List T} {s' : S} (h : Outputs step s l (some s')) (hx : step s' = none) : Outputs step s l none := by
  generalize hr : some s' = r at h
  induction h with
  | start s => cases hr; exact .over _ hx
  | over s h => cases hr
  | more s y s1 l r h1 h2 ih => exact .more _ _ _ _ _ h1 (ih hr)

/-- What a trajectory gives until it is over is unique. -/
theorem outputs_unique {s : S} {l l' : List T} (h : Outputs step s l none) (h' : Outputs step s l' none) : l = l' := by
  generalize hr : none = r at h
  induction h generalizing l' with
  | start s => cases hr
  | over s hs =>
    cases h' with
    | over _ _ => rfl
    | more _ y s1 l r h1 h2 => rw [hs] at h1; cases h1
  | more s y s1 l r h1 h2 ih =>
    cases h' with
    | over _ h => rw [h] at h1; cases h1
    | more _ y' s1' l' r' h1' h2' =>
      rw [h1] at h1'
      cases h1'
      rw [ih h2' hr]

theorem finite_step {s : S} {x : T} {s' : S} (h : Finite step s) (hx : step s = some (x, s')) : Finite step s' := by
  obtain ⟨l, hl⟩ := h
  cases hl with
  | over _ h => rw [h] at hx; cases hx
  | more _ y s1 l r h1 h2 => rw [h1] at hx; cases hx; exact ⟨_, h2⟩

/-- The number of targets left. -/
noncomputable def need (step : S → Option (T × S)) (s : S) : Nat :=
  open Classical in if h : Finite step s then h.choose.length else 0

theorem need_eq {s : S} {l : List T} (h : Outputs step s l none) : need step s = l.length := by
  have hf : Finite step s := ⟨l, h⟩
  rw [need, dif_pos hf, outputs_unique hf.choose_spec h]

theorem need_step {s : S} {x : T} {s' : S} (h : Finite step s) (hx : step s = some (x, s')) : need step s = need step s' + 1 := by
  obtain ⟨l, hl⟩ := finite_step h hx
  rw [need_eq hl, need_eq (.more _ _ _ _ _ hx hl), List.length_cons]

/-- The targets left in the queue, and the removals. -/
noncomputable def weight (step : S → Option (T × S)) (q : List S) : Nat := (q.map fun s => need step s + 1).sum

theorem weight_nil : weight step ([] : List S) = 0 := rfl

theorem weight_cons (s : S) (q : List S) : weight step (s :: q) = need step s + 1 + weight step q := by simp [weight]

/-! ### Queues -/

theorem gives_push {ss : List S} {ts : List T} {left : List S} (h : Gives step ss ts left) (s : S) : Gives step (ss ++ [s]) ts (left ++ [s]) := by
  induction h with
  | nil => exact .partway _ _ _ _ (.start s)
  | partway s ss l s' h => exact .partway _ _ _ _ h
  | over s ss l ts left h h' ih => exact .over _ _ _ _ _ h ih

theorem gives_start (s : S) : Gives step [s] [] [s] := .partway _ _ _ _ (.start s)

/-- The front trajectory gives a target. -/
theorem gives_more {ss : List S} {ts : List T} {s s' : S} {q : List S} {x : T} (h : Gives step ss ts (s :: q)) (hx : step s = some (x, s')) :
    Gives step ss (ts ++ [x]) (s' :: q) := by
  generalize hr : s :: q = left at h
  induction h with
  | nil => cases hr
  | partway s0 ss l s1 h => cases hr; exact .partway _ _ _ _ (outputs_snoc h hx)
  | over s0 ss l ts left h h' ih => rw [List.append_assoc]; exact .over _ _ _ _ _ h (ih hr)

/-- Before a trajectory has given anything. -/
theorem gives_fresh (ss : List S) : Gives step ss [] ss := by
  cases ss with
  | nil => exact .nil
  | cons s ss => exact .partway _ _ _ _ (.start s)

/-- The front trajectory is over. -/
theorem gives_drop {ss : List S} {ts : List T} {s : S} {q : List S} (h : Gives step ss ts (s :: q)) (hx : step s = none) :
    Gives step ss ts q := by
  generalize hr : s :: q = left at h
  induction h with
  | nil => cases hr
  | partway s0 ss l s1 h =>
    cases hr
    have := Gives.over _ _ _ _ _ (outputs_end h hx) (gives_fresh q)
    rwa [List.append_nil] at this
  | over s0 ss l ts left h h' ih => exact .over _ _ _ _ _ h (ih hr)

theorem pop_spec {ss : List S} {ts : List T} {q : List S} (h : Gives step ss ts q) :
    (∃ x, (Tracking.pop step q).1 = some x ∧ Gives step ss (ts ++ [x]) (Tracking.pop step q).2) ∨
      ((Tracking.pop step q).1 = none ∧ (Tracking.pop step q).2 = [] ∧ Gives step ss ts []) := by
  induction q with
  | nil => exact .inr ⟨rfl, rfl, h⟩
  | cons s q ih =>
    rw [Tracking.pop]
    cases hs : step s with
    | some r => obtain ⟨x, s'⟩ := r; exact .inl ⟨x, rfl, gives_more h hs⟩
    | none => exact ih (gives_drop h hs)

/-- The targets a queue has given are unique, once all is given. -/
theorem gives_unique {ss : List S} {ts ts' : List T} (h : Gives step ss ts []) (h' : Gives step ss ts' []) : ts = ts' := by
  generalize hr : ([] : List S) = left at h
  induction h generalizing ts' with
  | nil => cases h'; rfl
  | partway s0 ss l s1 h => cases hr
  | over s0 ss l ts left h hg ih =>
    cases h' with
    | over _ _ l' ts' _ h2 hg' => rw [outputs_unique h h2, ih hg' hr]

/-- What is given on the way is a beginning of what is given in the end. -/
theorem outputs_prefix {s s' : S} {l l' : List T} (h : Outputs step s l (some s')) (h' : Outputs step s l' none) : l <+: l' := by
  generalize hr : some s' = r at h
  induction h generalizing l' with
  | start s => exact List.nil_prefix
  | over s h => cases hr
  | more s y s1 l r h1 h2 ih =>
    cases h' with
    | over _ h => rw [h] at h1; cases h1
    | more _ y' s1' l' r' h1' h2' =>
      rw [h1] at h1'
      cases h1'
      exact (List.prefix_cons_inj y).mpr (ih h2' hr)

/-- No more is given than in the end. -/
theorem gives_len {ss : List S} {ts ts' : List T} {left : List S} (h : Gives step ss ts left) (h' : Gives step ss ts' []) :
    ts.length ≤ ts'.length := by
  induction h generalizing ts' with
  | nil => exact Nat.zero_le _
  | partway s ss l s' h =>
    cases h' with
    | over _ _ l' ts' _ h2 hg' =>
      rw [List.length_append]
      have := (outputs_prefix h h2).length_le
      omega
  | over s ss l ts left h hg ih =>
    cases h' with
    | over _ _ l' ts' _ h2 hg' =>
      rw [List.length_append, List.length_append, outputs_unique h h2]
      have := ih hg'
      omega

/-! ### Any manager -/

/-- What the operator needs of a manager. -/
structure Laws (step : S → Option (T × S)) (A : Manager M S T) : Prop where
  push : ∀ m s, A.queue (A.push m s) = A.queue m ++ [s]
  held : ∀ m x m', A.next true m = .ok (x, m') → A.queue m' = A.queue m
  len : ∀ m x m', A.next false m = .ok (x, m') → (A.queue m').length ≤ (A.queue m).length
  finite : ∀ m x m', A.next false m = .ok (x, m') → (∀ s ∈ A.queue m, Finite step s) →
    (∀ s ∈ A.queue m', Finite step s) ∧ (A.queue m ≠ [] → weight step (A.queue m') < weight step (A.queue m))

theorem pop_len (q : List S) : (Tracking.pop step q).2.length ≤ q.length := by
  induction q with
  | nil => exact Nat.le_refl _
  | cons s q ih =>
    rw [Tracking.pop]
    cases step s with
    | some r => exact Nat.le_refl _
    | none => exact Nat.le_trans ih (Nat.le_succ _)

theorem pop_finite (q : List S) (h : ∀ s ∈ q, Finite step s) : (∀ s ∈ (Tracking.pop step q).2, Finite step s) ∧
    (q ≠ [] → weight step (Tracking.pop step q).2 < weight step q) := by
  induction q with
  | nil => exact ⟨h, fun hq => absurd rfl hq⟩
  | cons s q ih =>
    rw [Tracking.pop]
    have hs := h s List.mem_cons_self
    obtain ⟨i1, i2⟩ := ih fun t ht => h t (List.mem_cons_of_mem _ ht)
    cases hx : step s with
    | some r =>
      obtain ⟨x, s'⟩ := r
      refine ⟨fun t ht => ?_, fun _ => ?_⟩
      · rcases List.mem_cons.mp ht with rfl | ht
        · exact finite_step hs hx
        · exact h t (List.mem_cons_of_mem _ ht)
      · rw [weight_cons, weight_cons, need_step hs hx]; omega
    | none =>
      refine ⟨i1, fun _ => ?_⟩
      rw [weight_cons]
      by_cases hq : q = []
      · subst hq
        simp only [Tracking.pop, weight_nil]; omega
      · have := i2 hq; simp only; omega

theorem next_cases {held : Bool} {m m' : Tracking S T} {x : T} (h : Tracking.next step held m = .ok (x, m')) :
    (held = false ∧ (Tracking.pop step m.queue).1 = some x ∧ m' = ⟨(Tracking.pop step m.queue).2, some x⟩) ∨
    ((held = true ∨ (Tracking.pop step m.queue).1 = none) ∧ m.last = some x ∧
      m' = ⟨if held then m.queue else (Tracking.pop step m.queue).2, m.last⟩) := by
  unfold Tracking.next at h
  cases held with
  | true =>
    simp only [if_true] at h
    cases hl : m.last with
    | none => rw [hl] at h; cases h
    | some y => rw [hl] at h; cases h; exact .inr ⟨.inl rfl, rfl, rfl⟩
  | false =>
    simp only [Bool.false_eq_true, if_false] at h
    cases hp : (Tracking.pop step m.queue).1 with
    | some y => rw [hp] at h; cases h; exact .inl ⟨rfl, rfl, rfl⟩
    | none =>
      rw [hp] at h
      cases hl : m.last with
      | none => rw [hl] at h; cases h
      | some y => rw [hl] at h; cases h; exact .inr ⟨.inr rfl, rfl, rfl⟩

theorem tracking_laws : Laws step (tracking step : Manager (Tracking S T) S T) where
  push m s := rfl
  held m x m' h := by
    change Tracking.next step true m = _ at h
    rcases next_cases h with ⟨h, -⟩ | ⟨-, -, rfl⟩
    · cases h
    · rfl
  len m x m' h := by
    change Tracking.next step false m = _ at h
    rcases next_cases h with ⟨-, -, rfl⟩ | ⟨-, -, rfl⟩ <;> exact pop_len m.queue
  finite m x m' h hf := by
    change Tracking.next step false m = _ at h
    rcases next_cases h with ⟨-, -, rfl⟩ | ⟨-, -, rfl⟩ <;> exact pop_finite m.queue hf

/-! ### Executions -/

theorem run_snoc (A : Manager M S T) (es : List Event) (e : Event) (p : Proc M S) :
    p.run A (es ++ [e]) = (do
      let (xs, q) ← p.run A es
      let (ys, q) ← q.event A e
      return (xs ++ ys, q)) := by
  induction es generalizing p with
  | nil =>
    simp only [List.nil_append, Proc.run]
    cases h : p.event A e with
    | error a => simp [bind, Except.bind, h]
    | ok r => simp [bind, Except.bind, h, pure, Except.pure]
  | cons e' es ih =>
    simp only [List.cons_append, Proc.run]
    cases h : p.event A e' with
    | error a => rfl
    | ok r =>
      obtain ⟨xs, q⟩ := r
      simp only [bind, Except.bind]
      rw [ih q]
      cases h2 : q.run A es with
      | error a => simp [bind, Except.bind]
      | ok r2 =>
        obtain ⟨ys, q2⟩ := r2
        simp only [bind, Except.bind, pure, Except.pure]
        cases h3 : q2.event A e with
        | error a => rfl
        | ok r3 => simp

/-- Induction over executions. -/
theorem run_induct {A : Manager M S T} {p : Proc M S} (P : List T → Proc M S → Prop) (h0 : P [] p)
    (ht : ∀ xs q x q', P xs q → q.tick A = .ok (x, q') → P (xs ++ [x]) q') (hm : ∀ xs q q', P xs q → q.main A = .ok q' → P xs q')
    {es : List Event} {xs : List T} {q : Proc M S} (h : p.run A es = .ok (xs, q)) : P xs q := by
  induction es using List.reverseRecOn generalizing xs q with
  | nil => cases h; exact h0
  | append_singleton es e ih =>
    rw [run_snoc] at h
    cases h1 : p.run A es with
    | error a => rw [h1] at h; cases h
    | ok r =>
      obtain ⟨ys, q1⟩ := r
      rw [h1] at h
      simp only [bind, Except.bind, pure, Except.pure] at h
      cases e with
      | tick =>
        simp only [Proc.event] at h
        cases h2 : q1.tick A with
        | error a => rw [h2] at h; cases h
        | ok r =>
          obtain ⟨x, q2⟩ := r
          rw [h2] at h
          cases h
          exact ht _ _ _ _ (ih h1) h2
      | main =>
        simp only [Proc.event] at h
        cases h2 : q1.main A with
        | error a => rw [h2] at h; cases h
        | ok q2 =>
          rw [h2] at h
          cases h
          simpa using hm _ _ _ (ih h1) h2

theorem tick_split {A : Manager M S T} {p p' : Proc M S} {x : T} (h : p.tick A = .ok (x, p')) :
    ∃ m, A.next p.place.held p.manager = .ok (x, m) ∧ p' = { p with manager := m } := by
  unfold Proc.tick at h
  cases h1 : A.next p.place.held p.manager with
  | error a => rw [h1] at h; cases h
  | ok r =>
    obtain ⟨y, m⟩ := r
    rw [h1] at h
    cases h
    exact ⟨m, rfl, rfl⟩

/-! ### The commands -/

/-- The places after `is_full` has answered `false`. -/
def Ready : Place S → Prop
  | .ask | .check _ | .enter _ | .make _ => True
  | _ => False

/-- What holds of the operator at any time. -/
structure OpInv (A : Manager M S T) (s : S) (answers : List (Answer S)) (p : Proc M S) : Prop where
  room : (A.queue p.manager).length < QUEUE_LENGTH
  space : Ready p.place → (A.queue p.manager).length + 1 < QUEUE_LENGTH
  used : ∃ used, answers = used ++ p.answers ∧ p.accepted ++ underway p.place = s :: commands used ∧
    (p.place = .failed → .other ∈ used)

theorem commands_snoc (l : List (Answer S)) (a : Answer S) :
    commands (l ++ [a]) = commands l ++ (match a with | .command s => [s] | _ => []) := by
  unfold commands
  rw [List.filterMap_append]
  cases a <;> rfl

theorem next_len {A : Manager M S T} (L : Laws step A) {b : Bool} {m m' : M} {x : T} (h : A.next b m = .ok (x, m')) :
    (A.queue m').length ≤ (A.queue m).length := by
  cases b with
  | true => exact Nat.le_of_eq (by rw [L.held _ _ _ h])
  | false => exact L.len _ _ _ h

theorem opInv_tick {A : Manager M S T} (L : Laws step A) {s : S} {answers : List (Answer S)} {p p' : Proc M S} {x : T}
    (hp : OpInv A s answers p) (h : p.tick A = .ok (x, p')) : OpInv A s answers p' := by
  obtain ⟨m, h1, rfl⟩ := tick_split h
  have := next_len L h1
  exact ⟨Nat.lt_of_le_of_lt this hp.room, fun hr => by have := hp.space hr; simp only at *; omega, hp.used⟩

theorem opInv_main {A : Manager M S T} (L : Laws step A) {s : S} {answers : List (Answer S)} {p : Proc M S}
    (hp : OpInv A s answers p) : ∃ p', p.main A = .ok p' ∧ OpInv A s answers p' := by
  obtain ⟨m, place, rest, acc⟩ := p
  obtain ⟨h1, h2, used, h3, h4, h5⟩ := hp
  simp only at h1 h2 h3 h4 h5
  have full : ((A.queue m).length + 1 == QUEUE_LENGTH) = false → (A.queue m).length + 1 < QUEUE_LENGTH := by
    intro h
    have : (A.queue m).length + 1 ≠ QUEUE_LENGTH := by simpa using h
    omega
  cases place with
  | start => exact ⟨_, rfl, h1, fun h => h.elim, used, h3, by simpa [underway] using h4, by intro h; cases h⟩
  | full =>
    refine ⟨_, rfl, h1, fun h => ?_, used, h3, ?_, ?_⟩
    · cases hf : ((A.queue m).length + 1 == QUEUE_LENGTH) with
      | true => simp only [hf, if_true] at h; exact h.elim
      | false => exact full hf
    · cases hf : ((A.queue m).length + 1 == QUEUE_LENGTH) <;> simpa [underway, hf] using h4
    · cases hf : ((A.queue m).length + 1 == QUEUE_LENGTH) <;> simp [hf]
  | ask =>
    have h2' := h2 trivial
    cases rest with
    | nil => exact ⟨_, rfl, h1, fun h => h.elim, used, h3, by simpa [underway] using h4, by intro h; cases h⟩
    | cons a r =>
      have hu : answers = (used ++ [a]) ++ r := by rw [h3]; simp
      simp only [underway, List.append_nil] at h4
      cases a with
      | command c =>
        exact ⟨_, rfl, h1, fun _ => h2', used ++ [.command c], hu, by simp [underway, commands_snoc, h4], by intro h; cases h⟩
      | finish => exact ⟨_, rfl, h1, fun h => h.elim, used ++ [.finish], hu, by simp [underway, commands_snoc, h4], by intro h; cases h⟩
      | waiting => exact ⟨_, rfl, h1, fun h => h.elim, used ++ [.waiting], hu, by simp [underway, commands_snoc, h4], by intro h; cases h⟩
      | other => exact ⟨_, rfl, h1, fun h => h.elim, used ++ [.other], hu, by simp [underway, commands_snoc, h4], by simp⟩
  | check c =>
    have h2' := h2 trivial
    have hf : ((A.queue m).length + 1 == QUEUE_LENGTH) = false := by simp; omega
    refine ⟨_, rfl, h1, fun _ => h2', used, h3, ?_, ?_⟩
    · simpa [hf, underway] using h4
    · simp [hf]
  | enter c => exact ⟨_, rfl, h1, fun _ => h2 trivial, used, h3, h4, by intro h; cases h⟩
  | make c =>
    have h2' := h2 trivial
    refine ⟨{ manager := A.push m c, place := .start, answers := rest, accepted := acc ++ [c] }, by simp [Proc.main, h2'], ?_, fun h => h.elim, used, h3, ?_, by intro h; cases h⟩
    · simp only [L.push, List.length_append, List.length_singleton]; exact h2'
    · simpa [underway] using h4
  | empty =>
    refine ⟨_, rfl, h1, fun h => ?_, used, h3, ?_, ?_⟩
    · cases hf : (A.queue m).isEmpty <;> simp only [hf] at h <;> exact h.elim
    · cases hf : (A.queue m).isEmpty <;> simpa [underway, hf] using h4
    · cases hf : (A.queue m).isEmpty <;> simp [hf]
  | done => exact ⟨_, rfl, h1, fun h => h.elim, used, h3, h4, h5⟩
  | failed => exact ⟨_, rfl, h1, fun h => h.elim, used, h3, h4, h5⟩

theorem opInv_run {A : Manager M S T} (L : Laws step A) {s : S} {answers : List (Answer S)} {p q : Proc M S} {es : List Event} {xs : List T}
    (hp : OpInv A s answers p) (h : p.run A es = .ok (xs, q)) : OpInv A s answers q := by
  refine run_induct (fun _ q => OpInv A s answers q) hp (fun _ _ _ _ h1 h2 => opInv_tick L h1 h2) (fun _ q q' h1 h2 => ?_) h
  obtain ⟨q1, h3, h4⟩ := opInv_main L h1
  rw [h2] at h3
  cases h3
  exact h4

/-! ### The targets of the tracking manager -/

/-- What has been handed to the robot. -/
def TrackInv (step : S → Option (T × S)) (xs : List T) (p : Proc (Tracking S T) S) : Prop :=
  p.manager.last = xs.getLast? ∧ (p.place = .done → p.manager.queue = []) ∧
    ∃ fresh, Gives step p.accepted fresh p.manager.queue ∧ Stutter xs fresh

theorem main_split {A : Manager M S T} {p p' : Proc M S} (h : p.main A = .ok p') :
    (p'.manager = p.manager ∧ p'.accepted = p.accepted ∧ (p'.place = .done → p.place = .done ∨ A.queue p.manager = [])) ∨
      (∃ s, p'.manager = A.push p.manager s ∧ p'.accepted = p.accepted ++ [s] ∧ p'.place = .start) := by
  obtain ⟨m, place, rest, acc⟩ := p
  unfold Proc.main at h
  cases place with
  | start => cases h; exact .inl ⟨rfl, rfl, by simp⟩
  | full => cases h; refine .inl ⟨rfl, rfl, ?_⟩; simp only; split <;> simp
  | ask =>
    cases rest with
    | nil => cases h; exact .inl ⟨rfl, rfl, by simp⟩
    | cons a r => cases a <;> cases h <;> exact .inl ⟨rfl, rfl, by simp⟩
  | check c => cases h; refine .inl ⟨rfl, rfl, ?_⟩; simp only; split <;> simp
  | enter c => cases h; exact .inl ⟨rfl, rfl, by simp⟩
  | make c =>
    simp only at h
    split at h
    · cases h; exact .inr ⟨c, rfl, rfl, rfl⟩
    · cases h
  | empty =>
    cases h
    refine .inl ⟨rfl, rfl, fun h => .inr ?_⟩
    simp only at h
    split at h
    · rename_i h'; exact List.isEmpty_iff.mp h'
    · cases h
  | done => cases h; exact .inl ⟨rfl, rfl, fun _ => .inl rfl⟩
  | failed => cases h; exact .inl ⟨rfl, rfl, by simp⟩

theorem track_main {xs : List T} {p p' : Proc (Tracking S T) S} (hp : TrackInv step xs p) (h : p.main (tracking step) = .ok p') :
    TrackInv step xs p' := by
  obtain ⟨h1, h2, fresh, h3, h4⟩ := hp
  rcases main_split h with ⟨e1, e2, e3⟩ | ⟨s, e1, e2, e3⟩
  · refine ⟨by rw [e1, h1], fun hd => ?_, fresh, by rw [e1, e2]; exact h3, h4⟩
    rw [e1]
    rcases e3 hd with hd | hd
    · exact h2 hd
    · exact hd
  · refine ⟨by rw [e1]; exact h1, fun hd => ?_, fresh, ?_, h4⟩
    · rw [e3] at hd; cases hd
    · rw [e1, e2]; exact gives_push h3 s

/-- A tick: a new target, or the last one again. -/
theorem track_tick {xs : List T} {p p' : Proc (Tracking S T) S} {x : T} (h1 : p.manager.last = xs.getLast?) {fresh : List T}
    (h3 : Gives step p.accepted fresh p.manager.queue) (h : p.tick (tracking step) = .ok (x, p')) :
    (p.place.held = false ∧ Gives step p'.accepted (fresh ++ [x]) p'.manager.queue ∧ p'.manager.last = some x) ∨
      (xs.getLast? = some x ∧ p'.manager.last = some x ∧ ((p.place.held = true ∧ p'.manager.queue = p.manager.queue) ∨ p'.manager.queue = []) ∧
        Gives step p'.accepted fresh p'.manager.queue) := by
  obtain ⟨m, h5, rfl⟩ := tick_split h
  change Tracking.next step p.place.held p.manager = _ at h5
  rcases next_cases h5 with ⟨e1, e2, rfl⟩ | ⟨e1, e2, rfl⟩
  · refine .inl ⟨e1, ?_, rfl⟩
    rcases pop_spec h3 with ⟨y, e3, e4⟩ | ⟨e3, -⟩
    · rw [e2] at e3; cases e3; exact e4
    · rw [e2] at e3; cases e3
  · refine .inr ⟨h1 ▸ e2, e2, ?_⟩
    cases hh : p.place.held with
    | true => exact ⟨.inl ⟨rfl, rfl⟩, by simpa using h3⟩
    | false =>
      rcases pop_spec h3 with ⟨y, e3, e4⟩ | ⟨-, e3, e4⟩
      · rcases e1 with e1 | e1
        · rw [hh] at e1; cases e1
        · rw [e1] at e3; cases e3
      · simp only [Bool.false_eq_true, if_false]
        exact ⟨.inr e3, by rw [e3]; exact e4⟩

theorem track_inv {s : S} {answers : List (Answer S)} {p : Proc (Tracking S T) S} {es : List Event} {xs : List T}
    (h : (Tracking.start s answers).run (tracking step) es = .ok (xs, p)) : TrackInv step xs p := by
  refine run_induct (TrackInv step) ⟨rfl, (by intro h; cases h), [], gives_start s, .nil⟩ (fun xs q x q' h1 h2 => ?_)
    (fun xs q q' h1 h2 => track_main h1 h2) h
  obtain ⟨h1, hd, fresh, h3, h4⟩ := h1
  have hpl : q'.place = q.place := by obtain ⟨m, -, rfl⟩ := tick_split h2; rfl
  have hemp : q.manager.queue = [] → q'.manager.queue = [] := by
    intro hq
    obtain ⟨m, e, rfl⟩ := tick_split h2
    have := next_len (tracking_laws (step := step)) e
    change m.queue.length ≤ q.manager.queue.length at this
    rw [hq] at this
    exact List.length_eq_zero_iff.mp (Nat.le_zero.mp this)
  rcases track_tick h1 h3 h2 with ⟨e1, e2, e3⟩ | ⟨e1, e2, -, e3⟩
  · exact ⟨by rw [e3]; simp, fun hdd => hemp (hd (hpl ▸ hdd)), _, e2, .new _ _ _ h4⟩
  · exact ⟨by rw [e2]; simp, fun hdd => hemp (hd (hpl ▸ hdd)), fresh, e3, .again _ _ _ h4 e1⟩

theorem accepted_ne {s : S} {answers : List (Answer S)} {p : Proc (Tracking S T) S} {es : List Event} {xs : List T}
    (h : (Tracking.start s answers).run (tracking step) es = .ok (xs, p)) : p.accepted ≠ [] := by
  refine run_induct (fun _ q => q.accepted ≠ []) (by simp [Tracking.start]) (fun xs q x q' h1 h2 => ?_) (fun xs q q' h1 h2 => ?_) h
  · obtain ⟨m, -, rfl⟩ := tick_split h2
    exact h1
  · rcases main_split h2 with ⟨-, e, -⟩ | ⟨s, -, e, -⟩
    · rw [e]; exact h1
    · rw [e]; simp

/-! ### The end of the drive -/

/-- An answer that is a command or `Waiting`. -/
def Plain : Answer S → Prop
  | .command _ | .waiting => True
  | _ => False

/-- What holds of an operator whose commander only gives commands, and finishes. -/
structure Live (step : S → Option (T × S)) (A : Manager M S T) (p : Proc M S) : Prop where
  queue : ∀ s ∈ A.queue p.manager, Finite step s
  next : ∀ s ∈ commands p.answers ++ underway p.place, Finite step s
  plain : ∀ a ∈ p.answers, Plain a
  failed : p.place ≠ .failed
  over : p.place = .empty ∨ p.place = .done → p.answers = []
  space : Ready p.place → (A.queue p.manager).length + 1 < QUEUE_LENGTH
  room : (A.queue p.manager).length < QUEUE_LENGTH

/-- What the commander still has to do. -/
def todo (p : Proc M S) : Nat := 2 * p.answers.length + (underway p.place).length

/-- How far the main loop is from the end, with an empty queue. -/
def rank : Place S → Nat
  | .start => 4
  | .full => 3
  | .ask => 2
  | .check _ => 3
  | .enter _ => 2
  | .make _ => 1
  | .empty => 1
  | .done => 0
  | .failed => 0

theorem live_main {A : Manager M S T} (L : Laws step A) {p : Proc M S} (hp : Live step A p) : ∃ p', p.main A = .ok p' ∧ Live step A p' ∧
    (todo p' < todo p ∨ (todo p' = todo p ∧ A.queue p'.manager = A.queue p.manager ∧
      (A.queue p.manager = [] → p'.place = .done ∨ rank p'.place < rank p.place))) := by
  obtain ⟨m, place, rest, acc⟩ := p
  obtain ⟨h1, h2, h3, h4, h5, h6, h7⟩ := hp
  simp only at h1 h2 h3 h4 h5 h6 h7
  have full : ((A.queue m).length + 1 == QUEUE_LENGTH) = false → (A.queue m).length + 1 < QUEUE_LENGTH := by
    intro h
    have : (A.queue m).length + 1 ≠ QUEUE_LENGTH := by simpa using h
    omega
  cases place with
  | start =>
    exact ⟨_, rfl, ⟨h1, h2, h3, by simp, by simp, fun h => h.elim, h7⟩, .inr ⟨rfl, rfl, fun _ => .inr (by simp [rank])⟩⟩
  | full =>
    cases hf : ((A.queue m).length + 1 == QUEUE_LENGTH) with
    | true =>
      refine ⟨⟨m, .start, rest, acc⟩, by simp [Proc.main, hf], ⟨h1, h2, h3, by simp, by simp, fun h => h.elim, h7⟩, .inr ⟨rfl, rfl, fun hq => ?_⟩⟩
      rw [hq] at hf
      simp [QUEUE_LENGTH] at hf
    | false =>
      exact ⟨⟨m, .ask, rest, acc⟩, by simp [Proc.main, hf], ⟨h1, h2, h3, by simp, by simp, fun _ => full hf, h7⟩,
        .inr ⟨rfl, rfl, fun _ => .inr (by simp [rank])⟩⟩
  | ask =>
    have h6' := h6 trivial
    cases rest with
    | nil =>
      exact ⟨_, rfl, ⟨h1, h2, h3, by simp, by simp, fun h => h.elim, h7⟩, .inr ⟨rfl, rfl, fun _ => .inr (by simp [rank])⟩⟩
    | cons a r =>
      have h3' : ∀ a ∈ r, Plain a := fun b hb => h3 b (List.mem_cons_of_mem _ hb)
      cases a with
      | command c =>
        refine ⟨_, rfl, ⟨h1, fun s hs => h2 s ?_, h3', by simp, by simp, fun _ => h6', h7⟩, .inl ?_⟩
        · simp only [commands, underway, List.filterMap_cons, List.mem_append, List.mem_cons, List.append_nil, List.not_mem_nil, or_false] at hs ⊢
          exact hs.symm
        · simp [todo, underway]; omega
      | waiting =>
        exact ⟨_, rfl, ⟨h1, fun s hs => h2 s (by simpa [commands, underway] using hs), h3', by simp, by simp, fun h => h.elim, h7⟩,
          .inl (by simp [todo, underway])⟩
      | finish => exact (h3 _ List.mem_cons_self).elim
      | other => exact (h3 _ List.mem_cons_self).elim
  | check c =>
    have h6' := h6 trivial
    have hf : ((A.queue m).length + 1 == QUEUE_LENGTH) = false := by simp; omega
    exact ⟨⟨m, .enter c, rest, acc⟩, by simp [Proc.main, hf], ⟨h1, h2, h3, by simp, by simp, fun _ => h6', h7⟩,
      .inr ⟨rfl, rfl, fun _ => .inr (by simp [rank])⟩⟩
  | enter c =>
    exact ⟨_, rfl, ⟨h1, h2, h3, by simp, by simp, fun _ => h6 trivial, h7⟩, .inr ⟨rfl, rfl, fun _ => .inr (by simp [rank])⟩⟩
  | make c =>
    have h6' := h6 trivial
    refine ⟨⟨A.push m c, .start, rest, acc ++ [c]⟩, by simp [Proc.main, h6'], ⟨fun s hs => ?_, fun s hs => h2 s ?_, h3, by simp, by simp, fun h => h.elim, ?_⟩,
      .inl (by simp [todo, underway])⟩
    · simp only [L.push, List.mem_append, List.mem_singleton] at hs
      rcases hs with hs | rfl
      · exact h1 s hs
      · exact h2 s (by simp [underway])
    · simp only [underway, List.append_nil] at hs
      exact List.mem_append_left _ hs
    · simp only [L.push, List.length_append, List.length_singleton]; exact h6'
  | empty =>
    cases hf : (A.queue m).isEmpty with
    | true =>
      exact ⟨⟨m, .done, rest, acc⟩, by simp [Proc.main, hf], ⟨h1, h2, h3, by simp, fun _ => h5 (.inl rfl), fun h => h.elim, h7⟩,
        .inr ⟨rfl, rfl, fun _ => .inl rfl⟩⟩
    | false =>
      refine ⟨⟨m, .start, rest, acc⟩, by simp [Proc.main, hf], ⟨h1, h2, h3, by simp, by simp, fun h => h.elim, h7⟩, .inr ⟨rfl, rfl, fun hq => ?_⟩⟩
      rw [hq] at hf
      cases hf
  | done => exact ⟨_, rfl, ⟨h1, h2, h3, by simp, h5, fun h => h.elim, h7⟩, .inr ⟨rfl, rfl, fun _ => .inl rfl⟩⟩
  | failed => exact absurd rfl h4

theorem live_tick {A : Manager M S T} (L : Laws step A) {p p' : Proc M S} {x : T} (hp : Live step A p) (h : p.tick A = .ok (x, p')) :
    Live step A p' ∧ p'.place = p.place ∧ p'.answers = p.answers ∧ (A.queue p.manager = [] → A.queue p'.manager = []) ∧
      (p.place.held = true → A.queue p'.manager = A.queue p.manager) ∧
      (p.place.held = false → A.queue p.manager ≠ [] → weight step (A.queue p'.manager) < weight step (A.queue p.manager)) := by
  obtain ⟨m, h1, rfl⟩ := tick_split h
  have hlen := next_len L h1
  have hfin : (∀ s ∈ A.queue m, Finite step s) ∧ (p.place.held = false → A.queue p.manager ≠ [] → weight step (A.queue m) < weight step (A.queue p.manager)) := by
    cases hh : p.place.held with
    | true => rw [hh] at h1; rw [L.held _ _ _ h1]; exact ⟨hp.queue, by simp⟩
    | false =>
      rw [hh] at h1
      obtain ⟨a, b⟩ := L.finite _ _ _ h1 hp.queue
      exact ⟨a, fun _ => b⟩
  refine ⟨⟨hfin.1, hp.next, hp.plain, hp.failed, hp.over, fun hr => ?_, Nat.lt_of_le_of_lt hlen hp.room⟩, rfl, rfl, fun hq => ?_, fun hh => ?_, hfin.2⟩
  · have := hp.space hr
    simp only; omega
  · rw [hq] at hlen
    exact List.length_eq_zero_iff.mp (Nat.le_zero.mp hlen)
  · rw [hh] at h1
    exact L.held _ _ _ h1

section schedule
variable {A : Manager M S T} {σ : Nat → Event} {p : Proc M S}

theorem after_succ (n : Nat) : after A σ p (n + 1) = (do
      let (xs, q) ← after A σ p n
      let (ys, q) ← q.event A (σ n)
      return (xs ++ ys, q)) := by
  unfold after
  rw [List.range_succ, List.map_append, List.map_singleton, run_snoc]

/-- The process at a time of a schedule without panics. -/
structure Path (A : Manager M S T) (σ : Nat → Event) (f : Nat → Proc M S) : Prop where
  tick : ∀ n, σ n = .tick → ∃ x, (f n).tick A = .ok (x, f (n + 1))
  main : ∀ n, σ n = .main → (f n).main A = .ok (f (n + 1))

theorem path_of (h : ∀ n, ∃ r, after A σ p n = .ok r) : ∃ f, Path A σ f ∧ f 0 = p ∧ ∀ n, ∃ xs, after A σ p n = .ok (xs, f n) := by
  choose g hg using h
  refine ⟨fun n => (g n).2, ⟨fun n hn => ?_, fun n hn => ?_⟩, ?_, fun n => ⟨_, hg n⟩⟩
  · have h1 := hg (n + 1)
    rw [after_succ, hg n, hn] at h1
    simp only [bind, Except.bind, pure, Except.pure, Proc.event] at h1
    cases h2 : (g n).2.tick A with
    | error a => rw [h2] at h1; cases h1
    | ok r =>
      obtain ⟨x, q⟩ := r
      rw [h2] at h1
      refine ⟨x, ?_⟩
      rw [← Except.ok.inj h1]
  · have h1 := hg (n + 1)
    rw [after_succ, hg n, hn] at h1
    simp only [bind, Except.bind, pure, Except.pure, Proc.event] at h1
    cases h2 : (g n).2.main A with
    | error a => rw [h2] at h1; cases h1
    | ok q =>
      rw [h2] at h1
      rw [← Except.ok.inj h1]
  · have h1 := hg 0
    cases h1' : g 0 with
    | mk a b => rw [h1'] at h1; cases h1; simp [h1']

variable {f : Nat → Proc M S}

theorem path_live (L : Laws step A) (hf : Path A σ f) (h0 : Live step A (f 0)) (n : Nat) : Live step A (f n) := by
  induction n with
  | zero => exact h0
  | succ n ih =>
    cases he : σ n with
    | tick => obtain ⟨x, hx⟩ := hf.tick n he; exact (live_tick L ih hx).1
    | main =>
      obtain ⟨q, h1, h2, -⟩ := live_main L ih
      rw [hf.main n he] at h1
      cases h1
      exact h2

/-- With targets left, there is progress. -/
theorem path_busy (L : Laws step A) (hf : Path A σ f) (h0 : Live step A (f 0)) (d n : Nat) (hq : A.queue (f n).manager ≠ [])
    (hd : σ (n + d) = .tick ∧ (f (n + d)).place.held = false) :
    ∃ m, n ≤ m ∧ (todo (f m) < todo (f n) ∨ (todo (f m) = todo (f n) ∧ weight step (A.queue (f m).manager) < weight step (A.queue (f n).manager))) := by
  induction d generalizing n with
  | zero =>
    obtain ⟨h1, h2⟩ := hd
    rw [Nat.add_zero] at h1 h2
    obtain ⟨x, hx⟩ := hf.tick n h1
    obtain ⟨-, e1, e2, -, -, e3⟩ := live_tick L (path_live L hf h0 n) hx
    exact ⟨n + 1, Nat.le_succ n, .inr ⟨by rw [todo, todo, e1, e2], e3 h2 hq⟩⟩
  | succ d ih =>
    have hd' : σ (n + 1 + d) = .tick ∧ (f (n + 1 + d)).place.held = false := by
      rwa [show n + 1 + d = n + (d + 1) from by omega]
    cases he : σ n with
    | tick =>
      obtain ⟨x, hx⟩ := hf.tick n he
      obtain ⟨-, e1, e2, -, e4, e3⟩ := live_tick L (path_live L hf h0 n) hx
      have ht : todo (f (n + 1)) = todo (f n) := by rw [todo, todo, e1, e2]
      cases hh : (f n).place.held with
      | false => exact ⟨n + 1, Nat.le_succ n, .inr ⟨ht, e3 hh hq⟩⟩
      | true =>
        have e5 := e4 hh
        obtain ⟨m, h1, h2⟩ := ih (n + 1) (by rw [e5]; exact hq) hd'
        exact ⟨m, by omega, by rwa [ht, e5] at h2⟩
    | main =>
      obtain ⟨q, h1, -, h2⟩ := live_main L (path_live L hf h0 n)
      rw [hf.main n he] at h1
      cases h1
      rcases h2 with h2 | ⟨h2, h3, -⟩
      · exact ⟨n + 1, Nat.le_succ n, .inl h2⟩
      · obtain ⟨m, h4, h5⟩ := ih (n + 1) (by rw [h3]; exact hq) hd'
        exact ⟨m, by omega, by rwa [h2, h3] at h5⟩

/-- Without targets left, the main loop makes progress. -/
theorem path_main (L : Laws step A) (hf : Path A σ f) (h0 : Live step A (f 0)) (d n : Nat) (hq : A.queue (f n).manager = [])
    (hd : σ (n + d) = .main) :
    ∃ m, n ≤ m ∧ ((f m).place = .done ∨ todo (f m) < todo (f n) ∨
      (todo (f m) = todo (f n) ∧ A.queue (f m).manager = [] ∧ rank (f m).place < rank (f n).place)) := by
  induction d generalizing n with
  | zero =>
    rw [Nat.add_zero] at hd
    obtain ⟨q, h1, -, h2⟩ := live_main L (path_live L hf h0 n)
    rw [hf.main n hd] at h1
    cases h1
    rcases h2 with h2 | ⟨h2, h3, h4⟩
    · exact ⟨n + 1, Nat.le_succ n, .inr (.inl h2)⟩
    · rcases h4 hq with h4 | h4
      · exact ⟨n + 1, Nat.le_succ n, .inl h4⟩
      · exact ⟨n + 1, Nat.le_succ n, .inr (.inr ⟨h2, by rw [h3, hq], h4⟩)⟩
  | succ d ih =>
    have hd' : σ (n + 1 + d) = .main := by rwa [show n + 1 + d = n + (d + 1) from by omega]
    cases he : σ n with
    | tick =>
      obtain ⟨x, hx⟩ := hf.tick n he
      obtain ⟨-, e1, e2, e3, -, -⟩ := live_tick L (path_live L hf h0 n) hx
      obtain ⟨m, h1, h2⟩ := ih (n + 1) (e3 hq) hd'
      refine ⟨m, by omega, ?_⟩
      rwa [show todo (f (n + 1)) = todo (f n) from by rw [todo, todo, e1, e2], e1] at h2
    | main =>
      obtain ⟨q, h1, -, h2⟩ := live_main L (path_live L hf h0 n)
      rw [hf.main n he] at h1
      cases h1
      rcases h2 with h2 | ⟨h2, h3, h4⟩
      · exact ⟨n + 1, Nat.le_succ n, .inr (.inl h2)⟩
      · rcases h4 hq with h4 | h4
        · exact ⟨n + 1, Nat.le_succ n, .inl h4⟩
        · exact ⟨n + 1, Nat.le_succ n, .inr (.inr ⟨h2, by rw [h3, hq], h4⟩)⟩

theorem path_idle (L : Laws step A) (hf : Path A σ f) (h0 : Live step A (f 0)) (hm : ∀ n, ∃ m, n ≤ m ∧ σ m = .main) (r n : Nat)
    (hr : rank (f n).place ≤ r) (hq : A.queue (f n).manager = []) :
    ∃ m, n ≤ m ∧ ((f m).place = .done ∨ todo (f m) < todo (f n)) := by
  induction r generalizing n with
  | zero =>
    obtain ⟨k, h1, h2⟩ := hm n
    obtain ⟨m, h3, h4⟩ := path_main L hf h0 (k - n) n hq (by rwa [show n + (k - n) = k from by omega])
    rcases h4 with h4 | h4 | ⟨-, -, h4⟩
    · exact ⟨m, h3, .inl h4⟩
    · exact ⟨m, h3, .inr h4⟩
    · omega
  | succ r ih =>
    obtain ⟨k, h1, h2⟩ := hm n
    obtain ⟨m, h3, h4⟩ := path_main L hf h0 (k - n) n hq (by rwa [show n + (k - n) = k from by omega])
    rcases h4 with h4 | h4 | ⟨h4, h5, h6⟩
    · exact ⟨m, h3, .inl h4⟩
    · exact ⟨m, h3, .inr h4⟩
    · obtain ⟨m', h7, h8⟩ := ih m (by omega) h5
      exact ⟨m', by omega, by rwa [h4] at h8⟩

theorem path_done (L : Laws step A) (hf : Path A σ f) (h0 : Live step A (f 0)) (hm : ∀ n, ∃ m, n ≤ m ∧ σ m = .main)
    (ht : ∀ n, ∃ m, n ≤ m ∧ σ m = .tick ∧ (f m).place.held = false) (a w n : Nat) (ha : todo (f n) ≤ a)
    (hw : todo (f n) = a → weight step (A.queue (f n).manager) ≤ w) : ∃ m, n ≤ m ∧ (f m).place = .done := by
  induction a generalizing n w with
  | zero =>
    induction w generalizing n with
    | zero =>
      by_cases hq : A.queue (f n).manager = []
      · obtain ⟨m, h1, h2 | h2⟩ := path_idle L hf h0 hm _ n (Nat.le_refl _) hq
        · exact ⟨m, h1, h2⟩
        · omega
      · obtain ⟨k, h1, h2, h3⟩ := ht n
        obtain ⟨m, h4, h5⟩ := path_busy L hf h0 (k - n) n hq (by rw [show n + (k - n) = k from by omega]; exact ⟨h2, h3⟩)
        have := hw (by omega)
        omega
    | succ w ih =>
      by_cases hq : A.queue (f n).manager = []
      · obtain ⟨m, h1, h2 | h2⟩ := path_idle L hf h0 hm _ n (Nat.le_refl _) hq
        · exact ⟨m, h1, h2⟩
        · omega
      · obtain ⟨k, h1, h2, h3⟩ := ht n
        obtain ⟨m, h4, h5⟩ := path_busy L hf h0 (k - n) n hq (by rw [show n + (k - n) = k from by omega]; exact ⟨h2, h3⟩)
        have := hw (by omega)
        obtain ⟨m', h6, h7⟩ := ih m (by omega) (by omega)
        exact ⟨m', by omega, h7⟩
  | succ a iha =>
    induction w generalizing n with
    | zero =>
      by_cases hlt : todo (f n) ≤ a
      · exact iha (weight step (A.queue (f n).manager)) n hlt (fun _ => Nat.le_refl _)
      by_cases hq : A.queue (f n).manager = []
      · obtain ⟨m, h1, h2 | h2⟩ := path_idle L hf h0 hm _ n (Nat.le_refl _) hq
        · exact ⟨m, h1, h2⟩
        · obtain ⟨m', h6, h7⟩ := iha (weight step (A.queue (f m).manager)) m (by omega) (fun _ => Nat.le_refl _)
          exact ⟨m', by omega, h7⟩
      · obtain ⟨k, h1, h2, h3⟩ := ht n
        obtain ⟨m, h4, h5⟩ := path_busy L hf h0 (k - n) n hq (by rw [show n + (k - n) = k from by omega]; exact ⟨h2, h3⟩)
        have := hw (by omega)
        obtain ⟨m', h6, h7⟩ := iha (weight step (A.queue (f m).manager)) m (by omega) (fun _ => Nat.le_refl _)
        exact ⟨m', by omega, h7⟩
    | succ w ih =>
      by_cases hlt : todo (f n) ≤ a
      · exact iha (weight step (A.queue (f n).manager)) n hlt (fun _ => Nat.le_refl _)
      by_cases hq : A.queue (f n).manager = []
      · obtain ⟨m, h1, h2 | h2⟩ := path_idle L hf h0 hm _ n (Nat.le_refl _) hq
        · exact ⟨m, h1, h2⟩
        · obtain ⟨m', h6, h7⟩ := iha (weight step (A.queue (f m).manager)) m (by omega) (fun _ => Nat.le_refl _)
          exact ⟨m', by omega, h7⟩
      · obtain ⟨k, h1, h2, h3⟩ := ht n
        obtain ⟨m, h4, h5⟩ := path_busy L hf h0 (k - n) n hq (by rw [show n + (k - n) = k from by omega]; exact ⟨h2, h3⟩)
        have := hw (by omega)
        obtain ⟨m', h6, h7⟩ := ih m (by omega) (by omega)
        exact ⟨m', by omega, h7⟩

end schedule

end Verif.Proof.OldT
