import Verif.Proof.OldTraject
/-!
# Proofs on the search trajectory manager of the former core crate
-/
namespace Verif.Proof.OldT
open Verif Verif.Old.Traject Verif.Spec.Traject

variable {S T : Type} {step : S → Option (T × S)} {emer : T → S}

theorem outputs_append {s s' : S} {l l' : List T} {r : Option S} (h : Outputs step s l (some s')) (h' : Outputs step s' l' r) :
    Outputs step s (l ++ l') r := by
  generalize hr : some s' = r0 at h
  induction h with
  | start s => cases hr; exact h'
  | over s h => cases hr
  | more s y s1 l r h1 h2 ih => exact .more _ _ _ _ _ h1 (ih hr)

/-- `nth` throws targets away, or finds the trajectory over. -/
theorem nth_some {k : Nat} {s s' : S} {x : T} (h : nth step k s = some (x, s')) :
    ∃ l s1, Outputs step s l (some s1) ∧ l.length = k ∧ step s1 = some (x, s') := by
  induction k generalizing s with
  | zero => exact ⟨[], s, .start s, rfl, h⟩
  | succ k ih =>
    rw [nth] at h
    cases hs : step s with
    | none => rw [hs] at h; cases h
    | some r =>
      obtain ⟨y, s2⟩ := r
      rw [hs] at h
      obtain ⟨l, s1, h1, h2, h3⟩ := ih h
      exact ⟨y :: l, s1, .more _ _ _ _ _ hs h1, by simp [h2], h3⟩

theorem nth_none {k : Nat} {s : S} (h : nth step k s = none) : ∃ l, Outputs step s l none ∧ l.length ≤ k := by
  induction k generalizing s with
  | zero => exact ⟨[], .over s h, Nat.le_refl _⟩
  | succ k ih =>
    rw [nth] at h
    cases hs : step s with
    | none => exact ⟨[], .over s hs, Nat.zero_le _⟩
    | some r =>
      obtain ⟨y, s2⟩ := r
      rw [hs] at h
      obtain ⟨l, h1, h2⟩ := ih h
      exact ⟨y :: l, .more _ _ _ _ _ hs h1, by simpa using h2⟩

theorem nth_of {k : Nat} {s s1 s' : S} {l : List T} {x : T} (h : Outputs step s l (some s1)) (hl : l.length = k) (hs : step s1 = some (x, s')) :
    nth step k s = some (x, s') := by
  induction k generalizing s l with
  | zero =>
    have : l = [] := List.length_eq_zero_iff.mp hl
    subst this
    cases h
    exact hs
  | succ k ih =>
    cases h with
    | start => cases hl
    | more _ y s2 l r h1 h2 =>
      rw [nth, h1]
      exact ih h2 (by simpa using hl)

/-- The front trajectory gives targets. -/
theorem gives_many {ss : List S} {ts : List T} {s s' : S} {q : List S} {l : List T} (h : Gives step ss ts (s :: q)) (hx : Outputs step s l (some s')) :
    Gives step ss (ts ++ l) (s' :: q) := by
  generalize hr : s :: q = left at h
  induction h with
  | nil => cases hr
  | partway s0 ss l s1 h => cases hr; exact .partway _ _ _ _ (outputs_append h hx)
  | over s0 ss l ts left h h' ih => rw [List.append_assoc]; exact .over _ _ _ _ _ h (ih hr)

/-- The front trajectory gives all its targets. -/
theorem gives_rest {ss : List S} {ts : List T} {s : S} {q : List S} {l : List T} (h : Gives step ss ts (s :: q)) (hx : Outputs step s l none) :
    Gives step ss (ts ++ l) q := by
  generalize hr : s :: q = left at h
  induction h with
  | nil => cases hr
  | partway s0 ss l0 s1 h =>
    cases hr
    have := Gives.over _ _ _ _ _ (outputs_append h hx) (gives_fresh q)
    rwa [List.append_nil] at this
  | over s0 ss l ts left h h' ih => rw [List.append_assoc]; exact .over _ _ _ _ _ h (ih hr)

theorem spop_spec {ss : List S} {ts : List T} {q : List S} (k : Nat) (h : Gives step ss ts q) :
    (∃ x l, (Searching.pop step k q).1 = some x ∧ k ≤ l.length ∧ (k = 0 → l = []) ∧ Gives step ss (ts ++ l ++ [x]) (Searching.pop step k q).2) ∨
      (∃ l, (Searching.pop step k q).1 = none ∧ (Searching.pop step k q).2 = [] ∧ (k = 0 → l = []) ∧ Gives step ss (ts ++ l) []) := by
  induction q generalizing ts with
  | nil => exact .inr ⟨[], rfl, rfl, fun _ => rfl, by rwa [List.append_nil]⟩
  | cons s q ih =>
    rw [Searching.pop]
    cases hs : nth step k s with
    | some r =>
      obtain ⟨x, s'⟩ := r
      obtain ⟨l, s1, h1, h2, h3⟩ := nth_some hs
      exact .inl ⟨x, l, rfl, Nat.le_of_eq h2.symm, fun hk => List.length_eq_zero_iff.mp (h2.trans hk), gives_more (gives_many h h1) h3⟩
    | none =>
      obtain ⟨l, h1, h2⟩ := nth_none hs
      have hl : k = 0 → l = [] := fun hk => List.length_eq_zero_iff.mp (Nat.le_zero.mp (hk ▸ h2))
      rcases ih (gives_rest h h1) with ⟨x, l', e1, e2, e3, e4⟩ | ⟨l', e1, e2, e3, e4⟩
      · exact .inl ⟨x, l ++ l', e1, by rw [List.length_append]; omega, fun hk => by rw [hl hk, e3 hk]; rfl, by rwa [← List.append_assoc ts]⟩
      · exact .inr ⟨l ++ l', e1, e2, fun hk => by rw [hl hk, e3 hk]; rfl, by rwa [← List.append_assoc ts]⟩

/-- If no trajectory is cut short, exactly as many targets are thrown away as asked for. -/
theorem spop_uncut {ss : List S} {ts : List T} {q : List S} {k : Nat} (h : Gives step ss ts q) (hu : Uncut step k q) :
    (∃ x l, (Searching.pop step k q).1 = some x ∧ l.length = k ∧ Gives step ss (ts ++ l ++ [x]) (Searching.pop step k q).2) ∨
      ((Searching.pop step k q).1 = none ∧ (Searching.pop step k q).2 = [] ∧ Gives step ss ts []) := by
  induction hu with
  | nil => exact .inr ⟨rfl, rfl, h⟩
  | over s q hs hu ih =>
    have : nth step k s = none := by cases k with | zero => exact hs | succ k => rw [nth, hs]
    rw [Searching.pop, this]
    exact ih (gives_drop h hs)
  | long s s' q l h1 h2 h3 =>
    obtain ⟨⟨x, s2⟩, hx⟩ := Option.ne_none_iff_exists'.mp h3
    rw [Searching.pop, nth_of h1 h2 hx]
    exact .inl ⟨x, l, rfl, h2, gives_more (gives_many h h1) hx⟩

theorem spop_len (k : Nat) (q : List S) : (Searching.pop step k q).2.length ≤ q.length := by
  induction q with
  | nil => exact Nat.le_refl _
  | cons s q ih =>
    rw [Searching.pop]
    cases nth step k s with
    | some r => exact Nat.le_refl _
    | none => exact Nat.le_trans ih (Nat.le_succ _)

theorem finite_many {s s' : S} {l : List T} (h : Finite step s) (hl : Outputs step s l (some s')) :
    Finite step s' ∧ need step s = need step s' + l.length := by
  generalize hr : some s' = r at hl
  induction hl with
  | start s => cases hr; exact ⟨h, rfl⟩
  | over s h => cases hr
  | more s y s1 l r h1 h2 ih =>
    obtain ⟨a, b⟩ := ih (finite_step h h1) hr
    exact ⟨a, by rw [need_step h h1, b, List.length_cons]; omega⟩

theorem spop_finite (k : Nat) (q : List S) (h : ∀ s ∈ q, Finite step s) : (∀ s ∈ (Searching.pop step k q).2, Finite step s) ∧
    (q ≠ [] → weight step (Searching.pop step k q).2 < weight step q) := by
  induction q with
  | nil => exact ⟨h, fun hq => absurd rfl hq⟩
  | cons s q ih =>
    rw [Searching.pop]
    have hs := h s List.mem_cons_self
    obtain ⟨i1, i2⟩ := ih fun t ht => h t (List.mem_cons_of_mem _ ht)
    cases hx : nth step k s with
    | some r =>
      obtain ⟨x, s'⟩ := r
      obtain ⟨l, s1, h1, h2, h3⟩ := nth_some hx
      obtain ⟨h4, h5⟩ := finite_many hs h1
      refine ⟨fun t ht => ?_, fun _ => ?_⟩
      · rcases List.mem_cons.mp ht with rfl | ht
        · exact finite_step h4 h3
        · exact h t (List.mem_cons_of_mem _ ht)
      · rw [weight_cons, weight_cons, h5, need_step h4 h3]; omega
    | none =>
      refine ⟨i1, fun _ => ?_⟩
      rw [weight_cons]
      by_cases hq : q = []
      · subst hq
        simp only [Searching.pop, weight_nil]; omega
      · have := i2 hq; simp only; omega

/-! ### The manager -/

theorem init_queue (m : Searching S T) : (Searching.getOrInit step emer m).2.queue = m.queue := by
  unfold Searching.getOrInit
  cases m.emergency with
  | some s => simp only; cases step s <;> rfl
  | none => simp only; cases step (emer m.last) <;> rfl

theorem snext_queue (held : Bool) (m : Searching S T) : (Searching.next step emer held m).2.queue =
    if held then m.queue else (Searching.pop step m.counter m.queue).2 := by
  unfold Searching.next
  cases held with
  | true =>
    simp only [if_true]
    have := init_queue (step := step) (emer := emer) { m with queue := m.queue }
    split <;> rename_i h <;> rw [h] at this <;> exact this
  | false =>
    simp only [Bool.false_eq_true, if_false]
    cases (Searching.pop step m.counter m.queue).1 with
    | some x => rfl
    | none =>
      simp only
      have := init_queue (step := step) (emer := emer) { m with queue := (Searching.pop step m.counter m.queue).2 }
      split <;> rename_i h <;> rw [h] at this <;> exact this

theorem searching_laws : Laws step (searching step emer : Manager (Searching S T) S T) where
  push m s := rfl
  held m x m' h := by
    have h' := Except.ok.inj h
    have := snext_queue (step := step) (emer := emer) true m
    rw [h'] at this
    exact this
  len m x m' h := by
    have h' := Except.ok.inj h
    have := snext_queue (step := step) (emer := emer) false m
    rw [h'] at this
    change m'.queue.length ≤ m.queue.length
    rw [this]
    exact spop_len _ _
  finite m x m' h hf := by
    have h' := Except.ok.inj h
    have := snext_queue (step := step) (emer := emer) false m
    rw [h'] at this
    change (∀ s ∈ m'.queue, _) ∧ (m.queue ≠ [] → weight step m'.queue < weight step m.queue)
    rw [this]
    exact spop_finite _ _ hf

/-! ### The history -/

/-- The emergency trajectory on its way. -/
def Alarmed (step : S → Option (T × S)) (emer : T → S) (b : T) (l : List T) (s : S) (last : T) : Prop :=
  ∃ l1 k, Outputs step (emer b) l1 (some s) ∧ (k ≠ 0 → step s = none) ∧ l = l1 ++ List.replicate k (l1.getLastD b) ∧ last = l1.getLastD b

theorem alarmed_spec {b : T} {l : List T} {s : S} {last : T} (h : Alarmed step emer b l s last) : Emergency step emer b l := by
  obtain ⟨l1, k, h1, h2, h3, -⟩ := h
  by_cases hk : k = 0
  · exact ⟨l1, _, k, h1, .inl hk, h3⟩
  · exact ⟨l1, none, k, outputs_end h1 (h2 hk), .inr rfl, h3⟩

theorem alarmed_start (b : T) : Alarmed step emer b [] (emer b) b := ⟨[], 0, .start _, fun h => absurd rfl h, rfl, rfl⟩

theorem alarmed_more {b : T} {l : List T} {s s' : S} {last x : T} (h : Alarmed step emer b l s last) (hx : step s = some (x, s')) :
    Alarmed step emer b (l ++ [x]) s' x := by
  obtain ⟨l1, k, h1, h2, h3, h4⟩ := h
  have hk : k = 0 := by
    by_contra hk
    rw [h2 hk] at hx
    cases hx
  subst hk
  refine ⟨l1 ++ [x], 0, outputs_snoc h1 hx, fun h => absurd rfl h, ?_, by simp⟩
  rw [h3]; simp

theorem alarmed_stay {b : T} {l : List T} {s : S} {last : T} (h : Alarmed step emer b l s last) (hx : step s = none) :
    Alarmed step emer b (l ++ [last]) s last := by
  obtain ⟨l1, k, h1, h2, h3, h4⟩ := h
  refine ⟨l1, k + 1, h1, fun _ => hx, ?_, h4⟩
  rw [h3, h4, List.replicate_succ', List.append_assoc]

theorem outputs_same {s : S} {l l' : List T} {r r' : Option S} (h : Outputs step s l r) (h' : Outputs step s l' r') :
    l <+: l' ∨ l' <+: l := by
  induction h generalizing l' with
  | start s => exact .inl List.nil_prefix
  | over s h => exact .inl List.nil_prefix
  | more s y s1 l r h1 h2 ih =>
    cases h' with
    | start => exact .inr List.nil_prefix
    | over _ h => exact .inr List.nil_prefix
    | more _ y' s1' l' r' h1' h2' =>
      rw [h1] at h1'
      cases h1'
      rcases ih h2' with h | h
      · exact .inl ((List.prefix_cons_inj y).mpr h)
      · exact .inr ((List.prefix_cons_inj y).mpr h)

theorem gives_prefix {ss : List S} {ts ts' : List T} {l l' : List S} (h : Gives step ss ts l) (h' : Gives step ss ts' l') :
    ts <+: ts' ∨ ts' <+: ts := by
  induction h generalizing ts' with
  | nil => cases h'; exact .inl (List.prefix_refl _)
  | partway s ss l0 s' h =>
    cases h' with
    | partway _ _ _ s2 h2 => exact outputs_same h h2
    | over _ _ l1 ts1 _ h2 hg => exact .inl ((outputs_prefix h h2).trans (List.prefix_append _ _))
  | over s ss l0 ts left h hg ih =>
    cases h' with
    | partway _ _ _ s2 h2 => exact .inr ((outputs_prefix h2 h).trans (List.prefix_append _ _))
    | over _ _ l1 ts1 _ h2 hg' =>
      rw [outputs_unique h h2]
      rcases ih hg' with h | h
      · exact .inl ((List.prefix_append_right_inj _).mpr h)
      · exact .inr ((List.prefix_append_right_inj _).mpr h)

/-- The targets at a position are the same. -/
theorem gives_same {ss : List S} {ts ts' : List T} {l l' : List S} {x y : T} (h : Gives step ss (ts ++ [x]) l) (h' : Gives step ss (ts' ++ [y]) l')
    (hl : ts.length = ts'.length) : x = y := by
  have : ts ++ [x] = ts' ++ [y] := by
    rcases gives_prefix h h' with hp | hp
    · exact hp.eq_of_length (by simp [hl])
    · exact (hp.eq_of_length (by simp [hl])).symm
  simpa using (List.append_inj this hl).2

theorem item_push {ss : List S} {i : Nat} {x : T} (h : Item step ss i x) (s : S) : Item step (ss ++ [s]) i x := by
  obtain ⟨ts, left, h1, h2⟩ := h
  exact ⟨ts, _, gives_push h1 s, h2⟩

theorem history_push {ss : List S} {d : T} {xs : List T} {i : Nat} {e : Option (T × List T)} (h : History step emer d ss xs i e) (s : S) :
    History step emer d (ss ++ [s]) xs i e := by
  induction h with
  | start => exact .start
  | fresh xs i x h hi ih => exact .fresh _ _ _ ih (item_push hi s)
  | alarm xs i x h hi ih => exact .alarm _ _ _ ih hi
  | go xs i b l x h hi ih => exact .go _ _ _ _ _ ih hi
  | resume xs i j b l x h hl hi ih => exact .resume _ _ _ _ _ _ ih hl (item_push hi s)

/-- What holds of the search manager at any time. -/
structure SearchInv (step : S → Option (T × S)) (emer : T → S) (d : T) (xs : List T) (p : Proc (Searching S T) S) : Prop where
  last : p.manager.last = xs.getLastD d
  hist : ∃ i e ts, History step emer d p.accepted xs i e ∧ Gives step p.accepted ts p.manager.queue ∧ i ≤ ts.length ∧
    xs.length ≤ ts.length + p.manager.counter ∧
    ((e = none ∧ p.manager.emergency = none ∧ p.manager.counter = 0 ∧ ts.length = i) ∨
      ∃ b l s, e = some (b, l) ∧ p.manager.emergency = some s ∧ p.manager.counter = l.length ∧ Alarmed step emer b l s p.manager.last)

/-- A tick that does not hand out a target of a trajectory. -/
theorem search_alarm {d : T} {xs : List T} {ss : List S} {m : Searching S T} {q : List S} {i : Nat} {e : Option (T × List T)} {ts : List T}
    (hl : m.last = xs.getLastD d) (h : History step emer d ss xs i e) (hg : Gives step ss ts q) (hi : i ≤ ts.length)
    (hx : xs.length ≤ ts.length + m.counter)
    (he : (e = none ∧ m.emergency = none ∧ m.counter = 0) ∨
      ∃ b l s, e = some (b, l) ∧ m.emergency = some s ∧ m.counter = l.length ∧ Alarmed step emer b l s m.last)
    {x : T} {m' : Searching S T}
    (hm : (match Searching.getOrInit step emer { m with queue := q } with
      | (some x, m) => (x, { m with last := x })
      | (none, m) => (m.last, m)) = (x, m')) :
    m'.last = x ∧ m'.queue = q ∧ m'.counter = m.counter + 1 ∧ (xs ++ [x]).length ≤ ts.length + m'.counter ∧
      ∃ b l s, History step emer d ss (xs ++ [x]) i (some (b, l)) ∧ m'.emergency = some s ∧ m'.counter = l.length ∧
        Alarmed step emer b l s m'.last := by
  unfold Searching.getOrInit at hm
  rcases he with ⟨rfl, h2, h3⟩ | ⟨b, l, s, rfl, h2, h3, h4⟩
  · simp only [h2] at hm
    have ha := alarmed_start (step := step) (emer := emer) m.last
    cases hs : step (emer m.last) with
    | some r =>
      obtain ⟨y, s'⟩ := r
      simp only [hs] at hm
      cases hm
      have ha' := alarmed_more ha hs
      refine ⟨rfl, rfl, by simp [h3], by simp; omega, m.last, [x], s', ?_, rfl, rfl, ha'⟩
      rw [hl]
      exact .alarm _ _ _ h (hl ▸ alarmed_spec ha')
    | none =>
      simp only [hs] at hm
      cases hm
      have ha' := alarmed_stay ha hs
      refine ⟨rfl, rfl, by simp [h3], by simp; omega, m.last, [m.last], emer m.last, ?_, rfl, rfl, ha'⟩
      have := History.alarm _ _ m.last h (hl ▸ alarmed_spec ha')
      rwa [← hl] at this
  · simp only [h2] at hm
    cases hs : step s with
    | some r =>
      obtain ⟨y, s'⟩ := r
      simp only [hs] at hm
      cases hm
      have ha' := alarmed_more h4 hs
      exact ⟨rfl, rfl, rfl, by simp; omega, b, l ++ [x], s', .go _ _ _ _ _ h (alarmed_spec ha'), rfl, by simp [h3], ha'⟩
    | none =>
      simp only [hs] at hm
      cases hm
      have ha' := alarmed_stay h4 hs
      exact ⟨rfl, rfl, rfl, by simp; omega, b, l ++ [m.last], s, .go _ _ _ _ _ h (alarmed_spec ha'), rfl, by simp [h3], ha'⟩

theorem stick_split {p p' : Proc (Searching S T) S} {x : T} (h : p.tick (searching step emer) = .ok (x, p')) :
    (∃ y, p.place.held = false ∧ (Searching.pop step p.manager.counter p.manager.queue).1 = some y ∧ x = y ∧
      p' = { p with manager := ⟨(Searching.pop step p.manager.counter p.manager.queue).2, none, 0, y⟩ }) ∨
    (∃ q m', (p.place.held = true ∧ q = p.manager.queue ∨ p.place.held = false ∧
        (Searching.pop step p.manager.counter p.manager.queue).1 = none ∧ q = (Searching.pop step p.manager.counter p.manager.queue).2) ∧
      (match Searching.getOrInit step emer { p.manager with queue := q } with
        | (some x, m) => (x, { m with last := x })
        | (none, m) => (m.last, m)) = (x, m') ∧ p' = { p with manager := m' }) := by
  obtain ⟨m, h1, rfl⟩ := tick_split h
  have h2 : Searching.next step emer p.place.held p.manager = (x, m) := Except.ok.inj h1
  unfold Searching.next at h2
  cases hh : p.place.held with
  | true =>
    rw [hh] at h2
    simp only [if_true] at h2
    exact .inr ⟨_, m, .inl ⟨rfl, rfl⟩, h2, rfl⟩
  | false =>
    rw [hh] at h2
    simp only [Bool.false_eq_true, if_false] at h2
    cases hp : (Searching.pop step p.manager.counter p.manager.queue).1 with
    | some y =>
      rw [hp] at h2
      cases h2
      exact .inl ⟨x, rfl, rfl, rfl, rfl⟩
    | none =>
      rw [hp] at h2
      exact .inr ⟨_, m, .inr ⟨rfl, rfl, rfl⟩, h2, rfl⟩

theorem search_tick {d : T} {xs : List T} {p p' : Proc (Searching S T) S} {x : T} (hp : SearchInv step emer d xs p)
    (h : p.tick (searching step emer) = .ok (x, p')) : SearchInv step emer d (xs ++ [x]) p' ∧
      (p.place.held = false → (∃ j, xs.length ≤ j ∧ Item step p.accepted j x) ∨ p'.manager.queue = []) := by
  obtain ⟨hl, i, e, ts, h1, h2, h3, h4, h5⟩ := hp
  rcases stick_split h with ⟨y, hh, e1, rfl, rfl⟩ | ⟨q, m', hq, hm, rfl⟩
  · rcases spop_spec p.manager.counter h2 with ⟨y, l, f1, f2, f3, f4⟩ | ⟨l, f1, -⟩
    · rw [e1] at f1
      cases f1
      have hit : Item step p.accepted (ts ++ l).length x := ⟨ts ++ l, _, f4, rfl⟩
      rw [List.length_append] at hit
      refine ⟨⟨by simp, ?_⟩, fun _ => .inl ⟨_, by omega, hit⟩⟩
      rcases h5 with ⟨rfl, h6, h7, h8⟩ | ⟨b, l', s, rfl, h6, h7, h8⟩
      · have := f3 h7
        subst this
        have hit' : Item step p.accepted i x := by rw [← h8]; simpa using hit
        exact ⟨i + 1, none, _, .fresh _ _ _ h1 hit', f4, by simp [h8], by simp; omega, .inl ⟨rfl, rfl, rfl, by simp [h8]⟩⟩
      · refine ⟨_, none, _, .resume _ _ _ _ _ _ h1 (by omega) hit, f4, by simp; omega, by simp; omega, .inl ⟨rfl, rfl, rfl, by simp; omega⟩⟩
    · rw [e1] at f1; cases f1
  · have h5' : (e = none ∧ p.manager.emergency = none ∧ p.manager.counter = 0) ∨
        ∃ b l s, e = some (b, l) ∧ p.manager.emergency = some s ∧ p.manager.counter = l.length ∧ Alarmed step emer b l s p.manager.last := by
      rcases h5 with ⟨a, b, c, -⟩ | h5
      · exact .inl ⟨a, b, c⟩
      · exact .inr h5
    obtain ⟨ts', hle, hg, hq'⟩ : ∃ ts', ts.length ≤ ts'.length ∧ Gives step p.accepted ts' q ∧ (p.place.held = false → q = []) := by
      rcases hq with ⟨hh, rfl⟩ | ⟨hh, e1, rfl⟩
      · exact ⟨ts, Nat.le_refl _, h2, fun h => by rw [hh] at h; cases h⟩
      · rcases spop_spec p.manager.counter h2 with ⟨y, l, f1, -⟩ | ⟨l, -, f2, -, f4⟩
        · rw [e1] at f1; cases f1
        · exact ⟨ts ++ l, by simp, by rw [f2]; exact f4, fun _ => f2⟩
    obtain ⟨g1, g2, g3, g4, b, l, s, g5, g6, g7, g8⟩ := search_alarm hl h1 hg (by omega) (by omega) h5' hm
    exact ⟨⟨by rw [g1]; simp, i, _, ts', g5, by rw [g2]; exact hg, by omega, g4, .inr ⟨b, l, s, rfl, g6, g7, g8⟩⟩,
      fun hh => .inr (by simp only; rw [g2, hq' hh])⟩

theorem search_main {d : T} {xs : List T} {p p' : Proc (Searching S T) S} (hp : SearchInv step emer d xs p)
    (h : p.main (searching step emer) = .ok p') : SearchInv step emer d xs p' := by
  obtain ⟨hl, i, e, ts, h1, h2, h3, h4, h5⟩ := hp
  rcases main_split h with ⟨e1, e2, -⟩ | ⟨s, e1, e2, -⟩
  · exact ⟨by rw [e1, hl], i, e, ts, by rw [e2]; exact h1, by rw [e1, e2]; exact h2, h3, by rw [e1]; exact h4, by rw [e1]; exact h5⟩
  · refine ⟨by rw [e1]; exact hl, i, e, ts, by rw [e2]; exact history_push h1 s, by rw [e1, e2]; exact gives_push h2 s, h3, ?_, ?_⟩
    · rw [e1]; exact h4
    · rw [e1]; exact h5

theorem search_inv [Inhabited T] {s : S} {answers : List (Answer S)} {p : Proc (Searching S T) S} {es : List Event} {xs : List T}
    (h : (Searching.start s answers).run (searching step emer) es = .ok (xs, p)) : SearchInv step emer default xs p :=
  run_induct (SearchInv step emer default)
    ⟨rfl, 0, none, [], .start, gives_start s, Nat.le_refl _, Nat.le_refl _, .inl ⟨rfl, rfl, rfl, rfl⟩⟩
    (fun _ _ _ _ h1 h2 => (search_tick h1 h2).1) (fun _ _ _ h1 h2 => search_main h1 h2) h

/-! ### On time -/

/-- The targets handed out, or left out, are as many as the ticks outside the present emergency. -/
def OnTime (step : S → Option (T × S)) (xs : List T) (p : Proc (Searching S T) S) : Prop :=
  ∃ ts, Gives step p.accepted ts p.manager.queue ∧ ts.length + p.manager.counter = xs.length

theorem on_tick {d : T} {xs : List T} {p p' : Proc (Searching S T) S} {x : T} (hp : SearchInv step emer d xs p) (ho : OnTime step xs p)
    (hu : p.place.held = false → Uncut step p.manager.counter p.manager.queue) (h : p.tick (searching step emer) = .ok (x, p')) :
    OnTime step (xs ++ [x]) p' ∧
      (p.place.held = false → Item step p.accepted xs.length x ∨ ∃ ts, Gives step p.accepted ts [] ∧ ts.length ≤ xs.length) := by
  obtain ⟨hl, i, e, _, h1, _, _, _, h5⟩ := hp
  obtain ⟨ts, h2, h3⟩ := ho
  rcases stick_split h with ⟨y, hh, e1, rfl, rfl⟩ | ⟨q, m', hq, hm, rfl⟩
  · rcases spop_uncut h2 (hu hh) with ⟨y, l, f1, f2, f3⟩ | ⟨f1, -⟩
    · rw [e1] at f1
      cases f1
      exact ⟨⟨_, f3, by simp; omega⟩, fun _ => .inl ⟨ts ++ l, _, f3, by rw [List.length_append]; omega⟩⟩
    · rw [e1] at f1; cases f1
  · have h5' : (e = none ∧ p.manager.emergency = none ∧ p.manager.counter = 0) ∨
        ∃ b l s, e = some (b, l) ∧ p.manager.emergency = some s ∧ p.manager.counter = l.length ∧ Alarmed step emer b l s p.manager.last := by
      rcases h5 with ⟨a, b, c, -⟩ | h5
      · exact .inl ⟨a, b, c⟩
      · exact .inr h5
    have hcount : m'.queue = q ∧ m'.counter = p.manager.counter + 1 := by
      unfold Searching.getOrInit at hm
      rcases h5' with ⟨-, h6, h7⟩ | ⟨b, l, s, -, h6, h7, -⟩
      · simp only [h6] at hm
        cases hs : step (emer p.manager.last) with
        | some r => simp only [hs] at hm; cases hm; exact ⟨rfl, by simp [h7]⟩
        | none => simp only [hs] at hm; cases hm; exact ⟨rfl, by simp [h7]⟩
      · simp only [h6] at hm
        cases hs : step s with
        | some r => simp only [hs] at hm; cases hm; exact ⟨rfl, rfl⟩
        | none => simp only [hs] at hm; cases hm; exact ⟨rfl, rfl⟩
    have hg : Gives step p.accepted ts q ∧ (p.place.held = false → q = []) := by
      rcases hq with ⟨hh, rfl⟩ | ⟨hh, e1, rfl⟩
      · exact ⟨h2, fun h => by rw [hh] at h; cases h⟩
      · rcases spop_uncut h2 (hu hh) with ⟨y, l, f1, -⟩ | ⟨-, f2, f3⟩
        · rw [e1] at f1; cases f1
        · exact ⟨by rw [f2]; exact f3, fun _ => f2⟩
    refine ⟨⟨ts, by simp only; rw [hcount.1]; exact hg.1, by simp only [hcount.2]; simp; omega⟩, fun hh => .inr ⟨ts, ?_, by omega⟩⟩
    have := hg.1
    rwa [hg.2 hh] at this

theorem on_time [Inhabited T] {s : S} {answers : List (Answer S)} {p : Proc (Searching S T) S} {es : List Event} {xs : List T}
    (h : (Searching.start s answers).run (searching step emer) es = .ok (xs, p)) (hc : NeverCut step emer (Searching.start s answers) es) :
    OnTime step xs p := by
  induction es using List.reverseRecOn generalizing xs p with
  | nil => cases h; exact ⟨[], gives_start s, rfl⟩
  | append_singleton es e ih =>
    rw [run_snoc] at h
    cases h1 : (Searching.start s answers).run (searching step emer) es with
    | error a => rw [h1] at h; cases h
    | ok r =>
      obtain ⟨ys, q1⟩ := r
      rw [h1] at h
      simp only [bind, Except.bind, pure, Except.pure] at h
      have ho := ih h1 fun es1 es2 xs q he hr hh => hc es1 (es2 ++ [e]) xs q (by rw [he]; simp) hr hh
      cases e with
      | tick =>
        simp only [Proc.event] at h
        cases h2 : q1.tick (searching step emer) with
        | error a => rw [h2] at h; cases h
        | ok r =>
          obtain ⟨x, q2⟩ := r
          rw [h2] at h
          cases h
          exact (on_tick (search_inv h1) ho (fun hh => hc es [] ys q1 rfl h1 hh) h2).1
      | main =>
        simp only [Proc.event] at h
        cases h2 : q1.main (searching step emer) with
        | error a => rw [h2] at h; cases h
        | ok q2 =>
          rw [h2] at h
          cases h
          obtain ⟨ts, h3, h4⟩ := ho
          rcases main_split h2 with ⟨e1, e2, -⟩ | ⟨c, e1, e2, -⟩
          · exact ⟨ts, by rw [e1, e2]; exact h3, by rw [e1]; simpa using h4⟩
          · exact ⟨ts, by rw [e1, e2]; exact gives_push h3 c, by rw [e1, List.append_nil]; exact h4⟩

end Verif.Proof.OldT
