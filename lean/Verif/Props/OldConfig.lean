import Verif.Spec.OldConfig
/-!
# C111: the builder of the former configuration
-/
namespace Verif.Props
open Verif Verif.Spec Verif.Old Verif.Old.Config

theorem getField_demanded (b : Builder) (f : Field) (h : Demanded f) :
    b.getField f = (match b f with | none => .error f.name | some v => .ok v, b.clear f) := by
  unfold Demanded defaultOf at h
  unfold Builder.getField
  cases f <;> first | (cases h; done) | (simp only [Field.how]; split <;> simp_all)

theorem getField_default (b : Builder) (f : Field) (d : f.type) (h : defaultOf f = some d) :
    (b.getField f).1 = .ok ((b f).getD d) ∧ (Moved f → (b.getField f).2 = b.clear f) ∧ (¬ Moved f → (b.getField f).2 = b) := by
  have hd : ¬ Demanded f := by unfold Demanded; rw [h]; simp
  unfold Builder.getField Moved
  unfold defaultOf at h
  cases f <;> first | (cases h; done) | (cases h; simp [Field.how, hd, Robot.DEFAULT_APPROX])

open Classical in
theorem getField_clear (b : Builder) (f g : Field) : (b.getField f).2 g = if g = f ∧ Moved f then none else b g := by
  by_cases hd : Demanded f
  · rw [getField_demanded b f hd]
    have : Moved f := .inl hd
    simp [Builder.clear, this]
  · obtain ⟨d, h⟩ := Option.ne_none_iff_exists'.1 hd
    obtain ⟨-, h1, h2⟩ := getField_default b f d h
    by_cases hm : Moved f
    · rw [h1 hm]; simp [Builder.clear, hm]
    · rw [h2 hm]; simp [hm]

open Classical in
theorem getAll_spec (l : List Field) (hl : l.Nodup) (b : Builder) :
    (∀ pre f post, l = pre ++ f :: post → Demanded f → b f = none → (∀ g ∈ pre, Demanded g → (b g).isSome) →
      (Builder.getAll l b).1 = .error f.name ∧ ∀ g, (Builder.getAll l b).2 g = if Moved g ∧ g ∈ pre ++ [f] then none else b g) ∧
    ((∀ f ∈ l, Demanded f → (b f).isSome) →
      ∃ c, (Builder.getAll l b).1 = .ok c ∧ (∀ f hf, some (c f hf) = (b f).or (defaultOf f)) ∧ ∀ g, (Builder.getAll l b).2 g = if Moved g ∧ g ∈ l then none else b g) := by
  induction l generalizing b with
  | nil =>
    refine ⟨fun pre f post h => by simp at h, fun _ => ⟨fun _ h => (nomatch h), rfl, fun f hf => by simp at hf, fun g => by simp [Builder.getAll]⟩⟩
  | cons x l ih =>
    obtain ⟨hx, hl⟩ := List.nodup_cons.1 hl
    have hclear := getField_clear b x
    -- what the first field gives when it gives something
    have hok : (Demanded x → (b x).isSome) → ∃ v, (b.getField x).1 = .ok v ∧ some v = (b x).or (defaultOf x) := by
      intro hs
      by_cases hd : Demanded x
      · obtain ⟨v, hv⟩ := Option.isSome_iff_exists.1 (hs hd)
        refine ⟨v, ?_, by rw [hv]; rfl⟩
        rw [getField_demanded b x hd, hv]
      · obtain ⟨d, h⟩ := Option.ne_none_iff_exists'.1 hd
        refine ⟨_, (getField_default b x d h).1, ?_⟩
        rw [h]
        cases b x <;> rfl
    have hsame : ∀ g ∈ l, (b.getField x).2 g = b g := by
      intro g hg
      rw [hclear g, if_neg]
      rintro ⟨rfl, -⟩
      exact hx hg
    obtain ⟨i1, i2⟩ := ih hl (b.getField x).2
    constructor
    · intro pre f post he hd hn hpre
      cases pre with
      | nil =>
        obtain ⟨rfl, rfl⟩ : x = f ∧ l = post := by simpa using he
        have h1 : b.getField x = (.error x.name, b.clear x) := by rw [getField_demanded b x hd, hn]
        unfold Builder.getAll
        rw [h1]
        refine ⟨rfl, fun g => ?_⟩
        have hm : Moved x := .inl hd
        by_cases hg : g = x
        · subst hg; simp [Builder.clear, hm]
        · simp [Builder.clear, hg]
      | cons y pre =>
        obtain ⟨rfl, rfl⟩ : x = y ∧ l = pre ++ f :: post := by simpa using he
        obtain ⟨v, h1, -⟩ := hok (hpre x (by simp))
        obtain ⟨j1, j2⟩ := i1 pre f post rfl hd (by rw [hsame f (by simp)]; exact hn) (fun g hg hgd => by rw [hsame g (by simp [hg])]; exact hpre g (by simp [hg]) hgd)
        unfold Builder.getAll
        obtain ⟨r, hr⟩ : ∃ r, r = b.getField x := ⟨_, rfl⟩
        rw [← hr] at h1 j1 j2 hclear hsame
        rw [← hr]
        obtain ⟨r1, r2⟩ := r
        dsimp only at h1 j1 j2 hclear hsame
        rw [h1]
        dsimp only
        obtain ⟨q, hq⟩ : ∃ q, q = Builder.getAll (pre ++ f :: post) r2 := ⟨_, rfl⟩
        rw [← hq] at j1 j2
        rw [← hq]
        obtain ⟨q1, q2⟩ := q
        dsimp only at j1 j2
        rw [j1]
        refine ⟨rfl, fun g => ?_⟩
        show q2 g = _
        rw [j2 g, hclear g]
        by_cases hg : g = x
        · subst hg
          by_cases hm : Moved g <;> simp [hm]
        · by_cases hm : Moved g <;> simp [hm, hg]
    · intro hall
      obtain ⟨v, h1, hv⟩ := hok (hall x (by simp))
      obtain ⟨c, j1, j2, j3⟩ := i2 (fun f hf hd => by rw [hsame f hf]; exact hall f (by simp [hf]) hd)
      unfold Builder.getAll
      obtain ⟨r, hr⟩ : ∃ r, r = b.getField x := ⟨_, rfl⟩
      rw [← hr] at h1 j1 j2 j3 hclear hsame
      rw [← hr]
      obtain ⟨r1, r2⟩ := r
      dsimp only at h1 j1 j2 j3 hclear hsame
      rw [h1]
      dsimp only
      obtain ⟨q, hq⟩ : ∃ q, q = Builder.getAll l r2 := ⟨_, rfl⟩
      rw [← hq] at j1 j3
      rw [← hq]
      obtain ⟨q1, q2⟩ := q
      dsimp only at j1 j3
      rw [j1]
      refine ⟨_, rfl, fun f hf => ?_, fun g => ?_⟩
      · by_cases hfx : f = x
        · subst hfx
          simp only [dif_pos]
          exact hv
        · simp only [dif_neg hfx]
          have hfl := (List.mem_cons.1 hf).resolve_left hfx
          rw [j2 f hfl, hsame f hfl]
      · show q2 g = _
        rw [j3 g, hclear g]
        by_cases hg : g = x
        · subst hg
          by_cases hm : Moved g <;> simp [hm]
        · by_cases hm : Moved g <;> simp [hm, hg]

theorem order_sorted : order.Pairwise (fun f g => f.ctorIdx < g.ctorIdx) := by decide

theorem order_nodup : order.Nodup := by decide

theorem order_split {pre post : List Field} {f : Field} (h : order = pre ++ f :: post) (g : Field) : g ∈ pre ↔ g.ctorIdx < f.ctorIdx := by
  have hs := order_sorted
  rw [h, List.pairwise_append] at hs
  obtain ⟨-, h2, h3⟩ := hs
  have hg : g ∈ pre ++ f :: post := h ▸ mem_order g
  constructor
  · intro hp; exact h3 g hp f (by simp)
  · intro hlt
    rcases List.mem_append.1 hg with hg | hg
    · exact hg
    · rcases List.mem_cons.1 hg with rfl | hg
      · omega
      · have := (List.pairwise_cons.1 h2).1 g hg; omega

open Classical in
/-- The builder when `build` meets nothing missing, and when `f` is the first demanded field without a value. -/
theorem build_spec (b : Builder) :
    (∀ f, Demanded f → b f = none → (∀ g : Field, Demanded g → g.ctorIdx < f.ctorIdx → (b g).isSome) →
      b.build.1 = .error f.name ∧ ∀ g, b.build.2 g = if Moved g ∧ g.ctorIdx ≤ f.ctorIdx then none else b g) ∧
    ((∀ f, Demanded f → (b f).isSome) →
      ∃ c, b.build.1 = .ok c ∧ (∀ f, some (c f) = (b f).or (defaultOf f)) ∧ ∀ g, b.build.2 g = if Moved g then none else b g) := by
  obtain ⟨h1, h2⟩ := getAll_spec order order_nodup b
  obtain ⟨q, hq⟩ : ∃ q, q = Builder.getAll order b := ⟨_, rfl⟩
  rw [← hq] at h1 h2
  unfold Builder.build
  rw [← hq]
  obtain ⟨q1, q2⟩ := q
  constructor
  · intro f hd hn hb
    obtain ⟨pre, post, he⟩ := List.append_of_mem (mem_order f)
    obtain ⟨j1, j2⟩ := h1 pre f post he hd hn (fun g hg hgd => hb g hgd ((order_split he g).1 hg))
    dsimp only at j1 j2
    rw [j1]
    refine ⟨rfl, fun g => ?_⟩
    show q2 g = _
    rw [j2 g]
    have : g ∈ pre ++ [f] ↔ g.ctorIdx ≤ f.ctorIdx := by
      rw [List.mem_append, List.mem_singleton, order_split he g]
      constructor
      · rintro (h | rfl) <;> omega
      · intro h
        rcases Nat.lt_or_eq_of_le h with h | h
        · exact .inl h
        · refine .inr ?_
          revert h
          have : ∀ a b : Field, a.ctorIdx = b.ctorIdx → a = b := by intro a b; cases a <;> cases b <;> decide
          exact this g f
    simp only [this]
  · intro hall
    obtain ⟨c, j1, j2, j3⟩ := h2 fun f _ => hall f
    dsimp only at j1 j3
    rw [j1]
    refine ⟨_, rfl, fun f => j2 f (mem_order f), fun g => ?_⟩
    show q2 g = _
    rw [j3 g]
    simp [mem_order g]

/-- A demanded field without a value that comes first, or none. -/
theorem first_missing (b : Builder) : (∀ f, Demanded f → (b f).isSome) ∨
    ∃ f, Demanded f ∧ b f = none ∧ ∀ g : Field, Demanded g → g.ctorIdx < f.ctorIdx → (b g).isSome := by
  by_contra hcon
  rw [not_or] at hcon
  obtain ⟨h1, h2⟩ := hcon
  apply h1
  have : ∀ n (f : Field), f.ctorIdx = n → Demanded f → (b f).isSome := by
    intro n
    induction n using Nat.strong_induction_on with
    | _ n ih =>
      intro f hn hd
      by_contra hf
      exact h2 ⟨f, hd, by simpa using hf, fun g hgd hlt => ih g.ctorIdx (hn ▸ hlt) g rfl hgd⟩
  exact fun f hd => this _ f rfl hd

theorem builderAfter_eq (h : List BuilderCall) (f : Field) : builderAfter h f = counts h f := by
  induction h generalizing f with
  | nil => rfl
  | cons c h ih =>
    cases c with
    | set g v =>
      show (builderAfter h).set g v f = _
      unfold Builder.set counts
      rw [ih]
    | build =>
      show (builderAfter h).build.2 f = _
      obtain ⟨h1, h2⟩ := build_spec (builderAfter h)
      unfold counts
      rcases first_missing (builderAfter h) with hall | ⟨x, hd, hn, hb⟩
      · obtain ⟨c, -, -, h3⟩ := h2 hall
        rw [h3 f, ih f]
        by_cases hm : Moved f
        · rw [if_pos hm, if_pos ⟨hm, fun g hg _ => by rw [← ih g]; exact hall g hg⟩]
        · rw [if_neg hm, if_neg fun h => hm h.1]
      · rw [(h1 x hd hn hb).2 f, ih f]
        have : (Moved f ∧ f.ctorIdx ≤ x.ctorIdx) ↔ (Moved f ∧ ∀ g : Field, Demanded g → g.ctorIdx < f.ctorIdx → (counts h g).isSome) := by
          refine and_congr_right fun _ => ⟨fun hle g hg hlt => by rw [← ih g]; exact hb g hg (by omega), fun hall => ?_⟩
          by_contra hlt
          have := hall x hd (by omega)
          rw [← ih x, hn] at this
          cases this
        by_cases hc : Moved f ∧ f.ctorIdx ≤ x.ctorIdx
        · rw [if_pos hc, if_pos (this.1 hc)]
        · rw [if_neg hc, if_neg fun h => hc (this.2 h)]

/-- **C111.** After any calls of the setters and of `build` of one builder, `build` fails exactly if a required field does not have a value that counts, and names the first such field; otherwise
every field of the configuration has the value that counts, or its default. -/
theorem C111_build (h : List BuilderCall) :
    (∀ f, Demanded f → counts h f = none → (∀ g : Field, Demanded g → g.ctorIdx < f.ctorIdx → (counts h g).isSome) → (builderAfter h).build.1 = .error f.name) ∧
    ((∀ f, Demanded f → (counts h f).isSome) → ∃ c, (builderAfter h).build.1 = .ok c ∧ ∀ f, some (c f) = (counts h f).or (defaultOf f)) := by
  obtain ⟨h1, h2⟩ := build_spec (builderAfter h)
  refine ⟨fun f hd hn hb => (h1 f hd (by rw [builderAfter_eq]; exact hn) (fun g hg hlt => by rw [builderAfter_eq]; exact hb g hg hlt)).1, fun hall => ?_⟩
  obtain ⟨c, h3, h4, -⟩ := h2 fun f hd => by rw [builderAfter_eq]; exact hall f hd
  exact ⟨c, h3, fun f => by rw [h4 f, builderAfter_eq]⟩

/-- **C111, no second chance.** Once `build` has been called, successfully or not, it fails until the start is set again: the field that was missing the first time cannot be filled in later. -/
theorem C111_again (h later : List BuilderCall) (hl : ∀ v, BuilderCall.set .start v ∉ later) : (builderAfter (later ++ .build :: h)).build.1 = .error "start" := by
  have hs : counts (later ++ .build :: h) .start = none := by
    induction later with
    | nil =>
      show counts (.build :: h) .start = none
      unfold counts
      rw [if_pos]
      refine ⟨.inl rfl, fun g hg hlt => ?_⟩
      cases g <;> first | (unfold Demanded defaultOf at hg; cases hg; done) | (exact absurd hlt (by decide))
    | cons c later ih =>
      have ih := ih fun v hv => hl v (by simp [hv])
      cases c with
      | set g v =>
        show counts (.set g v :: (later ++ .build :: h)) .start = none
        unfold counts
        by_cases hg : Field.start = g
        · subst hg; exact absurd (List.mem_cons_self ..) (hl v)
        · rw [dif_neg hg]; exact ih
      | build =>
        show counts (.build :: (later ++ .build :: h)) .start = none
        unfold counts
        split
        · rfl
        · exact ih
  exact (C111_build _).1 .start rfl hs fun g hg hlt => by
    cases g <;> first | (unfold Demanded defaultOf at hg; cases hg; done) | (exact absurd hlt (by decide))

/-- A builder on which all required fields have been set, in any order, here the one of the documentation. -/
example (v : ∀ f : Field, f.type) : ∃ c, (builderAfter (order.map fun f => .set f (v f))).build.1 = .ok c ∧ ∀ f, c f = v f := by
  have key : ∀ l : List Field, ∀ f, f ∈ l → counts (l.map fun f => .set f (v f)) f = some (v f) := by
    intro l
    induction l with
    | nil => intro f hf; cases hf
    | cons g l ih =>
      intro f hf
      simp only [List.map_cons, counts]
      by_cases h : f = g
      · subst h; rw [dif_pos rfl]
      · rw [dif_neg h]; exact ih f ((List.mem_cons.1 hf).resolve_left h)
  obtain ⟨c, h1, h2⟩ := (C111_build (order.map fun f => .set f (v f))).2 fun f _ => by rw [key _ f (mem_order f)]; rfl
  refine ⟨c, h1, fun f => ?_⟩
  have := h2 f
  rw [key _ f (mem_order f)] at this
  exact Option.some.inj this

/-- A builder on which only the start has been set lacks the goal to return to; with it filled in, it lacks the start. -/
example (s : Field.start.type) (r : Field.returnGoal.type) :
    (builderAfter [.set .start s]).build.1 = .error "return_goal" ∧ (builderAfter [.set .returnGoal r, .build, .set .start s]).build.1 = .error "start" := by
  refine ⟨(C111_build _).1 .returnGoal rfl ?_ ?_, C111_again [.set .start s] [.set .returnGoal r] (by simp)⟩
  · simp [counts]
  · intro g hg hlt
    cases g <;> first | (exact absurd hlt (by decide)) | (unfold Demanded defaultOf at hg; cases hg; done) | (simp [counts]; done)

end Verif.Props
