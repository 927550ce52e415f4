import Verif.Proof.ExploreCongr
import Verif.Props.RobotHistory
import Mathlib.Data.Nat.Lattice
/-! # C24: the exploration loop terminates -/
namespace Verif.Props
open Verif Verif.Search Verif.Spec Verif.Grid Verif.Bfs

/-- The wall states come from a table with one entry per wall slot (as in `Walls`): a cell centre has
the state of the wall in whose slot it lies. -/
def SlotConsistent (W : Nat) (ws : Coord → WallState) : Prop :=
  ∀ x c, Looked W x → Valid W c → SlotOf x c → ws x = ws c

/-- Sensing only turns unknown states into known ones. -/
def Extends (ws ws' : Coord → WallState) : Prop := ∀ x, ws x ≠ .unchecked → ws' x = ws x

/-- One round of the exploration loop (`tests/search.rs`): ask for a commander, sense walls until the
commander names a coordinate, move there. -/
inductive ExploreStep (W : Nat) (start : Coord) (goals : List Coord) :
    SearchState × (Coord → WallState) → SearchState × (Coord → WallState) → Prop
  | mk {s s' : SearchState} {ws ws' : Coord → WallState} {cmd : Commander} {c : Coord}
      {k : Option TrajectoryKind} :
      explore W start goals s.coord ws = .ok (.ok (some cmd)) →
      Extends ws ws' → SlotConsistent W ws' →
      cmd.nextCoordinate ws' = .ok (some c) →
      s.update c = .ok (s', k) →
      ExploreStep W start goals (s, ws) (s', ws')

/-! ## Walks without repetitions -/

theorem adjPath_suffix {W : Nat} {ok : Coord → Prop} {a : Coord} {post : List Coord} :
    ∀ {pre : List Coord}, AdjPath W ok (pre ++ a :: post) → AdjPath W ok (a :: post)
  | [], h => h
  | [b], h => h.2
  | b :: c :: pre, h => adjPath_suffix (pre := c :: pre) h.2

theorem adjPath_shorten {W : Nat} {ok : Coord → Prop} {t : Coord} : ∀ {l : List Coord} {a : Coord},
    AdjPath W ok (a :: l) → (a :: l).getLast? = some t →
    ∃ l', AdjPath W ok (a :: l') ∧ (a :: l').getLast? = some t ∧ (a :: l').Nodup ∧
      l'.length ≤ l.length
  | [], a, h1, h2 => ⟨[], h1, h2, by simp, by simp⟩
  | b :: l, a, h1, h2 => by
    obtain ⟨l', e1, e2, e3, e4⟩ := adjPath_shorten (t := t) h1.2 (by simpa using h2)
    by_cases hm : a ∈ b :: l'
    · obtain ⟨pre, post, hs⟩ := List.append_of_mem hm
      refine ⟨post, adjPath_suffix (pre := pre) (hs ▸ e1), ?_, ?_, ?_⟩
      · rw [hs, List.getLast?_append] at e2
        simpa using e2
      · rw [hs] at e3
        exact (List.nodup_append.1 e3).2.1
      · have := congrArg List.length hs
        simp at this ⊢; omega
    · exact ⟨b :: l', ⟨h1.1, e1⟩, by simpa using e2, List.nodup_cons.2 ⟨hm, e3⟩, by simp; omega⟩

theorem adjPath_valid {W : Nat} {ok : Coord → Prop} : ∀ {l : List Coord} {a : Coord}, Valid W a →
    AdjPath W ok (a :: l) → ∀ x ∈ a :: l, Valid W x
  | [], a, ha, _, x, hx => by simp at hx; exact hx ▸ ha
  | b :: l, a, ha, h, x, hx => by
    rcases List.mem_cons.1 hx with rfl | hx
    · exact ha
    · exact adjPath_valid h.1.1.2.1 h.2 x hx

theorem adjPath_mono {W : Nat} {ok ok' : Coord → Prop} (hok : ∀ c, Valid W c → ok c → ok' c) :
    ∀ {l : List Coord}, AdjPath W ok l → AdjPath W ok' l
  | [], h => h
  | [_], _ => trivial
  | _ :: _ :: _, h => ⟨⟨h.1.1, hok _ h.1.1.2.1 h.1.2⟩, adjPath_mono hok h.2⟩

/-! ## The measure -/

/-- There is a walk of `n` steps to a wall of interest. -/
def HasWalk (W : Nat) (start : Coord) (goals : List Coord) (cur : Coord) (ws : Coord → WallState)
    (n : Nat) : Prop :=
  ∃ path, plan W start goals (optimistic ws) = .ok (some path) ∧
    ∃ walk t, AdjPath W (fun c => ws c ≠ .checked true) (cur :: walk) ∧
      (cur :: walk).getLast? = some t ∧ t ≠ cur ∧
      Interesting (fun x => ws x = .unchecked) path t ∧ walk.length = n

open Classical in
/-- Distance to the nearest wall of interest. -/
noncomputable def dist (W : Nat) (start : Coord) (goals : List Coord) (cur : Coord)
    (ws : Coord → WallState) : Nat :=
  sInf {n | HasWalk W start goals cur ws n}

open Classical in
/-- One if the first candidate is behind the robot. -/
noncomputable def behind (W : Nat) (start : Coord) (goals : List Coord) (s : SearchState)
    (ws : Coord → WallState) : Nat :=
  if ∃ cmd c s', explore W start goals s.coord ws = .ok (.ok (some cmd)) ∧
    cmd.candidates.head? = some c ∧ s.update c = .ok (s', some .back) then 1 else 0

/-- Number of unknown walls. -/
def unknowns (W : Nat) (ws : Coord → WallState) : Nat :=
  ((univ W).filter fun c => decide (ws c = .unchecked)).length

theorem unknowns_le {W : Nat} (hW : Supported W) (ws) : unknowns W ws ≤ 2 * W * W :=
  Nat.le_trans (List.length_filter_le _ _)
    (valid_length_le hW (univ_nodup W) (fun _ h => mem_univ.1 h))

theorem dist_le {W start goals cur} (hW : Supported W) (hc : Valid W cur) (ws) :
    dist W start goals cur ws ≤ 2 * W * W := by
  unfold dist
  by_cases h : ∃ n, HasWalk W start goals cur ws n
  · have := Nat.sInf_mem h
    obtain ⟨path, hp, walk, t, h1, h2, h3, h4, h5⟩ := this
    obtain ⟨l', e1, e2, e3, e4⟩ := adjPath_shorten h1 h2
    have h6 : sInf {n | HasWalk W start goals cur ws n} ≤ l'.length :=
      Nat.sInf_le ⟨path, hp, l', t, e1, e2, h3, h4, rfl⟩
    have h7 := valid_length_le hW e3 (adjPath_valid hc e1)
    simp at h7
    omega
  · have : {n | HasWalk W start goals cur ws n} = ∅ := by
      ext n; simp; exact fun hn => h ⟨n, hn⟩
    rw [this, Nat.sInf_empty]; omega

theorem behind_le {W start goals s ws} : behind W start goals s ws ≤ 1 := by
  unfold behind; split <;> omega

noncomputable def effort (W : Nat) (start : Coord) (goals : List Coord)
    (a : SearchState × (Coord → WallState)) : Nat :=
  unknowns W a.2 * (2 * (2 * W * W) + 2) + 2 * dist W start goals a.1.coord a.2 +
    behind W start goals a.1 a.2

theorem filter_length_lt {α : Type} {p q : α → Bool} : ∀ {l : List α}, (∀ x ∈ l, q x = true → p x = true) →
    (∃ x ∈ l, p x = true ∧ q x = false) → (l.filter q).length < (l.filter p).length
  | [], _, h => by simp at h
  | a :: l, h1, h2 => by
    have hle : (l.filter q).length ≤ (l.filter p).length :=
      (List.monotone_filter_right' l h1).length_le
    obtain ⟨x, hx, hp, hq⟩ := h2
    rcases List.mem_cons.1 hx with rfl | hx
    · simp [List.filter_cons, hp, hq]; omega
    · have ih := filter_length_lt (l := l) (fun x hx => h1 x (by simp [hx])) ⟨x, hx, hp, hq⟩
      have := h1 a (by simp)
      cases hqa : q a <;> cases hpa : p a <;> simp_all [List.filter_cons] <;> omega
where
  List.monotone_filter_right' (l : List α) {p q : α → Bool} {a : α}
      (h : ∀ x ∈ a :: l, q x = true → p x = true) : (l.filter q).Sublist (l.filter p) := by
    induction l with
    | nil => simp
    | cons b l ih =>
      have hb := h b (by simp)
      have ih' := ih (fun x hx => h x (by simp at hx ⊢; tauto))
      cases hqb : q b <;> cases hpb : p b <;> simp_all [List.filter_cons]

/-- What is kept by the loop. -/
structure Good (W : Nat) (a : SearchState × (Coord → WallState)) : Prop where
  robot : Consistent W a.1
  table : SlotConsistent W a.2

/-- No new knowledge: the loop looks at the same map. -/
theorem looked_eq {W : Nat} {ws ws' : Coord → WallState} (hs : SlotConsistent W ws)
    (hs' : SlotConsistent W ws') (he : Extends ws ws')
    (hno : ¬ ∃ d, Valid W d ∧ ws d = .unchecked ∧ ws' d ≠ .unchecked) :
    ∀ x, Looked W x → ws x = ws' x := by
  have hv : ∀ d, Valid W d → ws d = ws' d := by
    intro d hd
    by_cases hu : ws d = .unchecked
    · by_contra hne
      refine hno ⟨d, hd, hu, fun h => hne (by rw [hu, h])⟩
    · exact (he d hu).symm
  intro x hx
  rcases id hx with h | ⟨h1, h2, h3, h4⟩
  · exact hv x h
  · have hc : Valid W ⟨x.x + 1, x.y⟩ := ⟨by simp; omega, h4, by simp; omega⟩
    have hsl : SlotOf x ⟨x.x + 1, x.y⟩ := .inr ⟨h1, h2, rfl⟩
    rw [hs x _ hx hc hsl, hs' x _ hx hc hsl, hv _ hc]

theorem step_decreases {W start goals} (h : Request W start goals)
    {a b : SearchState × (Coord → WallState)} (ha : Good W a) (hab : ExploreStep W start goals a b) :
    Good W b ∧ effort W start goals b < effort W start goals a := by
  cases hab with
  | @mk s s' ws ws' cmd c k hex hext hslot hnext hupd =>
    have hs := ha.robot
    simp only at hs
    obtain ⟨hnd, -, hmem, ⟨path, hplan, first, rest, hfirst, hwalk, ⟨t, ht1, ht2, ht3⟩, hmin⟩, -⟩ :=
      C18_candidates h hs.1 ws cmd hex
    obtain ⟨before, after, hcs, hcf, hbef⟩ := ((C20_next_coordinate cmd ws').1 c).1 hnext
    have hcm : c ∈ cmd.candidates := by rw [hcs]; simp
    have hadj := ((hmem c).1 hcm).1
    have hcv := hadj.2.1
    obtain ⟨s1, k1, u1, u2, u3, u4, u5, u6⟩ := update_total h.width hs hcv
    rw [hupd] at u1
    simp only [Except.ok.injEq, Prod.mk.injEq] at u1
    obtain ⟨rfl, rfl⟩ := u1
    refine ⟨⟨u2, hslot⟩, ?_⟩
    unfold effort
    simp only
    have hd1 := dist_le (start := start) (goals := goals) h.width hs.1 ws
    have hd2 := dist_le (start := start) (goals := goals) h.width u2.1 ws'
    have hb1 := @behind_le W start goals s ws
    have hb2 := @behind_le W start goals s' ws'
    by_cases hnew : ∃ d, Valid W d ∧ ws d = .unchecked ∧ ws' d ≠ .unchecked
    · have hlt : unknowns W ws' < unknowns W ws := by
        unfold unknowns
        apply filter_length_lt
        · intro x _ hx
          simp only [decide_eq_true_eq] at hx ⊢
          by_contra hne
          rw [hext x hne] at hx; exact hne hx
        · obtain ⟨d, d1, d2, d3⟩ := hnew
          exact ⟨d, mem_univ.2 d1, by simp [d2], by simp [d3]⟩
      have : (unknowns W ws' + 1) * (2 * (2 * W * W) + 2) ≤ unknowns W ws * (2 * (2 * W * W) + 2) :=
        Nat.mul_le_mul_right _ hlt
      rw [Nat.add_mul] at this
      omega
    · have heq : ∀ x, Looked W x → ws x = ws' x := looked_eq ha.table hslot hext hnew
      have hex' : explore W start goals s.coord ws' = .ok (.ok (some cmd)) := by
        rw [← hex]; exact (C17_search_looked h hs.1 heq).symm
      have hplan' : plan W start goals (optimistic ws') = .ok (some path) := by
        rw [← hplan]; exact (plan_optimistic_congr h heq).symm
      have hU : unknowns W ws' = unknowns W ws := by
        unfold unknowns
        congr 1
        apply List.filter_congr
        intro x hx
        rw [heq x (.inl (mem_univ.1 hx))]
      -- the commanded coordinate is the first candidate
      have hcfirst : c = first := by
        cases before with
        | nil => rw [hcs] at hfirst; simpa using hfirst
        | cons b bs =>
          exfalso
          have hb : b ∈ cmd.candidates := by rw [hcs]; simp
          obtain ⟨b1, b2⟩ := (hmem b).1 hb
          apply b2
          rw [heq b (.inl b1.2.1)]
          exact hbef b (by simp)
      subst hcfirst
      have hD : dist W start goals s.coord ws = (c :: rest).length := by
        apply Nat.le_antisymm
        · refine Nat.sInf_le ⟨path, hplan, c :: rest, t, hwalk, ?_, ht2, ht3, rfl⟩
          simpa using ht1
        · refine le_csInf ⟨_, path, hplan, c :: rest, t, hwalk, by simpa using ht1, ht2, ht3, rfl⟩ ?_
          rintro n ⟨path', hp', walk, t', w1, w2, w3, w4, rfl⟩
          rw [hplan] at hp'
          simp only [Except.ok.injEq, Option.some.injEq] at hp'
          subst hp'
          exact hmin walk t' w1 w2 w3 w4
      by_cases hk : k = some .back
      · subst hk
        obtain ⟨rfl, q, hq, hsa⟩ := u5 rfl
        have hB1 : behind W start goals s ws = 1 := by
          unfold behind
          rw [if_pos ⟨cmd, c, _, hex, hfirst, hupd⟩]
        have hB2 : behind W start goals ⟨s.coord, opposite s.posture⟩ ws' = 0 := by
          unfold behind
          rw [if_neg]
          rintro ⟨cmd', c', s2, e1, e2, e3⟩
          simp only at e1
          rw [hex'] at e1
          simp only [Except.ok.injEq, Option.some.injEq] at e1
          subst e1
          rw [hfirst] at e2
          simp only [Option.some.injEq] at e2
          subst e2
          obtain ⟨s3, k3, f1, f2, -⟩ := update_after_back h.width hs hcv hupd
          rw [f1] at e3
          simp only [Except.ok.injEq, Prod.mk.injEq, Option.some.injEq] at e3
          exact f2 e3.2
        have hD2 : dist W start goals s.coord ws' ≤ (c :: rest).length := by
          refine Nat.sInf_le ⟨path, hplan', c :: rest, t,
            adjPath_mono (fun x hx hok => by rw [← heq x (.inl hx)]; exact hok) hwalk,
            by simpa using ht1, ht2, (interesting_congr h heq hplan).1 ht3, rfl⟩
        rw [hU, hD]
        simp only at hB2 ⊢
        omega
      · have hkn : k ≠ none := fun hk' => (u3 hk').2 hadj
        have hco := u6 hk hkn
        have htc : t ≠ c := by
          rintro rfl
          obtain ⟨x, x1, x2, x3⟩ := ht3
          have hxl := plan_looked h hplan x1
          have := ha.table x t hxl hcv x3
          simp only at x2 this
          rw [x2, heq t (.inl hcv), hcf] at this
          cases this
        have hD2 : dist W start goals s'.coord ws' ≤ rest.length := by
          rw [hco]
          refine Nat.sInf_le ⟨path, hplan', rest, t,
            adjPath_mono (fun x hx hok => by rw [← heq x (.inl hx)]; exact hok) hwalk.2,
            ht1, htc, (interesting_congr h heq hplan).1 ht3, rfl⟩
        rw [hU, hD]
        simp only [List.length_cons]
        omega

/-- A run of the loop: a list of successive states. -/
def Execution (W : Nat) (start : Coord) (goals : List Coord) :
    List (SearchState × (Coord → WallState)) → Prop
  | a :: b :: l => ExploreStep W start goals a b ∧ Execution W start goals (b :: l)
  | _ => True

theorem execution_length {W start goals} (h : Request W start goals) :
    ∀ (l : List (SearchState × (Coord → WallState))) (a), Good W a →
      Execution W start goals (a :: l) → l.length ≤ effort W start goals a
  | [], _, _, _ => by simp
  | b :: l, a, ha, he => by
    obtain ⟨h1, h2⟩ := step_decreases h ha he.1
    have := execution_length h l b h1 he.2
    simp only [List.length_cons]; omega

/-- **C24.** Whatever the sensors report (as long as known walls stay known), the exploration loop makes
a bounded number of rounds, so it ends with `Ok(None)`, an error, or a commander whose walls are never
sensed; and in between every commanded move is executed. -/
theorem C24_terminates {W start goals} (h : Request W start goals) (s : SearchState)
    (hs : Valid W s.coord) (hf : Faces s.coord s.posture) (ws : Coord → WallState)
    (hw : SlotConsistent W ws) :
    (∀ l, Execution W start goals ((s, ws) :: l) →
      l.length ≤ (2 * W * W) * (2 * (2 * W * W) + 2) + 2 * (2 * W * W) + 1) ∧
    Acc (fun b a => ExploreStep W start goals a b) (s, ws) := by
  constructor
  · intro l hl
    have hg : Good W (s, ws) := ⟨⟨hs, hf⟩, hw⟩
    have h1 := execution_length h l (s, ws) hg hl
    unfold effort at h1
    simp only at h1
    have h2 := unknowns_le h.width ws
    have h3 := dist_le (start := start) (goals := goals) h.width hs ws
    have h4 := @behind_le W start goals s ws
    have h5 := Nat.mul_le_mul_right (2 * (2 * W * W) + 2) h2
    omega
  · have : ∀ n a, Good W a → effort W start goals a = n →
        Acc (fun b a => ExploreStep W start goals a b) a := by
      intro n
      induction n using Nat.strongRecOn with
      | ind n ih =>
        intro a ha hn
        constructor
        intro b hab
        obtain ⟨h1, h2⟩ := step_decreases h ha hab
        exact ih _ (hn ▸ h2) b h1 rfl
    exact this _ _ ⟨⟨hs, hf⟩, hw⟩ rfl

/-- **C24 (progress).** The loop can only stop where the code stops it: as long as `search` returns a
commander and the sensors decide, there is a next round. -/
theorem C24_progress {W start goals} (h : Request W start goals) (s : SearchState)
    (hs : Valid W s.coord) (hf : Faces s.coord s.posture) (ws ws' : Coord → WallState)
    (cmd : Commander) (hex : explore W start goals s.coord ws = .ok (.ok (some cmd)))
    (hext : Extends ws ws') (hslot : SlotConsistent W ws') (c : Coord)
    (hn : cmd.nextCoordinate ws' = .ok (some c)) :
    ∃ s', ExploreStep W start goals (s, ws) (s', ws') := by
  obtain ⟨s', k, h1, -⟩ := C22_executable h (s := s) ⟨hs, hf⟩ ws ws' cmd hex c (.inl hn)
  exact ⟨s', .mk hex hext hslot hn h1⟩

end Verif.Props
