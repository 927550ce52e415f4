import Verif.Proof.Neighbors
/-! # `bfs_tree` simulates the abstract breadth first search -/
namespace Verif.Grid
open Verif Verif.Search Verif.Spec Verif.Bfs

/-! ## Filters -/

/-- Bit `i` of a filter. -/
def fbit (f : Filter) (i : Nat) : Bool := (f (i / 8)).getLsbD (i % 8)

theorem and7 (i : Nat) : i &&& 7 = i % 8 := by
  have := Nat.and_two_pow_sub_one_eq_mod i 3
  simpa using this

theorem bit_test (b : BitVec 8) (k : Nat) : ((b >>> k) &&& 1#8 == 1#8) = b.getLsbD k := by
  rw [Bool.eq_iff_iff, beq_iff_eq]
  constructor
  · intro h
    have := congrArg (fun v => v.getLsbD 0) h
    simpa using this
  · intro h
    apply BitVec.eq_of_getLsbD_eq
    intro i hi
    by_cases h0 : i = 0
    · subst h0; simpa using h
    · have : (1#8).getLsbD i = false := by simp [BitVec.getLsbD_one, h0]
      simp [this]

theorem contains_eq {W : Nat} {f : Filter} {c : Coord} (h : c.asIndex W < 2048) :
    f.contains W c = .ok (fbit f (c.asIndex W)) := by
  unfold Filter.contains arrGet
  have h1 : c.asIndex W >>> 3 = c.asIndex W / 8 := by simp [Nat.shiftRight_eq_div_pow]
  have h2 : c.asIndex W / 8 < FIL_LEN := by have : FIL_LEN = 256 := rfl; omega
  simp only [h1, h2, if_true, bind, Except.bind, and7, bit_test]
  rfl

theorem set_eq {W : Nat} {f : Filter} {c : Coord} (h : c.asIndex W < 2048) :
    ∃ f', f.set W c = .ok f' ∧ ∀ i, fbit f' i = (decide (i = c.asIndex W) || fbit f i) := by
  unfold Filter.set arrGet arrSet
  have h1 : c.asIndex W >>> 3 = c.asIndex W / 8 := by simp [Nat.shiftRight_eq_div_pow]
  have h2 : c.asIndex W / 8 < FIL_LEN := by have : FIL_LEN = 256 := rfl; omega
  simp only [h1, h2, if_true, bind, Except.bind, and7]
  refine ⟨_, rfl, ?_⟩
  intro i
  unfold fbit
  by_cases hi : i / 8 = c.asIndex W / 8
  · simp only [hi, if_true, BitVec.getLsbD_or]
    rw [Bool.or_comm]
    congr 1
    rw [BitVec.getLsbD_shiftLeft]
    by_cases hm : i % 8 = c.asIndex W % 8
    · have : i = c.asIndex W := by omega
      simp [hm, this]; omega
    · have : i ≠ c.asIndex W := by rintro rfl; exact hm rfl
      simp only [this, decide_false]
      rw [Bool.and_eq_false_iff]
      by_cases hlt : i % 8 < c.asIndex W % 8
      · left; simp [hlt]
      · right; rw [BitVec.getLsbD_one]; simp; omega
  · have : i ≠ c.asIndex W := by rintro rfl; exact hi rfl
    simp [hi, this]

theorem withCoord_eq {W : Nat} (goals : List Coord) (f : Filter)
    (h : ∀ g ∈ goals, g.asIndex W < 2048) :
    ∃ f', goals.foldlM (Filter.set W) f = .ok f' ∧
      ∀ i, fbit f' i = true ↔ fbit f i = true ∨ ∃ g ∈ goals, g.asIndex W = i := by
  induction goals generalizing f with
  | nil => exact ⟨f, rfl, by simp⟩
  | cons g gs ih =>
    obtain ⟨f1, h1, h2⟩ := set_eq (f := f) (h g (by simp))
    obtain ⟨f2, h3, h4⟩ := ih f1 (fun g hg => h g (by simp [hg]))
    refine ⟨f2, ?_, ?_⟩
    · simp only [List.foldlM, bind, Except.bind, h1]; exact h3
    · intro i
      rw [h4, h2]
      simp only [Bool.or_eq_true, decide_eq_true_eq, List.mem_cons, exists_eq_or_imp]
      constructor
      · rintro ((h | h) | h) <;> tauto
      · rintro (h | h | h) <;> tauto

theorem searcher_new {W : Nat} (hW : Supported W) (start : Coord) (goals : List Coord)
    (hg : ∀ g ∈ goals, Valid W g) :
    ∃ f, Searcher.new W start goals = .ok ⟨start, f⟩ ∧
      ∀ c, Valid W c → (fbit f (c.asIndex W) = true ↔ c ∈ goals) := by
  obtain ⟨f, h1, h2⟩ := withCoord_eq (W := W) goals Filter.new
    (fun g h => asIndex_lt_que hW (hg g h))
  refine ⟨f, ?_, ?_⟩
  · simp [Searcher.new, Filter.withCoord, h1, bind, Except.bind, pure, Except.pure]
  · intro c hc
    rw [h2]
    constructor
    · rintro (h | ⟨g, hgm, hi⟩)
      · simp [fbit, Filter.new] at h
      · rw [← asIndex_inj hW (hg g hgm) hc hi]; exact hgm
    · intro h; exact .inr ⟨c, h, rfl⟩

/-! ## Predecessor chains -/

/-- Following `prev` from `v` back to `s` gives the path `p` (from `s` to `v`). -/
inductive PrevPath (W : Nat) (prev : Nat → Option Coord) (s : Coord) : Coord → List Coord → Prop
  | base : prev (s.asIndex W) = some s → PrevPath W prev s s [s]
  | step {u v p} : prev (v.asIndex W) = some u → v ≠ s → PrevPath W prev s u p →
      PrevPath W prev s v (p ++ [v])

theorem PrevPath.mono {W prev prev' s v p} (h : PrevPath W prev s v p)
    (hm : ∀ i u, prev i = some u → prev' i = some u) : PrevPath W prev' s v p := by
  induction h with
  | base h => exact .base (hm _ _ h)
  | step h hne _ ih => exact .step (hm _ _ h) hne ih

theorem PrevPath.unique {W prev s v p p'} (h : PrevPath W prev s v p) (h' : PrevPath W prev s v p') :
    p = p' := by
  induction h generalizing p' with
  | base h =>
    cases h' with
    | base _ => rfl
    | step _ hne _ => exact absurd rfl hne
  | step h hne _ ih =>
    cases h' with
    | base _ => exact absurd rfl hne
    | step h2 _ h3 =>
      rw [h] at h2
      cases h2
      rw [ih h3]

theorem PrevPath.sub {W prev s v p} (h : PrevPath W prev s v p) :
    ∀ x ∈ p, ∃ q, PrevPath W prev s x q ∧ q.length ≤ p.length := by
  induction h with
  | base h => intro x hx; simp only [List.mem_singleton] at hx; subst hx; exact ⟨_, .base h, by simp⟩
  | step h hne h' ih =>
    intro x hx
    simp only [List.mem_append, List.mem_singleton] at hx
    rcases hx with hx | rfl
    · obtain ⟨q, h1, h2⟩ := ih x hx
      exact ⟨q, h1, by simp; omega⟩
    · exact ⟨_, .step h hne h', by simp⟩

theorem PrevPath.nodup {W prev s v p} (h : PrevPath W prev s v p) : p.Nodup := by
  induction h with
  | base _ => simp
  | @step u v p h hne h' ih =>
    rw [List.nodup_append]
    refine ⟨ih, by simp, ?_⟩
    rintro a ha b hb rfl
    simp only [List.mem_singleton] at hb; subst hb
    obtain ⟨q, h1, h2⟩ := h'.sub a ha
    have := h1.unique (.step h hne h')
    subst this
    simp at h2

theorem PrevPath.last {W prev s v p} (h : PrevPath W prev s v p) : p.getLast? = some v := by
  cases h <;> simp

/-! ## Pruned adjacency lists -/

/-- `l'` is `l` without some elements that satisfy `vis`. -/
inductive Pruned (vis : Coord → Prop) : List Coord → List Coord → Prop
  | nil : Pruned vis [] []
  | keep {a l l'} : Pruned vis l l' → Pruned vis (a :: l) (a :: l')
  | drop {a l l'} : vis a → Pruned vis l l' → Pruned vis (a :: l) l'

theorem Pruned.mono {vis vis' : Coord → Prop} (h : ∀ a, vis a → vis' a) {l l'}
    (hp : Pruned vis l l') : Pruned vis' l l' := by
  induction hp with
  | nil => exact .nil
  | keep _ ih => exact .keep ih
  | drop ha _ ih => exact .drop (h _ ha) ih

theorem Pruned.refl {vis} : ∀ l, Pruned vis l l
  | [] => .nil
  | _ :: l => .keep (Pruned.refl l)

theorem Pruned.all {vis} : ∀ l, (∀ a ∈ l, vis a) → Pruned vis l []
  | [], _ => .nil
  | _ :: l, h => .drop (h _ (by simp)) (Pruned.all l fun a ha => h a (by simp [ha]))

theorem Pruned.append {vis l l' m m'} (h : Pruned vis l l') (h' : Pruned vis m m') :
    Pruned vis (l ++ m) (l' ++ m') := by
  induction h with
  | nil => exact h'
  | keep _ ih => exact .keep ih
  | drop ha _ ih => exact .drop ha ih

theorem gFor_pruned {goal : Coord → Bool} {pu : List Coord} {l l' : List Coord} {st : GState Coord}
    (h : Pruned (fun v => (st.pth v).isSome = true) l l') :
    gFor goal pu l st = gFor goal pu l' st := by
  induction l generalizing l' st with
  | nil => cases h; rfl
  | cons a l ih =>
    cases h with
    | keep h =>
      unfold gFor
      split
      · exact ih h
      · split
        · rfl
        · apply ih
          refine h.mono ?_
          intro b hb
          simp only [upd]
          split <;> simp_all
    | drop ha h =>
      conv_lhs => unfold gFor
      simp only [ha, if_true]
      exact ih h

/-! ## Simulation -/

/-- The concrete state represents the abstract one. -/
structure Rel (W : Nat) (s : Coord) (cs : BfsState) (gs : GState Coord) : Prop where
  que : cs.que = gs.que
  vis : ∀ v, Valid W v → ((cs.prev (v.asIndex W)).isSome = (gs.pth v).isSome)
  path : ∀ v p, gs.pth v = some p → Valid W v ∧ PrevPath W cs.prev s v p
  nodup : gs.que.Nodup
  queVis : ∀ v ∈ gs.que, (gs.pth v).isSome = true

theorem bfsFor_sim {W : Nat} (hW : Supported W) {s u : Coord} {pu : List Coord} {goalF : Filter}
    {goal : Coord → Bool} (hgoal : ∀ c, Valid W c → fbit goalF (c.asIndex W) = goal c) :
    ∀ (l : List (Coord × Kind)) (cs : BfsState) (gs : GState Coord), Rel W s cs gs →
    (∀ x ∈ l, Valid W x.1) → gs.pth u = some pu →
    match gFor goal pu (l.map Prod.fst) gs with
    | .cont gs' => ∃ cs', bfsFor W goalF u l cs = .ok (.cont cs') ∧ Rel W s cs' gs' ∧
        (∀ v, Valid W v → ∀ k, cs'.kinds (v.asIndex W) k = true →
          cs.kinds (v.asIndex W) k = true ∨ (v, k) ∈ l)
    | .found p => ∃ prev v, bfsFor W goalF u l cs = .ok (.found prev v) ∧ Valid W v ∧
        PrevPath W prev s v p
  | [], cs, gs, hR, _, _ => ⟨cs, rfl, hR, fun v hv k h => .inl h⟩
  | (v, k) :: l, cs, gs, hR, hl, hpu => by
    have hv : Valid W v := hl (v, k) (by simp)
    have hi : v.asIndex W < QUE_MAX := asIndex_lt_que hW hv
    simp only [List.map_cons]
    unfold gFor bfsFor
    simp only [arrGet, arrSet, hi, if_true, bind, Except.bind]
    have hvis := hR.vis v hv
    by_cases hs : (gs.pth v).isSome = true
    · simp only [hs, if_true, hvis]
      have hR' : Rel W s ⟨cs.que, cs.prev, fun j => if j = v.asIndex W then
          fun k' => if k' = k then true else cs.kinds (v.asIndex W) k' else cs.kinds j⟩ gs :=
        ⟨hR.que, hR.vis, hR.path, hR.nodup, hR.queVis⟩
      have ih := bfsFor_sim hW hgoal l _ gs hR' (fun x hx => hl x (by simp [hx])) hpu
      revert ih
      cases gFor goal pu (l.map Prod.fst) gs with
      | found p => exact fun h => h
      | cont gs' =>
        rintro ⟨cs', h1, h2, h3⟩
        refine ⟨cs', h1, h2, ?_⟩
        intro w hw k' hk'
        rcases h3 w hw k' hk' with h | h
        · simp only at h
          by_cases hwv : w.asIndex W = v.asIndex W
          · have := asIndex_inj hW hw hv hwv
            subst this
            simp only [if_true] at h
            by_cases hkk : k' = k
            · subst hkk; right; simp
            · simp only [hkk, if_false] at h; exact .inl h
          · simp only [hwv, if_false] at h; exact .inl h
        · right; simp [h]
    · have hs' : (gs.pth v).isSome = false := by simpa using hs
      rw [hs'] at hvis
      simp only [hs', hvis, Bool.false_eq_true, if_false]
      rw [contains_eq hi, hgoal v hv]
      have hvs : v ≠ s := by
        rintro rfl
        obtain ⟨-, hp⟩ := hR.path u pu hpu
        have : ∀ {x q}, PrevPath W cs.prev v x q → (cs.prev (v.asIndex W)).isSome = true := by
          intro x q h
          induction h with
          | base h => simp [h]
          | step _ _ _ ih => exact ih
        rw [hvis] at this
        exact absurd (this hp) (by simp)
      have hmono : ∀ i w, cs.prev i = some w →
          (if i = v.asIndex W then some u else cs.prev i) = some w := by
        intro i w h
        by_cases hiv : i = v.asIndex W
        · subst hiv; simp [h] at hvis
        · simp [hiv, h]
      have hpp : PrevPath W (fun j => if j = v.asIndex W then some u else cs.prev j) s v
          (pu ++ [v]) :=
        .step (by simp) hvs ((hR.path u pu hpu).2.mono hmono)
      by_cases hg : goal v = true
      · simp only [hg, if_true]
        exact ⟨_, v, rfl, hv, hpp⟩
      · have hg' : goal v = false := by simpa using hg
        simp only [hg', Bool.false_eq_true, if_false]
        have hnd : (gs.que ++ [v]).Nodup := by
          rw [List.nodup_append]
          refine ⟨hR.nodup, by simp, ?_⟩
          rintro a ha b hb rfl
          simp only [List.mem_singleton] at hb; subst hb
          have := hR.queVis a ha
          rw [hs'] at this; exact absurd this (by simp)
        have hcap : cs.que.length < QUE_MAX := by
          have h1 := valid_length_le hW hnd (by
            intro c hc
            simp only [List.mem_append, List.mem_singleton] at hc
            rcases hc with hc | rfl
            · obtain ⟨p, hp⟩ := Option.isSome_iff_exists.1 (hR.queVis c hc)
              exact (hR.path c p hp).1
            · exact hv)
          have h2 := sq_le hW
          have h3 : QUE_MAX = 2048 := rfl
          rw [hR.que]; simp at h1; omega
        simp only [pushCap, hcap, if_true]
        have hR' : Rel W s ⟨cs.que ++ [v], fun j => if j = v.asIndex W then some u else cs.prev j,
            fun j => if j = v.asIndex W then
              fun k' => if k' = k then true else cs.kinds (v.asIndex W) k' else cs.kinds j⟩
            ⟨gs.que ++ [v], upd gs.pth v (pu ++ [v])⟩ := by
          refine ⟨by simp [hR.que], ?_, ?_, hnd, ?_⟩
          · intro w hw
            by_cases hwv : w = v
            · subst hwv; simp [upd]
            · have : w.asIndex W ≠ v.asIndex W := fun h => hwv (asIndex_inj hW hw hv h)
              simp only [this, if_false, upd, hwv]; exact hR.vis w hw
          · intro w p hp
            by_cases hwv : w = v
            · subst hwv
              simp only [upd, if_true, Option.some.injEq] at hp
              subst hp; exact ⟨hv, hpp⟩
            · simp only [upd, hwv, if_false] at hp
              obtain ⟨h1, h2⟩ := hR.path w p hp
              exact ⟨h1, h2.mono hmono⟩
          · intro w hw
            simp only [List.mem_append, List.mem_singleton] at hw
            by_cases hwv : w = v
            · simp [upd, hwv]
            · simp only [upd, hwv, if_false]; exact hR.queVis w (by simpa [hwv] using hw)
        have huv : u ≠ v := by rintro rfl; simp [hpu] at hs'
        have ih := bfsFor_sim hW hgoal l _ _ hR' (fun x hx => hl x (by simp [hx]))
          (by simp [upd, huv, hpu] : upd gs.pth v (pu ++ [v]) u = some pu)
        revert ih
        cases gFor goal pu (l.map Prod.fst) ⟨gs.que ++ [v], upd gs.pth v (pu ++ [v])⟩ with
        | found p => exact fun h => h
        | cont gs' =>
          rintro ⟨cs', h1, h2, h3⟩
          refine ⟨cs', h1, h2, ?_⟩
          intro w hw k' hk'
          rcases h3 w hw k' hk' with h | h
          · simp only at h
            by_cases hwv : w.asIndex W = v.asIndex W
            · have := asIndex_inj hW hw hv hwv
              subst this
              simp only [if_true] at h
              by_cases hkk : k' = k
              · subst hkk; right; simp
              · simp only [hkk, if_false] at h; exact .inl h
            · simp only [hwv, if_false] at h; exact .inl h
          · right; simp [h]

theorem adjEx_pruned {W : Nat} {free : Coord → Bool} {c : Coord} {ex : Kind → Bool}
    {vis : Coord → Prop} (h : ∀ k, ex k = true → ∀ w ∈ lineK W free c k, vis w) :
    Pruned vis (adj W free c) ((adjEx W free c ex).map Prod.fst) := by
  unfold adj adjEx
  have : ∀ k, Pruned vis (lineK W free c k)
      (if ex k then [] else (lineK W free c k).map fun d => (d, k) : List (Coord × Kind)).unzip.1 := by
    intro k
    cases hk : ex k with
    | true => simpa using Pruned.all _ (h k hk)
    | false => simpa [Function.comp_def] using Pruned.refl _
  simp only [List.map_append]
  simp only [List.unzip_fst] at this
  exact ((this _).append (this _)).append (this _)

theorem adjEx_mem {W : Nat} {free : Coord → Bool} {c v : Coord} {ex : Kind → Bool} {k : Kind}
    (h : (v, k) ∈ adjEx W free c ex) : v ∈ lineK W free c k := by
  unfold adjEx at h
  simp only [List.mem_append] at h
  rcases h with (h | h) | h <;>
  · split at h
    · simp at h
    · obtain ⟨d, hd, he⟩ := List.mem_map.1 h
      cases he; exact hd

theorem lineK_sub_adj {W : Nat} {free : Coord → Bool} {c v : Coord} {k : Kind}
    (h : v ∈ lineK W free c k) : v ∈ adj W free c := by
  unfold adj; cases k <;> simp [h]

theorem bfsLoop_sim {W : Nat} (hW : Supported W) {s : Coord} {goalF : Filter}
    {goal : Coord → Bool} (hgoal : ∀ c, Valid W c → fbit goalF (c.asIndex W) = goal c)
    {isWall : Coord → Bool} :
    ∀ (n : Nat) (done : List Coord) (cs : BfsState) (gs : GState Coord), Rel W s cs gs →
    LInv (adj W (fun c => !isWall c)) goal s done gs →
    (∀ v, Valid W v → ∀ k, cs.kinds (v.asIndex W) k = true →
      ∃ u ∈ done, v ∈ lineK W (fun c => !isWall c) u k) →
    match gLoop (adj W (fun c => !isWall c)) goal n gs with
    | none => True
    | some none => bfsLoop W goalF isWall n cs = .ok none
    | some (some p) => ∃ prev v, bfsLoop W goalF isWall n cs = .ok (some (prev, v)) ∧ Valid W v ∧
        PrevPath W prev s v p
  | 0, _, _, _, _, _, _ => by simp [gLoop]
  | n + 1, done, cs, gs, hR, hL, hK => by
    unfold gLoop bfsLoop
    rw [hR.que]
    rcases hq : gs.que with _ | ⟨u, q⟩
    · simp
    · simp only
      have hvu : (gs.pth u).isSome := (hL.vis u).2 (by simp [hq])
      obtain ⟨pu, hpu⟩ := Option.isSome_iff_exists.1 hvu
      have huv : Valid W u := (hR.path u pu hpu).1
      have hi := asIndex_lt_que hW huv
      have hW' := hW.le
      rw [hpu]
      simp only [Option.getD_some, arrGet, hi, if_true, bind, Except.bind]
      rw [extendedNeighbors_eq hW' ⟨huv.1, huv.2.1⟩]
      simp only
      have hR1 : Rel W s ⟨q, cs.prev, cs.kinds⟩ ⟨q, gs.pth⟩ :=
        ⟨rfl, hR.vis, hR.path, by have := hR.nodup; rw [hq] at this; exact (List.nodup_cons.1 this).2,
          fun v hv => hR.queVis v (by simp [hq, hv])⟩
      have hpr : Pruned (fun v => (gs.pth v).isSome = true) (adj W (fun c => !isWall c) u)
          ((adjEx W (fun c => !isWall c) u (cs.kinds (u.asIndex W))).map Prod.fst) := by
        apply adjEx_pruned
        intro k hk w hw
        obtain ⟨x, hx, hxl⟩ := hK u huv k hk
        have hxvis := (hL.vis x).2 (by simp [hx])
        obtain ⟨px, hpx⟩ := Option.isSome_iff_exists.1 hxvis
        rcases lineK_trans hW' (hR.path x px hpx).1 hxl hw with h | h
        · subst h; exact hxvis
        · exact (hL.closed x hx w (lineK_sub_adj h)).1
      have hgf := gFor_pruned (goal := goal) (pu := pu) (st := ⟨q, gs.pth⟩) hpr
      have hF := gFor_spec (adj W (fun c => !isWall c) u) [] _ (hL.toFInv hq) (by simp) hpu
      have hsim := bfsFor_sim hW hgoal (adjEx W (fun c => !isWall c) u (cs.kinds (u.asIndex W)))
        ⟨q, cs.prev, cs.kinds⟩ ⟨q, gs.pth⟩ hR1
        (fun x hx => (adj_valid hW' huv (lineK_sub_adj (adjEx_mem hx))).1) hpu
      rw [← hgf] at hsim
      revert hsim hF
      cases gFor goal pu (adj W (fun c => !isWall c) u) ⟨q, gs.pth⟩ with
      | found p =>
        rintro - ⟨prev, v, h1, h2⟩
        exact ⟨prev, v, by rw [h1], h2⟩
      | cont gs' =>
        rintro ⟨hF, -⟩ ⟨cs', h1, h2, h3⟩
        rw [h1]
        refine bfsLoop_sim hW hgoal n (done ++ [u]) cs' gs' h2 hF.toLInv ?_
        intro v hv k hk
        rcases h3 v hv k hk with h | h
        · obtain ⟨x, hx, hxl⟩ := hK v hv k h
          exact ⟨x, by simp [hx], hxl⟩
        · exact ⟨u, by simp, adjEx_mem h⟩

theorem walk_valid {W : Nat} (hW : W ≤ 32) {s : Coord} (hs : Valid W s) {free : Coord → Bool} {v p}
    (h : Walk (adj W free) s v p) : Valid W v := by
  induction h with
  | nil => exact hs
  | snoc _ hv ih => exact (adj_valid hW ih hv).1

/-- All valid coordinates. -/
def univ (W : Nat) : List Coord :=
  ((List.range (2 * W)).flatMap fun x => (List.range (2 * W)).map fun y => ⟨x, y⟩).filter
    fun c => decide (Valid W c)

theorem mem_univ {W : Nat} {c : Coord} : c ∈ univ W ↔ Valid W c := by
  unfold univ
  simp only [List.mem_filter, List.mem_flatMap, List.mem_range, List.mem_map, decide_eq_true_eq]
  constructor
  · exact fun h => h.2
  · intro h
    exact ⟨⟨c.x, h.1, c.y, h.2.1, rfl⟩, h⟩

theorem univ_nodup (W : Nat) : (univ W).Nodup := by
  unfold univ
  apply List.Nodup.filter
  rw [List.nodup_flatMap]
  refine ⟨?_, ?_⟩
  · intro x _
    refine List.Nodup.map ?_ List.nodup_range
    intro a b h; simpa using h
  · refine (List.nodup_range (n := 2 * W)).imp ?_
    intro a b hab
    intro c hc hc'
    simp only [List.mem_map] at hc hc'
    obtain ⟨y, -, rfl⟩ := hc
    obtain ⟨y', -, h⟩ := hc'
    simp at h; exact hab h.1.symm

theorem univ_length {W : Nat} (hW : Supported W) : (univ W).length ≤ 2048 :=
  Nat.le_trans (valid_length_le hW (univ_nodup W) fun _ h => mem_univ.1 h) (sq_le hW)

/-- Result of the abstract search from `start` on the maze. -/
def planOf (W : Nat) (start : Coord) (goal : Coord → Bool) (isWall : Coord → Bool) :
    Option (Option (List Coord)) :=
  gBfs (adj W fun c => !isWall c) goal start (QUE_MAX + 1)

theorem planOf_ne_none {W : Nat} (hW : Supported W) {start : Coord} (hs : Valid W start)
    {goal isWall : Coord → Bool} : planOf W start goal isWall ≠ none := by
  refine gBfs_terminates (univ := univ W) (fun v p h => mem_univ.2 (walk_valid hW.le hs h)) ?_
  have := univ_length hW
  have : QUE_MAX = 2048 := rfl
  omega

theorem bfsTree_sim {W : Nat} (hW : Supported W) {start : Coord} (hs : Valid W start)
    {goalF : Filter} {goal : Coord → Bool}
    (hgoal : ∀ c, Valid W c → fbit goalF (c.asIndex W) = goal c) {isWall : Coord → Bool} :
    match planOf W start goal isWall with
    | none => False
    | some none => Searcher.bfsTree W ⟨start, goalF⟩ isWall = .ok none
    | some (some p) => ∃ prev v, Searcher.bfsTree W ⟨start, goalF⟩ isWall = .ok (some (prev, v)) ∧
        Valid W v ∧ PrevPath W prev start v p := by
  have hi := asIndex_lt_que hW hs
  have hne := planOf_ne_none hW hs (goal := goal) (isWall := isWall)
  have hR : Rel W start ⟨[start], fun j => if j = start.asIndex W then some start else none,
      fun _ _ => false⟩ (gInit start) := by
    refine ⟨rfl, ?_, ?_, by simp [gInit], by simp [gInit]⟩
    · intro v hv
      by_cases hvs : v = start
      · subst hvs; simp [gInit]
      · have : v.asIndex W ≠ start.asIndex W := fun h => hvs (asIndex_inj hW hv hs h)
        simp [gInit, this, hvs]
    · intro v p hp
      simp only [gInit] at hp
      split at hp
      · rename_i h; subst h; cases hp; exact ⟨hs, .base (by simp)⟩
      · simp at hp
  have hsim := bfsLoop_sim hW hgoal (isWall := isWall) (QUE_MAX + 1) [] _ _ hR LInv.init (by simp)
  unfold planOf gBfs at hne ⊢
  unfold Searcher.bfsTree
  have hpc : pushCap QUE_MAX [] start = .ok [start] := by simp [pushCap, QUE_MAX, WIDTH]
  simp only [hpc, arrSet, hi, if_true, bind, Except.bind]
  revert hsim hne
  cases gLoop (adj W fun c => !isWall c) goal (QUE_MAX + 1) (gInit start) with
  | none => simp
  | some o =>
    cases o with
    | none => exact fun _ h => h
    | some p => exact fun _ h => h

theorem pathLoop_eq {W : Nat} (hW : Supported W) {prev : Nat → Option Coord} {s : Coord} :
    ∀ {v p}, PrevPath W prev s v p → (∀ x ∈ p, Valid W x) → ∀ (n : Nat) (acc : List Coord),
    p.length ≤ n → acc.length + p.length ≤ QUE_MAX →
    pathLoop W s prev n v acc = .ok (acc ++ p.reverse) := by
  intro v p h
  induction h with
  | base h =>
    intro hv n acc hn hl
    cases n with
    | zero => simp at hn
    | succ n =>
      have hi := asIndex_lt_que hW (hv s (by simp))
      unfold pathLoop
      simp only [arrGet, hi, if_true, h, bind, Except.bind, pushCap]
      rw [if_pos (by simp at hl; omega)]
      simp
  | @step u v p h hne h' ih =>
    intro hv n acc hn hl
    cases n with
    | zero => simp at hn
    | succ n =>
      have hi := asIndex_lt_que hW (hv v (by simp))
      unfold pathLoop
      simp only [List.length_append, List.length_singleton] at hn hl
      simp only [arrGet, hi, if_true, h, bind, Except.bind, pushCap]
      rw [if_pos (by omega)]
      simp only [hne, if_false]
      rw [ih (fun x hx => hv x (by simp [hx])) n _ (by omega) (by simp; omega)]
      simp

theorem walk_all_valid {W : Nat} (hW : W ≤ 32) {s : Coord} (hs : Valid W s) {free : Coord → Bool}
    {v p} (h : Walk (adj W free) s v p) : ∀ x ∈ p, Valid W x := by
  induction h with
  | nil => simpa using hs
  | snoc h hv ih =>
    intro x hx
    simp only [List.mem_append, List.mem_singleton] at hx
    rcases hx with hx | rfl
    · exact ih x hx
    · exact (adj_valid hW (walk_valid hW hs h) hv).1

/-- `shortest_path` returns exactly the abstract plan. -/
theorem shortestPath_eq {W : Nat} (hW : Supported W) {start : Coord} (hs : Valid W start)
    {goalF : Filter} {goal : Coord → Bool}
    (hgoal : ∀ c, Valid W c → fbit goalF (c.asIndex W) = goal c) {isWall : Coord → Bool} :
    ∃ r, planOf W start goal isWall = some r ∧
      Searcher.shortestPath W ⟨start, goalF⟩ isWall = .ok r := by
  have hsim := bfsTree_sim hW hs hgoal (isWall := isWall)
  have hspec := gBfs_spec (adj := adj W fun c => !isWall c) (goal := goal) (s := start) (QUE_MAX + 1)
  unfold planOf at hsim ⊢
  revert hsim hspec
  cases gBfs (adj W fun c => !isWall c) goal start (QUE_MAX + 1) with
  | none => simp
  | some o =>
    cases o with
    | none =>
      intro h _
      exact ⟨none, rfl, by
        simp [Searcher.shortestPath, h, bind, Except.bind, pure, Except.pure]⟩
    | some p =>
      rintro ⟨prev, v, h1, h2, h3⟩ ⟨w, hw, -⟩
      have hval := walk_all_valid hW.le hs hw
      have hlen : p.length ≤ 2048 :=
        Nat.le_trans (valid_length_le hW h3.nodup hval) (sq_le hW)
      have hq : QUE_MAX = 2048 := rfl
      refine ⟨some p, rfl, ?_⟩
      simp only [Searcher.shortestPath, h1, bind, Except.bind, pure, Except.pure]
      rw [pathLoop_eq hW h3 hval _ [] (by omega) (by simp; omega)]
      simp

end Verif.Grid
