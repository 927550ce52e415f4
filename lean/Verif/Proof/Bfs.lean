import Verif.Proof.Shortlex
import Mathlib.Tactic.Common
import Mathlib.Data.List.NodupEquivFin
import Mathlib.Data.List.Perm.Subperm
/-!
# Breadth first search over an abstract ordered adjacency

`gBfs` is a textbook breadth first search that remembers for every discovered vertex the path by which
it was discovered.  The two searches in `search.rs` are later shown to simulate it.  The main result is
that the path returned is the least one in shortlex order of the positions in the adjacency lists,
which gives optimality and a canonical choice among the shortest paths at once.
-/
namespace Verif.Bfs
open Verif

variable {V : Type} [DecidableEq V]

structure GState (V : Type) where
  que : List V
  pth : V → Option (List V)

inductive GOut (V : Type) where
  | cont (s : GState V)
  | found (p : List V)

def upd (f : V → Option (List V)) (v : V) (p : List V) : V → Option (List V) :=
  fun w => if w = v then some p else f w

def gFor (goal : V → Bool) (pu : List V) : List V → GState V → GOut V
  | [], s => .cont s
  | v :: vs, s =>
    if (s.pth v).isSome then gFor goal pu vs s
    else if goal v then .found (pu ++ [v])
    else gFor goal pu vs ⟨s.que ++ [v], upd s.pth v (pu ++ [v])⟩

/-- `none`: out of fuel; `some none`: no goal reachable; `some (some p)`: path `p`. -/
def gLoop (adj : V → List V) (goal : V → Bool) : Nat → GState V → Option (Option (List V))
  | 0, _ => none
  | n + 1, s =>
    match s.que with
    | [] => some none
    | u :: q =>
      match gFor goal ((s.pth u).getD []) (adj u) { s with que := q } with
      | .found p => some (some p)
      | .cont s' => gLoop adj goal n s'

def gInit (s : V) : GState V := ⟨[s], fun v => if v = s then some [s] else none⟩

def gBfs (adj : V → List V) (goal : V → Bool) (s : V) (fuel : Nat) : Option (Option (List V)) :=
  gLoop adj goal fuel (gInit s)

/-- `p` is a walk from `s` to `v`: consecutive vertices are adjacent. -/
inductive Walk (adj : V → List V) (s : V) : V → List V → Prop
  | nil : Walk adj s s [s]
  | snoc {u v p} : Walk adj s u p → v ∈ adj u → Walk adj s v (p ++ [v])

/-- Positions chosen by a walk in the adjacency lists. -/
def ranksFrom (adj : V → List V) : V → List V → List Nat
  | _, [] => []
  | u, v :: vs => (adj u).idxOf v :: ranksFrom adj v vs

def ranks (adj : V → List V) : List V → List Nat
  | [] => []
  | u :: vs => ranksFrom adj u vs

variable {adj : V → List V} {goal : V → Bool} {s : V}

omit [DecidableEq V] in
theorem Walk.ne_nil {v p} (h : Walk adj s v p) : p ≠ [] := by cases h <;> simp

omit [DecidableEq V] in
theorem Walk.getLast {v p} (h : Walk adj s v p) : p.getLast? = some v := by cases h <;> simp

omit [DecidableEq V] in
theorem Walk.head {v p} (h : Walk adj s v p) : p.head? = some s := by
  induction h with
  | nil => rfl
  | snoc h _ ih => simp [ih]

theorem ranksFrom_append (u : V) (p : List V) (v : V) :
    ranksFrom adj u (p ++ [v]) = ranksFrom adj u p ++ [(adj ((u :: p).getLast (by simp))).idxOf v] := by
  induction p generalizing u with
  | nil => simp [ranksFrom]
  | cons a p ih => simp [ranksFrom, ih]

theorem Walk.ranks_snoc {u p} (h : Walk adj s u p) (v : V) :
    ranks adj (p ++ [v]) = ranks adj p ++ [(adj u).idxOf v] := by
  cases p with
  | nil => exact absurd rfl h.ne_nil
  | cons a p =>
    have := h.getLast
    simp only [List.getLast?_eq_some_getLast (l := a :: p) (by simp), Option.some.injEq] at this
    simp [ranks, ranksFrom_append, this]

theorem ranksFrom_length (u : V) (p : List V) : (ranksFrom adj u p).length = p.length := by
  induction p generalizing u with
  | nil => rfl
  | cons a p ih => simp [ranksFrom, ih]

theorem Walk.ranks_length {u p} (h : Walk adj s u p) : (ranks adj p).length + 1 = p.length := by
  cases p with
  | nil => exact absurd rfl h.ne_nil
  | cons a p => simp [ranks, ranksFrom_length]

/-- A walk is determined by its start and its ranks. -/
theorem Walk.eq_of_ranks {u p u' p'} (h : Walk adj s u p) (h' : Walk adj s u' p')
    (hr : ranks adj p = ranks adj p') : p = p' ∧ u = u' := by
  induction h generalizing u' p' with
  | nil =>
    cases h' with
    | nil => simp
    | snoc h' hv =>
      rw [h'.ranks_snoc] at hr
      simp [ranks, ranksFrom] at hr
  | @snoc w v p h hv ih =>
    cases h' with
    | nil =>
      rw [h.ranks_snoc] at hr
      simp [ranks, ranksFrom] at hr
    | @snoc w' _ p' h' hv' =>
      rw [h.ranks_snoc, h'.ranks_snoc] at hr
      have hr' := List.append_inj' hr rfl
      obtain ⟨rfl, rfl⟩ := ih h' hr'.1
      have h3 : (adj w).idxOf v = (adj w).idxOf u' := by simpa using hr'.2
      have : v = u' := by
        have h1 := List.getElem_idxOf (x := v) (xs := adj w) (List.idxOf_lt_length_iff.2 hv)
        have h2 := List.getElem_idxOf (x := u') (xs := adj w) (List.idxOf_lt_length_iff.2 hv')
        rw [← h1, ← h2]; simp only [h3]
      simp [this]

/-- rank list of the recorded path -/
def key (adj : V → List V) (pth : V → Option (List V)) (v : V) : List Nat :=
  ranks adj ((pth v).getD [])

/-- Invariant inside the `for` loop: `done` are the vertices popped earlier, `u` the current one, `pre`
the part of its adjacency list already scanned. -/
structure FInv (adj : V → List V) (goal : V → Bool) (s : V) (done : List V) (u : V) (pre : List V)
    (st : GState V) : Prop where
  start : st.pth s = some [s]
  vis : ∀ v, (st.pth v).isSome ↔ v ∈ done ++ u :: st.que
  walk : ∀ v p, st.pth v = some p → Walk adj s v p
  sorted : (done ++ u :: st.que).Pairwise (fun a b => sl (key adj st.pth a) (key adj st.pth b))
  closed : ∀ w ∈ done, ∀ v ∈ adj w, (st.pth v).isSome ∧
    sle (key adj st.pth v) (key adj st.pth w ++ [(adj w).idxOf v])
  closedU : ∀ v ∈ pre, (st.pth v).isSome ∧
    sle (key adj st.pth v) (key adj st.pth u ++ [(adj u).idxOf v])
  bound : ∀ v, (st.pth v).isSome → sl (key adj st.pth v) (key adj st.pth u ++ [pre.length])
  goals : ∀ v, (st.pth v).isSome → v ≠ s → goal v = false

/-- Invariant between iterations of the `while` loop. -/
structure LInv (adj : V → List V) (goal : V → Bool) (s : V) (done : List V) (st : GState V) :
    Prop where
  start : st.pth s = some [s]
  vis : ∀ v, (st.pth v).isSome ↔ v ∈ done ++ st.que
  walk : ∀ v p, st.pth v = some p → Walk adj s v p
  sorted : (done ++ st.que).Pairwise (fun a b => sl (key adj st.pth a) (key adj st.pth b))
  closed : ∀ w ∈ done, ∀ v ∈ adj w, (st.pth v).isSome ∧
    sle (key adj st.pth v) (key adj st.pth w ++ [(adj w).idxOf v])
  bound : ∀ u q, st.que = u :: q → ∀ v, (st.pth v).isSome →
    sl (key adj st.pth v) (key adj st.pth u ++ [0])
  goals : ∀ v, (st.pth v).isSome → v ≠ s → goal v = false

theorem key_upd_ne {pth : V → Option (List V)} {v w : V} {p} (h : w ≠ v) :
    key adj (upd pth v p) w = key adj pth w := by simp [key, upd, h]

theorem LInv.init : LInv adj goal s [] (gInit s) where
  start := by simp [gInit]
  vis := by intro v; simp only [gInit]; split <;> simp_all
  walk := by
    intro v p; simp only [gInit]
    split
    · rintro ⟨rfl⟩; subst_vars; exact .nil
    · simp
  sorted := by simp [gInit]
  closed := by simp
  bound := by
    intro u q h v hv
    simp only [gInit, List.cons.injEq] at h hv
    have : v = s := by by_contra h; simp [h] at hv
    subst this
    rw [← h.1]; exact sl_append_one _ _
  goals := by
    intro v h hne; simp [gInit, hne] at h

theorem LInv.toFInv {done st u q} (h : LInv adj goal s done st) (hq : st.que = u :: q) :
    FInv adj goal s done u [] { st with que := q } where
  start := h.start
  vis := by intro v; rw [h.vis, hq]
  walk := h.walk
  sorted := by have := h.sorted; rwa [hq] at this
  closed := h.closed
  closedU := by simp
  bound := h.bound u q hq
  goals := h.goals

theorem FInv.toLInv {done st u} (h : FInv adj goal s done u (adj u) st) :
    LInv adj goal s (done ++ [u]) st where
  start := h.start
  vis := by intro v; rw [h.vis]; simp
  walk := h.walk
  sorted := by have := h.sorted; simpa using this
  closed := by
    intro w hw v hv
    rcases List.mem_append.1 hw with hw | hw
    · exact h.closed w hw v hv
    · simp only [List.mem_singleton] at hw; subst hw; exact h.closedU v hv
  bound := by
    intro u' q hq v hv
    refine sl_trans (h.bound v hv) (sl_snoc _ _ ?_)
    have := h.sorted
    rw [hq] at this
    have := (List.pairwise_append.1 this).2.1
    simp only [List.pairwise_cons] at this
    exact this.1 u' (by simp)
  goals := h.goals

theorem FInv.step_visited {done u pre v rest st} (h : FInv adj goal s done u pre st)
    (hadj : adj u = pre ++ v :: rest) (hv : (st.pth v).isSome) :
    FInv adj goal s done u (pre ++ [v]) st where
  start := h.start
  vis := h.vis
  walk := h.walk
  sorted := h.sorted
  closed := h.closed
  closedU := by
    intro w hw
    by_cases hp : w ∈ pre
    · exact h.closedU w hp
    · simp only [List.mem_append, hp, List.mem_singleton, false_or] at hw
      subst hw
      refine ⟨hv, ?_⟩
      have : (adj u).idxOf w = pre.length := by rw [hadj]; simp [List.idxOf_append, hp]
      rw [this]; exact .inl (h.bound w hv)
  bound := by
    intro w hw
    exact sl_trans (h.bound w hw) (sl_snoc_self _ (by simp))
  goals := h.goals

theorem FInv.not_mem_pre {done u pre v st} (h : FInv adj goal s done u pre st)
    (hv : (st.pth v).isSome = false) : v ∉ pre := by
  intro hp; have := (h.closedU v hp).1; rw [hv] at this; exact absurd this (by simp)

theorem FInv.step_new {done u pre v rest st pu} (h : FInv adj goal s done u pre st)
    (hadj : adj u = pre ++ v :: rest) (hv : (st.pth v).isSome = false) (hg : goal v = false)
    (hpu : st.pth u = some pu) :
    FInv adj goal s done u (pre ++ [v]) ⟨st.que ++ [v], upd st.pth v (pu ++ [v])⟩ := by
  have hvpre : v ∉ pre := h.not_mem_pre hv
  have hidx : (adj u).idxOf v = pre.length := by rw [hadj]; simp [List.idxOf_append, hvpre]
  have hvis : ∀ w, (st.pth w).isSome → w ≠ v := by
    rintro w hw rfl; rw [hv] at hw; exact absurd hw (by simp)
  have huv : u ≠ v := hvis u (by simp [hpu])
  have hsv : s ≠ v := hvis s (by simp [h.start])
  have hw := h.walk u pu hpu
  have hkeyv : key adj (upd st.pth v (pu ++ [v])) v = key adj st.pth u ++ [pre.length] := by
    simp [key, upd, hpu, hw.ranks_snoc, hidx]
  have hkey : ∀ w, (st.pth w).isSome →
      key adj (upd st.pth v (pu ++ [v])) w = key adj st.pth w :=
    fun w h => key_upd_ne (hvis w h)
  have hsome : ∀ w, (upd st.pth v (pu ++ [v]) w).isSome ↔ (st.pth w).isSome ∨ w = v := by
    intro w; by_cases hwv : w = v <;> simp [upd, hwv]
  refine ⟨?_, ?_, ?_, ?_, ?_, ?_, ?_, ?_⟩
  · simp [upd, hsv, h.start]
  · intro w
    simp only [hsome, h.vis, List.mem_append, List.mem_cons, List.not_mem_nil, or_false]
    tauto
  · intro w p
    by_cases hwv : w = v
    · subst hwv
      simp only [upd, if_true, Option.some.injEq]
      rintro rfl
      exact .snoc hw (by rw [hadj]; simp)
    · simp only [upd, hwv, if_false]; exact h.walk w p
  · have h1 : done ++ u :: (st.que ++ [v]) = (done ++ u :: st.que) ++ [v] := by simp
    simp only [h1]
    rw [List.pairwise_append]
    refine ⟨?_, by simp, ?_⟩
    · refine h.sorted.imp_of_mem ?_
      intro a b ha hb hab
      rw [hkey a ((h.vis a).2 ha), hkey b ((h.vis b).2 hb)]; exact hab
    · intro a ha b hb
      simp only [List.mem_singleton] at hb; subst hb
      rw [hkeyv, hkey a ((h.vis a).2 ha)]
      exact h.bound a ((h.vis a).2 ha)
  · intro w hw x hx
    obtain ⟨h1, h2⟩ := h.closed w hw x hx
    refine ⟨(hsome x).2 (.inl h1), ?_⟩
    simp only
    rw [hkey x h1, hkey w ((h.vis w).2 (by simp [hw]))]; exact h2
  · intro x hx
    simp only [List.mem_append, List.mem_singleton] at hx
    refine ⟨(hsome x).2 (hx.imp_left fun hx => (h.closedU x hx).1), ?_⟩
    simp only
    rw [hkey u (by simp [hpu])]
    rcases hx with hx | rfl
    · obtain ⟨h1, h2⟩ := h.closedU x hx
      rw [hkey x h1]; exact h2
    · rw [hkeyv, hidx]; exact sle_refl _
  · intro x hx
    simp only
    rw [hkey u (by simp [hpu])]
    rcases (hsome x).1 hx with hx | rfl
    · rw [hkey x hx]; exact sl_trans (h.bound x hx) (sl_snoc_self _ (by simp))
    · rw [hkeyv]; exact sl_snoc_self _ (by simp)
  · intro x hx hne
    rcases (hsome x).1 hx with hx | rfl
    · exact h.goals x hx hne
    · exact hg

/-- Every walk whose ranks come before the current position ends in a visited vertex. -/
theorem FInv.before {done u pre rest st} (h : FInv adj goal s done u pre st)
    (hadj : adj u = pre ++ rest) {x p} (hw : Walk adj s x p) :
    sl (ranks adj p) (key adj st.pth u ++ [pre.length]) →
    (st.pth x).isSome ∧ sle (key adj st.pth x) (ranks adj p) := by
  induction hw with
  | nil =>
    intro _
    refine ⟨by simp [h.start], ?_⟩
    simp [key, h.start, ranks, ranksFrom, sle_refl]
  | @snoc w v p hw hv ih =>
    rw [hw.ranks_snoc]
    intro hlt
    obtain ⟨h1, h2⟩ := ih (sl_trans (sl_append_one _ _) hlt)
    have h3 : sle (ranks adj p) (key adj st.pth u) := by
      by_contra hcon
      have : sl (key adj st.pth u) (ranks adj p) := by
        by_contra hc; exact hcon (sle_of_not_sl hc)
      exact sl_asymm hlt (sl_snoc _ _ this)
    have hmem := (h.vis w).1 h1
    have hcases : w ∈ done ∨ w = u := by
      simp only [List.mem_append, List.mem_cons] at hmem
      rcases hmem with hm | hm | hm
      · exact .inl hm
      · exact .inr hm
      · have := (List.pairwise_append.1 h.sorted).2.1
        simp only [List.pairwise_cons] at this
        exact absurd (this.1 w hm) (not_sl_of_sle (sle_trans h2 h3))
    rcases hcases with hm | rfl
    · obtain ⟨h4, h5⟩ := h.closed w hm v hv
      refine ⟨h4, sle_trans h5 ?_⟩
      rcases h2 with h2 | h2
      · exact .inl (sl_snoc _ _ h2)
      · rw [h2]; exact sle_refl _
    · have h6 : ranks adj p = key adj st.pth w := sle_antisymm h3 h2
      rw [h6] at hlt
      have hlt' : (adj w).idxOf v < pre.length := by
        by_contra hc
        rcases Nat.lt_or_ge pre.length ((adj w).idxOf v) with hc' | hc'
        · exact sl_asymm hlt (sl_snoc_self _ hc')
        · have : (adj w).idxOf v = pre.length := by omega
          rw [this] at hlt; exact sl_irrefl _ hlt
      have hvp : v ∈ pre := by
        have h7 := List.getElem_idxOf (x := v) (xs := adj w) (List.idxOf_lt_length_iff.2 hv)
        have h8 : (adj w)[(adj w).idxOf v]'(List.idxOf_lt_length_iff.2 hv) = pre[(adj w).idxOf v] := by
          simp only [hadj]
          rw [List.getElem_append_left]
        rw [← h7, h8]; exact List.getElem_mem _
      obtain ⟨h9, h10⟩ := h.closedU v hvp
      rw [h6]
      exact ⟨h9, h10⟩

theorem gFor_spec {done u pu} : ∀ (rest pre : List V) (st : GState V),
    FInv adj goal s done u pre st → adj u = pre ++ rest → st.pth u = some pu →
    match gFor goal pu rest st with
    | .cont st' => FInv adj goal s done u (adj u) st' ∧ st'.pth u = some pu
    | .found p => ∃ v, Walk adj s v p ∧ v ≠ s ∧ goal v = true ∧
        ∀ x q, Walk adj s x q → x ≠ s → goal x = true → sle (ranks adj p) (ranks adj q)
  | [], pre, st, h, hadj, hpu => by
    simp only [gFor]
    have : pre = adj u := by simp [hadj]
    exact ⟨this ▸ h, hpu⟩
  | v :: rest, pre, st, h, hadj, hpu => by
    unfold gFor
    by_cases hv : (st.pth v).isSome = true
    · simp only [hv, if_true]
      exact gFor_spec rest (pre ++ [v]) st (h.step_visited hadj hv) (by simp [hadj]) hpu
    · have hv' : (st.pth v).isSome = false := by simpa using hv
      by_cases hg : goal v = true
      · simp only [hv', hg, if_true]
        have hvpre : v ∉ pre := h.not_mem_pre hv'
        have hidx : (adj u).idxOf v = pre.length := by rw [hadj]; simp [List.idxOf_append, hvpre]
        have hwu := h.walk u pu hpu
        refine ⟨v, .snoc hwu (by simp [hadj]), ?_, hg, ?_⟩
        · rintro rfl; simp [h.start] at hv'
        · intro x q hq hx hgx
          apply sle_of_not_sl
          intro hlt
          rw [hwu.ranks_snoc, hidx] at hlt
          have hk : ranks adj pu = key adj st.pth u := by simp [key, hpu]
          rw [hk] at hlt
          obtain ⟨h1, -⟩ := h.before hadj hq hlt
          have := h.goals x h1 hx
          simp [this] at hgx
      · have hg' : goal v = false := by simpa using hg
        simp only [hv', hg', Bool.false_eq_true, if_false]
        refine gFor_spec rest (pre ++ [v]) _ (h.step_new hadj hv' hg' hpu) (by simp [hadj]) ?_
        have : u ≠ v := by rintro rfl; simp [hpu] at hv'
        simp [upd, this, hpu]

theorem gLoop_spec : ∀ (n : Nat) (done : List V) (st : GState V), LInv adj goal s done st →
    match gLoop adj goal n st with
    | none => True
    | some none => ∀ x q, Walk adj s x q → x ≠ s → goal x = false
    | some (some p) => ∃ v, Walk adj s v p ∧ v ≠ s ∧ goal v = true ∧
        ∀ x q, Walk adj s x q → x ≠ s → goal x = true → sle (ranks adj p) (ranks adj q)
  | 0, _, _, _ => by simp [gLoop]
  | n + 1, done, st, h => by
    unfold gLoop
    rcases hq : st.que with _ | ⟨u, q⟩
    · simp only
      intro x q hw hx
      have : (st.pth x).isSome := by
        clear hx
        induction hw with
        | nil => simp [h.start]
        | @snoc w v p hw hv ih =>
          have := (h.vis w).1 ih
          simp only [hq, List.append_nil] at this
          exact (h.closed w this v hv).1
      exact h.goals x this hx
    · simp only
      have hF := h.toFInv hq
      have hvu : (st.pth u).isSome := (h.vis u).2 (by simp [hq])
      obtain ⟨pu, hpu⟩ := Option.isSome_iff_exists.1 hvu
      have := gFor_spec (adj u) [] _ hF (by simp) hpu
      rw [hpu]
      simp only [Option.getD_some]
      revert this
      cases gFor goal pu (adj u) { st with que := q } with
      | found p => exact fun h => h
      | cont s' => exact fun h => gLoop_spec n _ _ h.1.toLInv

/-- Correctness of breadth first search. -/
theorem gBfs_spec (fuel : Nat) :
    match gBfs adj goal s fuel with
    | none => True
    | some none => ∀ x q, Walk adj s x q → x ≠ s → goal x = false
    | some (some p) => ∃ v, Walk adj s v p ∧ v ≠ s ∧ goal v = true ∧
        ∀ x q, Walk adj s x q → x ≠ s → goal x = true → sle (ranks adj p) (ranks adj q) :=
  gLoop_spec fuel [] (gInit s) LInv.init

/-! ## Termination and size bounds -/

theorem LInv.nodup {done st} (h : LInv adj goal s done st) : (done ++ st.que).Nodup := by
  have := h.sorted
  refine this.imp ?_
  rintro a b hab rfl
  exact sl_irrefl _ hab

theorem FInv.nodup {done u pre st} (h : FInv adj goal s done u pre st) :
    (done ++ u :: st.que).Nodup := by
  have := h.sorted
  refine this.imp ?_
  rintro a b hab rfl
  exact sl_irrefl _ hab

theorem nodup_length_le {l univ : List V} (hn : l.Nodup) (h : ∀ x ∈ l, x ∈ univ) :
    l.length ≤ univ.length := (List.subperm_of_subset hn h).length_le

theorem LInv.length_le {done st} {univ : List V} (h : LInv adj goal s done st)
    (hu : ∀ v p, Walk adj s v p → v ∈ univ) : done.length + st.que.length ≤ univ.length := by
  rw [← List.length_append]
  refine nodup_length_le h.nodup fun x hx => ?_
  obtain ⟨p, hp⟩ := Option.isSome_iff_exists.1 ((h.vis x).2 hx)
  exact hu x p (h.walk x p hp)

theorem FInv.length_le {done u pre st} {univ : List V} (h : FInv adj goal s done u pre st)
    (hu : ∀ v p, Walk adj s v p → v ∈ univ) : done.length + 1 + st.que.length ≤ univ.length := by
  have : (done ++ u :: st.que).length ≤ univ.length := by
    refine nodup_length_le h.nodup fun x hx => ?_
    obtain ⟨p, hp⟩ := Option.isSome_iff_exists.1 ((h.vis x).2 hx)
    exact hu x p (h.walk x p hp)
  simp at this; omega

theorem gLoop_terminates {univ : List V} (hu : ∀ v p, Walk adj s v p → v ∈ univ) :
    ∀ (n : Nat) (done : List V) (st : GState V), LInv adj goal s done st →
    univ.length < n + done.length → gLoop adj goal n st ≠ none
  | 0, done, st, h, hn => by
    have := h.length_le hu; omega
  | n + 1, done, st, h, hn => by
    unfold gLoop
    rcases hq : st.que with _ | ⟨u, q⟩
    · simp
    · simp only
      have hF := h.toFInv hq
      have hvu : (st.pth u).isSome := (h.vis u).2 (by simp [hq])
      obtain ⟨pu, hpu⟩ := Option.isSome_iff_exists.1 hvu
      have := gFor_spec (adj u) [] _ hF (by simp) hpu
      rw [hpu]
      simp only [Option.getD_some]
      revert this
      cases gFor goal pu (adj u) { st with que := q } with
      | found p => simp
      | cont s' => exact fun h => gLoop_terminates hu n _ _ h.1.toLInv (by simp; omega)

theorem gBfs_terminates {univ : List V} (hu : ∀ v p, Walk adj s v p → v ∈ univ) {fuel : Nat}
    (hf : univ.length < fuel) : gBfs adj goal s fuel ≠ none :=
  gLoop_terminates hu fuel [] _ LInv.init (by simpa using hf)

/-! ## Consequences -/

/-- Forward form of walks. -/
def FChain (adj : V → List V) : V → List V → Prop
  | _, [] => True
  | u, v :: vs => v ∈ adj u ∧ FChain adj v vs

omit [DecidableEq V] in
theorem FChain.snoc : ∀ {u : V} {l : List V} {w v : V}, FChain adj u l →
    (u :: l).getLast? = some w → v ∈ adj w → FChain adj u (l ++ [v])
  | u, [], w, v, _, hl, hv => by
    simp at hl; subst hl; exact ⟨hv, trivial⟩
  | u, a :: l, w, v, h, hl, hv => ⟨h.1, FChain.snoc h.2 (by simpa using hl) hv⟩

omit [DecidableEq V] in
theorem Walk.fchain {v p} (h : Walk adj s v p) : ∃ l, p = s :: l ∧ FChain adj s l := by
  induction h with
  | nil => exact ⟨[], rfl, trivial⟩
  | snoc h hv ih =>
    obtain ⟨l, rfl, hl⟩ := ih
    exact ⟨_, rfl, hl.snoc h.getLast hv⟩

omit [DecidableEq V] in
theorem FChain.walk : ∀ {l : List V} {s : V}, FChain adj s l → ∀ {s0 p0}, Walk adj s0 s p0 →
    ∃ v, Walk adj s0 v (p0 ++ l) ∧ (s :: l).getLast? = some v
  | [], s, _, s0, p0, h => ⟨s, by simpa using h, by simp⟩
  | a :: l, s, hl, s0, p0, h => by
    obtain ⟨v, h1, h2⟩ := FChain.walk hl.2 (.snoc h hl.1)
    exact ⟨v, by simpa using h1, by simpa using h2⟩

theorem FChain.lex_mono {adj' : V → List V} {P : V → Prop}
    (hPc : ∀ v, P v → ∀ w ∈ adj v, P w)
    (hord : ∀ {w a b}, P w → a ∈ adj' w → b ∈ adj' w →
      (adj w).idxOf a < (adj w).idxOf b → (adj' w).idxOf a < (adj' w).idxOf b)
    (hsub : ∀ v, P v → (adj' v).Sublist (adj v)) :
    ∀ (l l' : List V) (u : V), P u → FChain adj' u l → FChain adj' u l' →
      lexLt (ranksFrom adj u l) (ranksFrom adj u l') →
      lexLt (ranksFrom adj' u l) (ranksFrom adj' u l')
  | [], _, _, _, _, _, h => by simp [ranksFrom, lexLt] at h
  | _ :: _, [], _, _, _, _, h => by simp [ranksFrom, lexLt] at h
  | a :: l, b :: l', u, hu, hl, hl', h => by
    simp only [ranksFrom, lexLt] at h ⊢
    rcases h with h | ⟨h, h'⟩
    · exact .inl (hord hu hl.1 hl'.1 h)
    · have h1 := List.getElem_idxOf (x := a) (xs := adj u)
        (List.idxOf_lt_length_iff.2 ((hsub u hu).subset hl.1))
      have h2 := List.getElem_idxOf (x := b) (xs := adj u)
        (List.idxOf_lt_length_iff.2 ((hsub u hu).subset hl'.1))
      have : a = b := by rw [← h1, ← h2]; simp only [h]
      subst this
      exact .inr ⟨rfl, FChain.lex_mono hPc hord hsub l l' a (hPc u hu a ((hsub u hu).subset hl.1)) hl.2 hl'.2 h'⟩

/-- The result only depends on the walks: a sub-adjacency that keeps the edges of the path found gives
the same path. -/
theorem gBfs_subgraph {adj' : V → List V} {fuel fuel' : Nat} {p : List V}
    {P : V → Prop} (hP : P s) (hPc : ∀ v, P v → ∀ w ∈ adj v, P w)
    (hsub : ∀ v, P v → (adj' v).Sublist (adj v)) (hnd : ∀ v, P v → (adj v).Nodup)
    (hp : gBfs adj goal s fuel = some (some p))
    (hp' : ∃ v, Walk adj' s v p) (hterm : gBfs adj' goal s fuel' ≠ none) :
    gBfs adj' goal s fuel' = some (some p) := by
  have hwalk' : ∀ {x q}, Walk adj' s x q → Walk adj s x q ∧ P x := by
    intro x q h
    induction h with
    | nil => exact ⟨.nil, hP⟩
    | snoc _ hv ih =>
      have hm := (hsub _ ih.2).subset hv
      exact ⟨.snoc ih.1 hm, hPc _ ih.2 _ hm⟩
  have hwalk : ∀ {x q}, Walk adj' s x q → Walk adj s x q := fun h => (hwalk' h).1
  -- ranks in the subgraph order the same way
  have hord : ∀ {w a b}, P w → a ∈ adj' w → b ∈ adj' w →
      (adj w).idxOf a < (adj w).idxOf b → (adj' w).idxOf a < (adj' w).idxOf b := by
    intro w a b hw ha hb hlt
    by_contra hc
    have hba : (adj' w).idxOf b < (adj' w).idxOf a := by
      rcases Nat.lt_or_ge ((adj' w).idxOf b) ((adj' w).idxOf a) with h | h
      · exact h
      · have heq : (adj' w).idxOf a = (adj' w).idxOf b := by omega
        have h1 := List.getElem_idxOf (x := a) (xs := adj' w) (List.idxOf_lt_length_iff.2 ha)
        have h2 := List.getElem_idxOf (x := b) (xs := adj' w) (List.idxOf_lt_length_iff.2 hb)
        have : a = b := by rw [← h1, ← h2]; simp only [heq]
        subst this; omega
    obtain ⟨f, hf⟩ := List.sublist_iff_exists_orderEmbedding_getElem?_eq.1 (hsub w hw)
    have hfa := hf ((adj' w).idxOf a)
    have hfb := hf ((adj' w).idxOf b)
    rw [List.getElem?_eq_getElem (List.idxOf_lt_length_iff.2 ha), List.getElem_idxOf] at hfa
    rw [List.getElem?_eq_getElem (List.idxOf_lt_length_iff.2 hb), List.getElem_idxOf] at hfb
    have key : ∀ i x, some x = (adj w)[i]? → (adj w).idxOf x = i := by
      intro i x hx
      obtain ⟨hi, hx⟩ := List.getElem?_eq_some_iff.1 hx.symm
      rw [← hx]; exact List.Nodup.idxOf_getElem (hnd w hw) i hi
    have e1 := key _ _ hfa
    have e2 := key _ _ hfb
    have := f.strictMono hba
    omega
  have hmono : ∀ {x q x' q'}, Walk adj' s x q → Walk adj' s x' q' →
      sl (ranks adj q) (ranks adj q') → sl (ranks adj' q) (ranks adj' q') := by
    intro x q x' q' h h' hlt
    have l1 := h.ranks_length
    have l2 := h'.ranks_length
    have l3 := (hwalk h).ranks_length
    have l4 := (hwalk h').ranks_length
    rcases hlt with hlt | ⟨hl, hlt⟩
    · left; omega
    · right
      refine ⟨by omega, ?_⟩
      obtain ⟨l, rfl, hc⟩ := h.fchain
      obtain ⟨l', rfl, hc'⟩ := h'.fchain
      exact FChain.lex_mono hPc hord hsub l l' s hP hc hc' hlt
  obtain ⟨v, hv'⟩ := hp'
  have hspec := gBfs_spec (adj := adj) (goal := goal) (s := s) fuel
  rw [hp] at hspec
  obtain ⟨v2, hv2, hne, hgoal, hmin⟩ := hspec
  have hvv : v = v2 := by
    have h1 := hv'.getLast
    have h2 := hv2.getLast
    rw [h1] at h2; simpa using h2
  subst hvv
  have hspec' := gBfs_spec (adj := adj') (goal := goal) (s := s) fuel'
  revert hspec' hterm
  cases gBfs adj' goal s fuel' with
  | none => simp
  | some o =>
    cases o with
    | none =>
      intro _ h
      have := h v p hv' hne
      simp [this] at hgoal
    | some p' =>
      rintro _ ⟨w, hw, hwne, hwgoal, hwmin⟩
      have a1 := hwmin v p hv' hne hgoal
      have a2 := hmin w p' (hwalk hw) hwne hwgoal
      rcases a2 with a2 | a2
      · exact absurd (hmono hv' hw a2) (not_sl_of_sle a1)
      · obtain ⟨rfl, -⟩ := hv2.eq_of_ranks (hwalk hw) a2
        rfl

end Verif.Bfs
