import Verif.Proof.OldDijkstra
import Mathlib.Tactic.FinCases
import Mathlib.Data.Fintype.Basic
/-!
# C81: what the former solver returns
-/
namespace Verif.Props
open Verif Verif.Old Verif.Old.Dijkstra Verif.Spec Verif.Proof.OldD

namespace Old
variable {α ι : Type} {G : Graph α} {C : Coding α ι} {Q : Queue ι} {MAX : Nat} {goals : List α} {goal0 start : α}
  {Node : α → Prop} {L : QueueLaws Q HEAP_MAX}

theorem Trip.snoc {E : Edges α} {u v x : α} {p : List α} {c w : Nat} (h : Trip E u p c v) (he : E v w x) :
    Trip E u (p ++ [x]) (c + w) x := by
  induction h with
  | here u =>
    have := Trip.step he (Trip.here x)
    simpa using this
  | step hs _ ih =>
    have := Trip.step hs (ih he)
    simpa [Nat.add_assoc] using this

theorem Trip.ends {E : Edges α} {u v : α} {p : List α} {c : Nat} (h : Trip E u p c v) :
    p.head? = some u ∧ p.getLast? = some v := by
  induction h with
  | here u => simp
  | step hs ht ih =>
    refine ⟨rfl, ?_⟩
    cases ht <;> simpa using ih.2

theorem Trip.nodes (S : Sound G C MAX goal0 Node) {u v : α} {p : List α} {c : Nat}
    (h : Trip (charged G goal0) u p c v) (hu : Node u) : ∀ x ∈ p, Node x := by
  induction h with
  | here u => simpa using hu
  | step hs _ ih =>
    intro x hx
    rcases List.mem_cons.mp hx with rfl | hx
    · exact hu
    · exact ih (charged_node S hu hs) x hx

/-- No trip to a goal is cheaper than what is left in the heap. -/
theorem trip_bound (S : Sound G C MAX goal0 Node) {m : Nat} {X : List α} {s : St Q} {B : Nat}
    (hI : Inv G C L MAX goals goal0 start Node m X (AllEdges G goal0 X) s) (hB : ∀ e ∈ L.elems s.heap, B ≤ e.1)
    {x v : α} {q : List α} {c : Nat} (ht : Trip (charged G goal0) x q c v) (hx : Node x) (hv : v ∈ goals)
    {k : Nat} (hk : s.dist (ix C x) ≤ k) (hkc : k + c < MAX) : B ≤ k + c := by
  induction ht generalizing k with
  | here u =>
    have hnX : u ∉ X := fun h => hI.xgoal u h hv
    obtain ⟨i, hi⟩ := names S hx
    have := hB _ (hI.pend u hx hnX (Or.inr (by omega)) i hi)
    simp only at this
    omega
  | @step u y v w c p hs _ ih =>
    by_cases hnX : u ∈ X
    · obtain ⟨h1, h2, h3⟩ := hI.req u w y ⟨hnX, hs⟩
      have h4 : s.dist (ix C y) ≤ k + w := Nat.le_trans h3 (by unfold Run.satAdd; omega)
      have := ih h2 hv h4 (by omega)
      omega
    · obtain ⟨i, hi⟩ := names S hx
      have := hB _ (hI.pend u hx hnX (Or.inr (by omega)) i hi)
      simp only at this
      omega

theorem reverse_cons {p : List α} {v : α} (h : p.getLast? = some v) : p.reverse = v :: p.reverse.tail := by
  obtain ⟨q, rfl⟩ := List.getLast?_eq_some_iff.mp h
  simp

/-- The chain of predecessors of an expanded node. -/
theorem back (S : Sound G C MAX goal0 Node) {m : Nat} {X : List α} {Req : Edges α} {s : St Q}
    (hI : Inv G C L MAX goals goal0 start Node m X Req s) : ∀ Y : List α, Tree C s.prev start Y → (∀ u ∈ Y, u ∈ X) →
      Y.Nodup → ∀ u ∈ Y, ∃ p c, Trip (charged G goal0) start p c u ∧ far G goal0 start + c = s.dist (ix C u) ∧
        p.Nodup ∧ (∀ x ∈ p, x ∈ Y) ∧
        ∀ fuel acc, acc.length ≤ PATH_MAX → PATH_MAX < acc.length + fuel →
          backLoop C s.prev fuel u acc =
            if acc.length + p.length ≤ PATH_MAX + 1 then .ok (acc ++ p.reverse.tail) else .error .capacity
  | [], _, _, _, u, hu => by cases hu
  | v :: Y, ⟨ht, hv⟩, hY, hnd, u, hu => by
    have ih := back S hI Y ht (fun u hu => hY u (by simp [hu])) (List.nodup_cons.mp hnd).2
    by_cases huv : u ∈ Y
    · obtain ⟨p, c, h1, h2, h3, h4, h5⟩ := ih u huv
      exact ⟨p, c, h1, h2, h3, fun x hx => by simp [h4 x hx], h5⟩
    · have : u = v := by simpa [huv] using hu
      subst this
      have hun := hI.xnode u (hY u (by simp))
      obtain ⟨x1, x2⟩ := ix_eq S hun
      by_cases hus : u = start
      · subst hus
        refine ⟨[u], 0, Trip.here u, by rw [hI.D0, Nat.add_zero], by simp, by simp, ?_⟩
        intro fuel acc ha hf
        obtain ⟨f, rfl⟩ : ∃ f, fuel = f + 1 := ⟨fuel - 1, by omega⟩
        unfold backLoop
        simp only [x1, arrGet, if_pos x2, bind, Except.bind, hI.P0]
        rw [if_pos (by simpa using ha)]
        simp
      · rcases hv with hv | ⟨x, hx, i, hi, hprev⟩
        · exact absurd hv hus
        · obtain ⟨x', hx', hi', ⟨w, hw, hd⟩, -⟩ := hI.par u hun hus i hprev
          have : x' = x := hi'.eq hi
          subst this
          obtain ⟨p, c, h1, h2, h3, h4, h5⟩ := ih x' hx
          refine ⟨p ++ [u], c + w, Trip.snoc h1 hw, by rw [hd, ← h2]; omega, ?_, ?_, ?_⟩
          · rw [List.nodup_append]
            refine ⟨h3, by simp, ?_⟩
            intro a ha b hb
            have : b = u := by simpa using hb
            subst this
            exact fun h => huv (h ▸ h4 a ha)
          · intro y hy
            rcases List.mem_append.mp hy with h | h
            · simp [h4 y h]
            · simpa using Or.inl (List.mem_singleton.mp h)
          · intro fuel acc ha hf
            obtain ⟨f, rfl⟩ : ∃ f, fuel = f + 1 := ⟨fuel - 1, by omega⟩
            unfold backLoop
            simp only [x1, arrGet, if_pos x2, bind, Except.bind, hprev, hi.2]
            have hne : 1 ≤ p.length := by cases h1 <;> simp
            unfold pushCap
            by_cases hlt : acc.length < PATH_MAX
            · rw [if_pos hlt]
              simp only
              rw [h5 f (acc ++ [x']) (by simp; omega) (by simp; omega)]
              simp only [List.length_append, List.length_singleton, List.reverse_append, List.reverse_cons,
                List.reverse_nil, List.nil_append, List.singleton_append, List.tail_cons]
              have : p.reverse = x' :: p.reverse.tail := reverse_cons (Trip.ends h1).2
              by_cases hle : acc.length + 1 + p.length ≤ PATH_MAX + 1
              · rw [if_pos hle, if_pos (by omega)]
                conv_rhs => rw [this]
                simp
              · rw [if_neg hle, if_neg (by omega)]
            · rw [if_neg hlt, if_neg (by simp; omega)]

/-- The initial state. -/
theorem init_inv (S : Sound G C MAX goal0 Node) (hstart : Node start) {i : ι} (hi : Names C i start) {h : Q.H}
    (hh : (L.elems h).Perm [(far G goal0 start, i)]) :
    Inv G C L MAX goals goal0 start Node (far G goal0 start) [] (AllEdges G goal0 [])
      ⟨fun j => if j = ix C start then far G goal0 start else MAX, fun _ => none, h⟩ := by
  have hmem : ∀ e, e ∈ L.elems h ↔ e = (far G goal0 start, i) := fun e => by rw [hh.mem_iff, List.mem_singleton]
  refine ⟨by simp, rfl, Nat.le_refl _, ?_, ?_, ?_, ?_, List.nodup_nil, ?_, ?_, trivial, ?_, ?_, ?_, ?_, ?_⟩
  · intro v _
    simp only
    split
    · exact (far_eq S hstart).2
    · exact Nat.le_refl _
  · intro v hv hvs _
    simp only
    rw [if_neg (fun h => hvs (ix_inj S hv hstart h))]
  · intro v _ _ j hj; cases hj
  · intro u hu; cases hu
  · intro u hu; cases hu
  · intro u hu; cases hu
  · intro e he
    rw [hmem] at he
    subst he
    exact ⟨start, hstart, hi, by simp, by simp, Or.inl rfl⟩
  · intro v hv; cases hv
  · exact hh.nodup_iff.mpr (by simp)
  · intro v hv _ hd j hj
    rw [hmem]
    by_cases hvs : v = start
    · subst hvs
      simp [hj.id_eq hi]
    · rcases hd with hd | hd
      · exact absurd hd hvs
      · simp only [if_neg (fun h => hvs (ix_inj S hv hstart h))] at hd
        omega
  · intro u w v h; cases h.1

theorem out_sum (S : Sound G C MAX goal0 Node) {Y : List α} (hY : ∀ u ∈ Y, Node u) : degs G Y = edgeCount G Y := by
  unfold degs edgeCount
  congr 1
  apply List.map_congr_left
  intro u hu
  rw [(out_eq S (hY u hu)).1]

theorem sum_le {l l' : List Nat} (h : l.Sublist l') : l.sum ≤ l'.sum := by
  induction h with
  | slnil => exact Nat.le_refl _
  | cons a _ ih => rw [List.sum_cons]; omega
  | cons_cons a _ ih => rw [List.sum_cons, List.sum_cons]; omega

theorem edgeCount_mono {Y B : List α} (h : Y.Nodup) (hB : ∀ u ∈ Y, u ∈ B) : edgeCount G Y ≤ edgeCount G B := by
  obtain ⟨l, h1, h2⟩ := h.subperm hB
  unfold edgeCount
  rw [← (h1.map _).sum_nat]
  exact sum_le (h2.map _)

/-- Everything about `solve` when the start is no goal. -/
theorem solve_main [DecidableEq α] (L : QueueLaws Q HEAP_MAX) (S : Sound G C MAX goal0 Node) (hstart : Node start)
    (rest : List α) (hs : start ∉ goal0 :: rest) :
    (solve G C Q MAX start (goal0 :: rest) = .ok none ∧
      ∀ q c g, g ∈ goal0 :: rest → Trip (charged G goal0) start q c g → MAX ≤ far G goal0 start + c) ∨
    (∃ p c g, solve G C Q MAX start (goal0 :: rest) = .ok (some p) ∧ g ∈ goal0 :: rest ∧
      Trip (charged G goal0) start p c g ∧ far G goal0 start + c < MAX ∧ p.Nodup ∧
      ∀ q c' g', g' ∈ goal0 :: rest → Trip (charged G goal0) start q c' g' → c ≤ c') ∨
    (solve G C Q MAX start (goal0 :: rest) = .error .capacity ∧
      ∃ Y : List α, Y.Nodup ∧ (∀ u ∈ Y, Node u) ∧ (HEAP_MAX ≤ degs G Y ∨ PATH_MAX < Y.length)) := by
  obtain ⟨x1, x2⟩ := ix_eq S hstart
  obtain ⟨i, hi⟩ := names S hstart
  obtain ⟨h, h1, h2⟩ := L.push_ok Q.empty (far G goal0 start, i) (by rw [L.elems_empty]; exact (by decide : 0 < HEAP_MAX))
  rw [L.elems_empty] at h2
  have hI := init_inv (MAX := MAX) (goals := goal0 :: rest) S hstart hi h2
  unfold solve
  simp only [(far_eq S hstart).1, x1, arrSet, if_pos x2, hi.1, St.push, h1, bind, Except.bind]
  rcases mainLoop_spec S hstart FUEL _ [] _ hI (by simp only [h2.length_eq]; simp [FUEL]; omega)
    (by simp only [h2.length_eq]; simp) with ⟨r, s', e1, m, X, s, hI', hd, hp, hr⟩ | ⟨e1, Y, y1, y2, y3⟩
  · rw [e1]
    simp only
    cases r with
    | none =>
      refine Or.inl ⟨rfl, ?_⟩
      intro q c g hg ht
      by_contra hlt
      have := trip_bound (B := MAX) S hI' (by rw [hr]; simp) ht hstart hg (k := far G goal0 start)
        (Nat.le_of_eq hI'.D0) (by omega)
      omega
    | some g =>
      obtain ⟨g1, g2, g3, g4⟩ := hr
      have hgs : g ≠ start := fun h => hs (h ▸ g2)
      have g3' : s.dist (ix C g) < MAX := by
        rcases g3 with h | h
        · exact absurd h hgs
        · exact h
      simp only
      have hgn : ∃ j, s.prev (ix C g) = some j := by
        cases hq : s.prev (ix C g) with
        | none => have := hI'.none_max g g1 hgs hq; omega
        | some j => exact ⟨j, rfl⟩
      obtain ⟨j, hj⟩ := hgn
      obtain ⟨u, hu, hju, ⟨w, hw, hdw⟩, -⟩ := hI'.par g g1 hgs j hj
      obtain ⟨p, c, b1, b2, b3, b4, b5⟩ := back S hI' X hI'.tree (fun _ h => h) hI'.nodup u hu
      obtain ⟨y1, y2⟩ := ix_eq S g1
      have hgX : g ∉ X := fun h => hI'.xgoal g h g2
      have hnd : (p ++ [g]).Nodup := by
        rw [List.nodup_append]
        refine ⟨b3, by simp, ?_⟩
        intro a ha b hb
        have : b = g := by simpa using hb
        subst this
        exact fun h => hgX (h ▸ b4 a ha)
      have hval : constructPath C g s'.prev =
          if p.length + 1 ≤ PATH_MAX then .ok (some (p ++ [g])) else .error .capacity := by
        unfold constructPath
        rw [← hp]
        simp only [y1, arrGet, if_pos y2, bind, Except.bind, hj, hju.2]
        have hp0 : pushCap PATH_MAX [] g = .ok [g] := rfl
        have hp1 : pushCap PATH_MAX [g] u = .ok [g, u] := rfl
        have hlen : [g, u].length = 2 := rfl
        simp only [hp0, hp1]
        rw [b5 (PATH_MAX + 1) [g, u] (by rw [hlen]; decide) (by rw [hlen]; omega), hlen]
        have hrev : p.reverse = u :: p.reverse.tail := reverse_cons (Trip.ends b1).2
        by_cases hle : p.length + 1 ≤ PATH_MAX
        · rw [if_pos hle, if_pos (by omega)]
          simp only
          have : (p ++ [g]).reverse = [g, u] ++ p.reverse.tail := by
            rw [List.reverse_append, hrev]; rfl
          rw [← this, List.reverse_reverse]
        · rw [if_neg hle, if_neg (by omega)]
      rw [hval]
      by_cases hle : p.length + 1 ≤ PATH_MAX
      · rw [if_pos hle]
        refine Or.inr (Or.inl ⟨p ++ [g], c + w, g, rfl, g2, Trip.snoc b1 hw, by omega, hnd, ?_⟩)
        intro q c' g' hg' ht
        by_cases hlt : far G goal0 start + c' < MAX
        · have := trip_bound (B := s.dist (ix C g)) S hI' g4 ht hstart hg' (k := far G goal0 start)
            (Nat.le_of_eq hI'.D0) hlt
          omega
        · omega
      · rw [if_neg hle]
        refine Or.inr (Or.inr ⟨rfl, p ++ [g], hnd, ?_, Or.inr (by simp; omega)⟩)
        intro x hx
        rcases List.mem_append.mp hx with hx | hx
        · exact hI'.xnode x (b4 x hx)
        · rw [List.mem_singleton.mp hx]; exact g1
  · rw [e1]
    exact Or.inr (Or.inr ⟨rfl, Y, y1, y2, Or.inl y3⟩)

/-- The start is a goal. -/
theorem solve_start [DecidableEq α] (L : QueueLaws Q HEAP_MAX) (S : Sound G C MAX goal0 Node) (hstart : Node start)
    (rest : List α) (hs : start ∈ goal0 :: rest) : solve G C Q MAX start (goal0 :: rest) = .ok none := by
  obtain ⟨x1, x2⟩ := ix_eq S hstart
  obtain ⟨i, hi⟩ := names S hstart
  obtain ⟨h, h1, h2⟩ := L.push_ok Q.empty (far G goal0 start, i) (by rw [L.elems_empty]; exact (by decide : 0 < HEAP_MAX))
  rw [L.elems_empty] at h2
  unfold solve
  simp only [(far_eq S hstart).1, x1, arrSet, if_pos x2, hi.1, St.push, h1, bind, Except.bind]
  have hF : FUEL = EDGE_MAX * NODE_MAX + 1 + 1 := rfl
  rw [hF]
  unfold mainLoop
  cases hpop : Q.pop h with
  | none =>
    have := L.pop_none _ hpop
    rw [this] at h2
  | some q =>
    obtain ⟨⟨c, j⟩, h'⟩ := q
    have hm := ((L.pop_some _ _ _ hpop).1.symm.trans h2).mem_iff (a := (c, j))
    obtain ⟨rfl, rfl⟩ := Prod.mk.inj (List.mem_singleton.mp (hm.mp (by simp)))
    simp only [hi.2, x1, arrGet, if_pos x2, bind, Except.bind, if_true, Nat.lt_irrefl, if_false, if_pos hs]
    unfold constructPath
    simp only [x1, arrGet, if_pos x2, bind, Except.bind]

end Old

open Old

variable {α ι : Type} [DecidableEq α] {G : Graph α} {C : Coding α ι} {Q : Queue ι} {MAX : Nat} {goals rest : List α}
  {goal0 start : α} {Node : α → Prop}

/-- **C81, found**: a path that is returned leads from the start to a goal, visits no node twice, and no trip to a
goal has a smaller sum of (edge cost + distance of the end of the edge from the first goal). -/
theorem C81_found (L : QueueLaws Q HEAP_MAX) (S : Sound G C MAX goal0 Node) (hstart : Node start) {p : List α}
    (h : solve G C Q MAX start (goal0 :: rest) = .ok (some p)) :
    start ∉ goal0 :: rest ∧ p.Nodup ∧ ∃ g ∈ goal0 :: rest, ∃ c, Trip (charged G goal0) start p c g ∧
      ∀ q c' g', g' ∈ goal0 :: rest → Trip (charged G goal0) start q c' g' → c ≤ c' := by
  by_cases hs : start ∈ goal0 :: rest
  · rw [solve_start L S hstart rest hs] at h
    cases h
  · rcases solve_main L S hstart rest hs with ⟨h1, -⟩ | ⟨p', c, g, h1, h2, h3, -, h5, h6⟩ | ⟨h1, -⟩
    · rw [h1] at h; cases h
    · rw [h1] at h
      cases h
      exact ⟨hs, h5, g, h2, c, h3, h6⟩
    · rw [h1] at h; cases h

/-- **C81, not found**: `Err(UnfeasibleError)` means that the start is itself a goal, or that every trip to a goal is
charged the largest cost or more. -/
theorem C81_unfeasible (L : QueueLaws Q HEAP_MAX) (S : Sound G C MAX goal0 Node) (hstart : Node start) {h0 : Nat}
    (hd : G.distance start goal0 = .ok h0) (h : solve G C Q MAX start (goal0 :: rest) = .ok none) :
    start ∈ goal0 :: rest ∨
      ∀ q c g, g ∈ goal0 :: rest → Trip (charged G goal0) start q c g → MAX ≤ h0 + c := by
  by_cases hs : start ∈ goal0 :: rest
  · exact Or.inl hs
  · have hf : far G goal0 start = h0 := by
      have := (far_eq S hstart).1
      rw [hd] at this
      cases this; rfl
    rcases solve_main L S hstart rest hs with ⟨h1, h2⟩ | ⟨p', c, g, h1, -⟩ | ⟨h1, -⟩
    · rw [hf] at h2; exact Or.inr h2
    · rw [h1] at h; cases h
    · rw [h1] at h; cases h

/-- **C81, total**: the only panics are those of a full heap or a full path, and with at most `PATH_MAX` nodes and
fewer than `HEAP_MAX` edges there is none: the call returns, and finds a path exactly when the start is no goal and
some trip to a goal is charged less than the largest cost. -/
theorem C81_total (L : QueueLaws Q HEAP_MAX) (S : Sound G C MAX goal0 Node) (hstart : Node start) {h0 : Nat}
    (hd : G.distance start goal0 = .ok h0) :
    (∀ e, solve G C Q MAX start (goal0 :: rest) = .error e → e = .capacity) ∧
    (Small G Node →
      ((∃ p, solve G C Q MAX start (goal0 :: rest) = .ok (some p)) ↔
        start ∉ goal0 :: rest ∧ ∃ q c g, g ∈ goal0 :: rest ∧ Trip (charged G goal0) start q c g ∧ h0 + c < MAX) ∧
      ∃ r, solve G C Q MAX start (goal0 :: rest) = .ok r) := by
  have hf : far G goal0 start = h0 := by
    have := (far_eq S hstart).1
    rw [hd] at this
    cases this; rfl
  by_cases hs : start ∈ goal0 :: rest
  · rw [solve_start L S hstart rest hs]
    refine ⟨fun e h => (by cases h), fun _ => ⟨⟨fun ⟨p, h⟩ => (by cases h), fun h => absurd hs h.1⟩, none, rfl⟩⟩
  · rcases solve_main L S hstart rest hs with ⟨h1, h2⟩ | ⟨p', c, g, h1, h2, h3, h4, -⟩ | ⟨h1, Y, y1, y2, y3⟩
    · rw [h1]
      refine ⟨fun e h => (by cases h), fun _ => ⟨⟨fun ⟨p, h⟩ => (by cases h), ?_⟩, none, rfl⟩⟩
      rintro ⟨-, q, c, g, hg, ht, hlt⟩
      have := h2 q c g hg ht
      omega
    · rw [h1]
      refine ⟨fun e h => (by cases h), fun _ => ⟨⟨fun _ => ⟨hs, p', c, g, h2, h3, by omega⟩, fun _ => ⟨p', rfl⟩⟩, _, rfl⟩⟩
    · rw [h1]
      refine ⟨fun e h => (by cases h; rfl), ?_⟩
      rintro ⟨B, b1, b2, b3⟩
      exfalso
      rcases y3 with y3 | y3
      · rw [out_sum S y2] at y3
        have := edgeCount_mono (G := G) y1 (fun u hu => b1 u (y2 u hu))
        omega
      · have := (y1.subperm (fun u hu => b1 u (y2 u hu))).length_le
        omega

omit [DecidableEq α] in
theorem Old.trip_zero (hz : ∀ u, G.distance u goal0 = .ok 0) {u v : α} {p : List α} {c : Nat} :
    Trip (charged G goal0) u p c v ↔ Trip (edgesOf G) u p c v := by
  constructor
  · intro h
    induction h with
    | here u => exact Trip.here u
    | step hs _ ih =>
      obtain ⟨e, d, h1, h2, rfl⟩ := hs
      rw [hz] at h2
      cases h2
      exact Trip.step h1 ih
  · intro h
    induction h with
    | here u => exact Trip.here u
    | @step u x v w c p hs _ ih => exact Trip.step ⟨w, 0, hs, hz _, rfl⟩ ih

/-- **C81, shortest**: in a maze whose distances are all 0 the path is a shortest one. -/
theorem C81_shortest (L : QueueLaws Q HEAP_MAX) (S : Sound G C MAX goal0 Node) (hstart : Node start) {p : List α}
    (hz : ∀ u, G.distance u goal0 = .ok 0) (h : solve G C Q MAX start (goal0 :: rest) = .ok (some p)) :
    ∃ g ∈ goal0 :: rest, ∃ c, Trip (edgesOf G) start p c g ∧
      ∀ q c' g', g' ∈ goal0 :: rest → Trip (edgesOf G) start q c' g' → c ≤ c' := by
  obtain ⟨-, -, g, hg, c, h1, h2⟩ := C81_found L S hstart h
  exact ⟨g, hg, c, (trip_zero hz).mp h1, fun q c' g' hg' ht => h2 q c' g' hg' ((trip_zero hz).mpr ht)⟩

/-! ### A queue, and a maze in which the path returned is not a shortest one -/

namespace Old

/-- Extraction of an entry of least cost. -/
def minIdx {ι : Type} : List (Nat × ι) → Option ((Nat × ι) × List (Nat × ι))
  | [] => none
  | e :: l =>
    match minIdx l with
    | none => some (e, [])
    | some (x, r) => if e.1 ≤ x.1 then some (e, x :: r) else some (x, e :: r)

theorem minIdx_none {ι : Type} : ∀ l : List (Nat × ι), minIdx l = none → l = []
  | [], _ => rfl
  | e :: l, h => by
    unfold minIdx at h
    split at h
    · cases h
    · split at h <;> cases h

theorem minIdx_some {ι : Type} : ∀ (l : List (Nat × ι)) e r, minIdx l = some (e, r) →
    l.Perm (e :: r) ∧ ∀ x ∈ l, e.1 ≤ x.1
  | [], e, r, h => by cases h
  | a :: l, e, r, h => by
    unfold minIdx at h
    split at h
    · rename_i hn
      have := minIdx_none l hn
      subst this
      cases h
      exact ⟨List.Perm.refl _, by simp⟩
    · rename_i x r' hs
      obtain ⟨h1, h2⟩ := minIdx_some l x r' hs
      split at h
      · rename_i hle
        cases h
        refine ⟨List.Perm.cons _ h1, ?_⟩
        intro y hy
        rcases List.mem_cons.mp hy with rfl | hy
        · exact Nat.le_refl _
        · have := h2 y hy; omega
      · rename_i hle
        cases h
        refine ⟨(List.Perm.cons _ h1).trans (List.Perm.swap _ _ _), ?_⟩
        intro y hy
        rcases List.mem_cons.mp hy with rfl | hy
        · omega
        · exact h2 y hy

/-- A bounded list as a queue. -/
def listQueue (ι : Type) (cap : Nat) : Queue ι where
  H := List (Nat × ι)
  empty := []
  push h e := if h.length < cap then some (e :: h) else none
  pop := minIdx

def listQueueLaws (ι : Type) (cap : Nat) : QueueLaws (listQueue ι cap) cap where
  elems h := h
  elems_empty := rfl
  push_full h e hc := by
    show (if _ then _ else _) = none
    rw [if_neg (by omega)]
  push_ok h e hc := ⟨e :: h, if_pos hc, List.Perm.refl _⟩
  pop_none := minIdx_none
  pop_some := minIdx_some

/-- Four places in a line, 3 apart; from the first there is a way along the line and a direct one of cost 10. -/
def line : Graph (Fin 4) where
  successors u := .ok (match u with | 0 => [(3, 10), (1, 3)] | 1 => [(2, 3)] | 2 => [(3, 3)] | 3 => [])
  predecessors _ := .ok []
  distance u v := .ok (3 * ((v.val - u.val) + (u.val - v.val)))

def lineCoding : Coding (Fin 4) Nat where
  index u := .ok u
  id u := .ok u
  ofId i := if h : i < 4 then .ok ⟨i, h⟩ else .error .unreachable

theorem line_sound : Sound line lineCoding 65535 3 (fun _ => True) where
  index u _ := ⟨u, rfl, by have := u.isLt; unfold NODE_MAX WIDTH_MAX; omega⟩
  inj u v _ _ h := by
    have h : (Except.ok (u : Nat) : R Nat) = Except.ok (v : Nat) := h
    exact Fin.ext (Except.ok.inj h)
  code u _ := ⟨u, rfl, by show (if h : _ then _ else _) = _; rw [dif_pos u.isLt]⟩
  succ u _ := ⟨_, rfl, by revert u; decide, fun _ _ => trivial⟩
  dist u _ := ⟨_, rfl, by revert u; decide⟩
  fits u w v _ := by
    rintro ⟨e, h, ⟨l, hl, hm⟩, hd, rfl⟩
    have hd : (3 * ((3 - v.val) + (v.val - 3))) = h := Except.ok.inj hd
    have hv := v.isLt
    have he : e ≤ 10 := by
      have hl : _ = l := Except.ok.inj hl
      subst hl
      fin_cases u <;> simp at hm <;> omega
    omega

/-- The distances never exceed the cost of an edge and the remaining distance. -/
theorem line_consistent : ∀ u w v, edgesOf line u w v → ∀ a b, line.distance u 3 = .ok a → line.distance v 3 = .ok b →
    a ≤ w + b := by
  rintro u w v ⟨l, hl, hm⟩ a b ha hb
  have ha : (3 * ((3 - u.val) + (u.val - 3))) = a := Except.ok.inj ha
  have hb : (3 * ((3 - v.val) + (v.val - 3))) = b := Except.ok.inj hb
  have hl : _ = l := Except.ok.inj hl
  subst hl ha hb
  fin_cases u <;> simp at hm
  · rcases hm with ⟨rfl, rfl⟩ | ⟨rfl, rfl⟩ <;> decide
  · obtain ⟨rfl, rfl⟩ := hm; decide
  · obtain ⟨rfl, rfl⟩ := hm; decide

end Old

/-- **C81, finding**: the distance from the goal is added at every step and kept in the cost, so it is no A* search:
here the distances are consistent with the edges, the way along the line costs 9, and the solver returns the direct
way, which costs 10. -/
theorem C81_detour :
    solve line lineCoding (listQueue Nat HEAP_MAX) 65535 0 [3] = .ok (some [0, 3]) ∧
    Trip (edgesOf line) 0 [0, 1, 2, 3] 9 3 ∧ (∀ c, Trip (edgesOf line) 0 [0, 3] c 3 → c = 10) := by
  refine ⟨by rfl, ?_, ?_⟩
  · have e : ∀ u v w l, line.successors u = .ok l → (v, w) ∈ l → edgesOf line u w v := fun u v w l h1 h2 => ⟨l, h1, h2⟩
    exact Trip.step (e 0 1 3 _ rfl (by simp)) (Trip.step (e 1 2 3 _ rfl (by simp))
      (Trip.step (e 2 3 3 _ rfl (by simp)) (Trip.here 3)))
  · intro c h
    cases h with
    | step hs ht =>
      cases ht with
      | here =>
        obtain ⟨l, hl, hm⟩ := hs
        have hl : _ = l := Except.ok.inj hl
        subst hl
        simpa using hm
      | step hs' ht' => cases ht'

/-- The hypotheses of C81 hold for this maze, and the result is a path. -/
example : Sound line lineCoding 65535 3 (fun _ => True) ∧ Small line (fun _ => True) ∧
    ∃ p, solve line lineCoding (listQueue Nat HEAP_MAX) 65535 0 [3] = .ok (some p) :=
  ⟨line_sound, ⟨[0, 1, 2, 3], by decide, by decide, by decide⟩, _, C81_detour.1⟩

/-- A start that is a goal, and a goal that cannot be reached. -/
example : solve line lineCoding (listQueue Nat HEAP_MAX) 65535 3 [3] = .ok none ∧
    solve line lineCoding (listQueue Nat HEAP_MAX) 65535 1 [0] = .ok none := ⟨by rfl, by rfl⟩

end Verif.Props
