import Verif.Proof.SearchUnchecked
import Mathlib.Data.List.Perm.Basic
/-! # `neighbors` and `candidates` -/
namespace Verif.Grid
open Verif Verif.Search Verif.Spec Verif.Bfs

def nb (W : Nat) (ws : Coord → WallState) (c : Coord) (dx dy : Int) : List Coord :=
  match rel W c dx dy with
  | some d => if ws d ≠ .checked true then [d] else []
  | none => []

theorem nb_length {W ws c dx dy} : (nb W ws c dx dy).length ≤ 1 := by
  unfold nb; split <;> (try split) <;> simp

def nbrs (W : Nat) (ws : Coord → WallState) (c : Coord) : List Coord :=
  nb W ws c 1 (-1) ++ nb W ws c (-1) (-1) ++ nb W ws c (-1) 1 ++ nb W ws c 1 1 ++
    if c.isTop then nb W ws c 0 (-2) ++ nb W ws c 0 2 else nb W ws c (-2) 0 ++ nb W ws c 2 0

theorem addNeighbor_eq {W : Nat} {c : Coord} {ws : Coord → WallState} {dx dy : Int}
    {acc : List Coord} (hW : W ≤ 32) (hx : c.x < 128) (hy : c.y < 128) (hl : acc.length < 6) :
    addNeighbor W c ws dx dy acc = .ok (acc ++ nb W ws c dx dy) := by
  unfold addNeighbor nb
  rw [newRelative_eq hW hx hy]
  cases hr : rel W c dx dy with
  | some d =>
    simp only
    by_cases h : ws d = .checked true
    · simp [h]
    · simp [h, pushCap, hl]
  | none => simp

theorem neighbors_eq {W : Nat} {c : Coord} (hW : W ≤ 32) (hx : c.x < 128) (hy : c.y < 128)
    (ws : Coord → WallState) : c.neighbors W ws = .ok (nbrs W ws c) := by
  have l1 := @nb_length W ws c 1 (-1)
  have l2 := @nb_length W ws c (-1) (-1)
  have l3 := @nb_length W ws c (-1) 1
  have l4 := @nb_length W ws c 1 1
  have l5 := @nb_length W ws c 0 (-2)
  have l6 := @nb_length W ws c (-2) 0
  unfold Coord.neighbors nbrs
  simp only [bind, Except.bind]
  rw [addNeighbor_eq hW hx hy (by simp)]
  simp only
  rw [addNeighbor_eq hW hx hy (by simp; omega)]
  simp only
  rw [addNeighbor_eq hW hx hy (by simp; omega)]
  simp only
  rw [addNeighbor_eq hW hx hy (by simp; omega)]
  simp only
  by_cases ht : c.isTop = true
  · simp only [ht, if_true]
    rw [addNeighbor_eq hW hx hy (by simp; omega)]
    simp only
    rw [addNeighbor_eq hW hx hy (by simp; omega)]
    simp
  · simp only [ht]
    rw [if_neg (by simp), addNeighbor_eq hW hx hy (by simp; omega)]
    simp only
    rw [addNeighbor_eq hW hx hy (by simp; omega)]
    simp

theorem nbrs_length {W ws c} : (nbrs W ws c).length ≤ 6 := by
  have l1 := @nb_length W ws c 1 (-1)
  have l2 := @nb_length W ws c (-1) (-1)
  have l3 := @nb_length W ws c (-1) 1
  have l4 := @nb_length W ws c 1 1
  have l5 := @nb_length W ws c 0 (-2)
  have l6 := @nb_length W ws c (-2) 0
  have l7 := @nb_length W ws c 0 2
  have l8 := @nb_length W ws c 2 0
  unfold nbrs
  split <;> simp <;> omega

theorem mem_nb {W ws} {c d : Coord} {dx dy} : d ∈ nb W ws c dx dy ↔
    (d.x : Int) = c.x + dx ∧ (d.y : Int) = c.y + dy ∧ d.x < 2 * W ∧ d.y < 2 * W ∧
      ws d ≠ .checked true := by
  unfold nb
  constructor
  · intro h
    split at h
    · rename_i e he
      split at h
      · simp only [List.mem_singleton] at h; subst h
        have := rel_some.1 he
        tauto
      · simp at h
    · simp at h
  · rintro ⟨h1, h2, h3, h4, h5⟩
    rw [rel_some.2 ⟨h1, h2, h3, h4⟩]
    simp [h5]

/-- Membership in the neighbour list, by offsets. -/
theorem mem_nbrs' {W ws} {c d : Coord} : d ∈ nbrs W ws c ↔
    StepDir c ((d.x : Int) - c.x) ((d.y : Int) - c.y) ∧ d.x < 2 * W ∧ d.y < 2 * W ∧
      ws d ≠ .checked true := by
  unfold nbrs
  by_cases ht : c.isTop = true
  · have hy := isTop_iff.1 ht
    simp only [ht, if_true, List.mem_append, mem_nb]
    unfold StepDir
    constructor
    · rintro ((((h | h) | h) | h) | (h | h)) <;> refine ⟨by omega, ?_⟩ <;> tauto
    · rintro ⟨h, h1, h2, h3⟩
      have h4 : (ws d ≠ .checked true) = True := by simp [h3]
      simp only [h1, h2, h4, and_true, true_and]
      omega
  · have hy : c.y % 2 = 0 := by have := mt isTop_iff.2 ht; omega
    simp only [ht, List.mem_append]
    rw [if_neg (by simp)]
    simp only [List.mem_append, mem_nb]
    unfold StepDir
    constructor
    · rintro ((((h | h) | h) | h) | (h | h)) <;> refine ⟨by omega, ?_⟩ <;> tauto
    · rintro ⟨h, h1, h2, h3⟩
      have h4 : (ws d ≠ .checked true) = True := by simp [h3]
      simp only [h1, h2, h4, and_true, true_and]
      omega

/-- Steps in the six directions are the walls of a common cell. -/
theorem stepDir_adjacent {W : Nat} {c d : Coord} (hc : Valid W c) :
    (StepDir c ((d.x : Int) - c.x) ((d.y : Int) - c.y) ∧ d.x < 2 * W ∧ d.y < 2 * W) ↔
      Adjacent W c d := by
  obtain ⟨c1, c2, c3⟩ := hc
  unfold Adjacent Valid Touches StepDir
  constructor
  · rintro ⟨h, h1, h2⟩
    refine ⟨⟨c1, c2, c3⟩, ⟨h1, h2, by omega⟩, by rintro rfl; omega, ?_⟩
    by_cases hcy : c.y % 2 = 1
    · simp only [hcy, if_true]
      by_cases hdy : d.y % 2 = 1
      · simp only [hdy, if_true]
        exact ⟨((c.x : Int) / 2, ((c.y : Int) + d.y) / 4), by omega, by omega⟩
      · simp only [hdy, if_false]
        exact ⟨((c.x : Int) / 2, (d.y : Int) / 2), by omega, by omega⟩
    · simp only [hcy, if_false]
      by_cases hdy : d.y % 2 = 1
      · simp only [hdy, if_true]
        exact ⟨((d.x : Int) / 2, (c.y : Int) / 2), by omega, by omega⟩
      · simp only [hdy, if_false]
        exact ⟨(((c.x : Int) + d.x) / 4, (c.y : Int) / 2), by omega, by omega⟩
  · rintro ⟨-, ⟨h1, h2, h3⟩, hne, ⟨cx, cy⟩, ht, ht'⟩
    refine ⟨?_, h1, h2⟩
    have hne' : ¬ (c.x = d.x ∧ c.y = d.y) := by
      rintro ⟨h, h'⟩; apply hne; cases c; cases d; simp_all
    by_cases hcy : c.y % 2 = 1 <;> by_cases hdy : d.y % 2 = 1 <;>
      simp only [hcy, hdy, if_true, if_false] at ht ht' <;> omega

theorem mem_nbrs {W : Nat} {ws} {c d : Coord} (hc : Valid W c) :
    d ∈ nbrs W ws c ↔ Adjacent W c d ∧ ws d ≠ .checked true := by
  rw [mem_nbrs', ← stepDir_adjacent hc]; tauto

theorem nb_nodup {W ws c dx dy} : (nb W ws c dx dy).Nodup := by
  unfold nb; split <;> (try split) <;> simp

theorem nbrs_nodup {W : Nat} {ws} {c : Coord} : (nbrs W ws c).Nodup := by
  have dj : ∀ {dx dy dx' dy' : Int}, (dx, dy) ≠ (dx', dy') →
      ∀ d, d ∈ nb W ws c dx dy → d ∉ nb W ws c dx' dy' := by
    intro dx dy dx' dy' hne d hm hm'
    rw [mem_nb] at hm hm'
    apply hne; ext <;> simp <;> omega
  unfold nbrs
  split <;>
  · simp only [List.nodup_append, nb_nodup, List.mem_append, true_and]
    refine ⟨⟨⟨?_, ?_⟩, ?_⟩, ?_, ?_⟩
    · rintro a ha b hb rfl; exact dj (by simp) a ha hb
    · rintro a ha b hb rfl
      rcases ha with h | h <;> exact dj (by simp) a h hb
    · rintro a ha b hb rfl
      rcases ha with (h | h) | h <;> exact dj (by simp) a h hb
    · rintro a ha b hb rfl; exact dj (by simp) a ha hb
    · rintro a ha b hb rfl
      rcases ha with ((h | h) | h) | h <;> rcases hb with h' | h' <;> exact dj (by simp) a h h'

theorem nbrs_valid {W : Nat} {ws} {c d : Coord} (hc : Valid W c) (h : d ∈ nbrs W ws c) :
    Valid W d := ((mem_nbrs hc).1 h).1.2.1

/-! ## The candidate list -/

theorem pushAll_eq {cap : Nat} : ∀ (l acc : List Coord), acc.length + l.length ≤ cap →
    pushAll cap l acc = .ok (acc ++ l)
  | [], acc, _ => by simp [pushAll]
  | c :: l, acc, h => by
    unfold pushAll
    simp only [List.length_cons] at h
    have : pushCap cap acc c = .ok (acc ++ [c]) := by unfold pushCap; rw [if_pos (by omega)]
    rw [this]
    simp only [bind, Except.bind]
    rw [pushAll_eq l _ (by simp; omega)]
    simp

/-- The candidate order: nearest first, then its own neighbours, then the rest. -/
def arranged (current : Coord) (ns : List Coord) (nearest : Coord) : List Coord :=
  nearest :: (ns.filter fun c => nearest.isNeighbor c && !(decide (nearest = c) || decide (current = c)))
    ++ ns.filter fun c => !nearest.isNeighbor c && !(decide (nearest = c) || decide (current = c))

theorem arranged_perm {current nearest : Coord} {ns : List Coord} (hn : ns.Nodup)
    (hm : nearest ∈ ns) (hc : current ∉ ns) : (arranged current ns nearest).Perm ns := by
  have h1 : (ns.filter fun c => nearest.isNeighbor c && !(decide (nearest = c) || decide (current = c)))
      = (ns.erase nearest).filter fun c => nearest.isNeighbor c := by
    rw [hn.erase_eq_filter, List.filter_filter]
    apply List.filter_congr
    intro c hcm
    have : current ≠ c := by rintro rfl; exact hc hcm
    by_cases h : nearest = c
    · subst h; simp
    · have h' : c ≠ nearest := fun e => h e.symm
      simp [this, h, h']
  have h2 : (ns.filter fun c => !nearest.isNeighbor c && !(decide (nearest = c) || decide (current = c)))
      = (ns.erase nearest).filter fun c => !nearest.isNeighbor c := by
    rw [hn.erase_eq_filter, List.filter_filter]
    apply List.filter_congr
    intro c hcm
    have : current ≠ c := by rintro rfl; exact hc hcm
    by_cases h : nearest = c
    · subst h; simp
    · have h' : c ≠ nearest := fun e => h e.symm
      simp [this, h, h']
  unfold arranged
  rw [h1, h2]
  refine List.Perm.trans ?_ (List.perm_cons_erase hm).symm
  simp only [List.cons_append]
  exact List.Perm.cons _ (List.filter_append_perm _ _)

theorem arrange_eq {current nearest : Coord} {ns : List Coord} (hn : ns.Nodup)
    (hm : nearest ∈ ns) (hc : current ∉ ns) (hl : ns.length ≤ 6) :
    arrange current ns nearest = .ok (arranged current ns nearest) := by
  have hp := (arranged_perm hn hm hc).length_eq
  unfold arranged at hp
  simp only [List.length_append, List.length_cons] at hp
  unfold arrange arranged
  have : pushCap 6 [] nearest = .ok [nearest] := by simp [pushCap]
  simp only [this, bind, Except.bind]
  rw [pushAll_eq _ _ (by simp only [List.length_cons, List.length_nil]; omega)]
  simp only
  rw [pushAll_eq _ _ (by simp only [List.length_append, List.length_cons, List.length_nil]; omega)]
  simp

/-! ## Simulation of the walk to the nearest interesting wall -/

/-- First step of a path. -/
def second (p : List Coord) : Coord := p.getD 1 ⟨0, 0⟩

structure CRel (W : Nat) (ns : List Coord) (cs : CandState) (gs : GState Coord) :
    Prop where
  que : cs.que = gs.que.map fun v => (v, ns.idxOf (second ((gs.pth v).getD [])))
  vis : ∀ v, Valid W v → cs.visited (v.asIndex W) = (gs.pth v).isSome
  valid : ∀ v p, gs.pth v = some p → Valid W v
  len : ∀ v ∈ gs.que, ∀ p, gs.pth v = some p → 2 ≤ p.length
  nodup : gs.que.Nodup
  queVis : ∀ v ∈ gs.que, (gs.pth v).isSome = true

theorem candFor_sim {W : Nat} (hW : Supported W) {ns pu : List Coord}
    {goal : Coord → Bool} {unchecked : Coord → R Bool}
    (hgoal : ∀ c, Valid W c → unchecked c = .ok (goal c)) :
    ∀ (l : List Coord) (cs : CandState) (gs : GState Coord), CRel W ns cs gs →
    (∀ x ∈ l, Valid W x) → 2 ≤ pu.length →
    match gFor goal pu l gs with
    | .cont gs' => ∃ cs', candFor W unchecked (ns.idxOf (second pu)) l cs = .ok (.cont cs') ∧
        CRel W ns cs' gs'
    | .found p => candFor W unchecked (ns.idxOf (second pu)) l cs =
        .ok (.found (ns.idxOf (second p)))
  | [], cs, gs, hR, _, _ => ⟨cs, rfl, hR⟩
  | v :: l, cs, gs, hR, hl, hpu => by
    have hv : Valid W v := hl v (by simp)
    have hi : v.asIndex W < QUE_MAX := asIndex_lt_que hW hv
    have hsec : second (pu ++ [v]) = second pu := by
      unfold second
      rw [List.getD_eq_getElem?_getD, List.getD_eq_getElem?_getD, List.getElem?_append_left (by omega)]
    unfold gFor candFor
    simp only [arrGet, arrSet, hi, if_true, bind, Except.bind]
    have hvis := hR.vis v hv
    by_cases hs : (gs.pth v).isSome = true
    · simp only [hs, if_true, hvis]
      exact candFor_sim hW hgoal l cs gs hR (fun x hx => hl x (by simp [hx])) hpu
    · have hs' : (gs.pth v).isSome = false := by simpa using hs
      rw [hs'] at hvis
      simp only [hs', hvis, Bool.false_eq_true, if_false]
      rw [hgoal v hv]
      by_cases hg : goal v = true
      · simp only [hg, if_true, hsec]
      · have hg' : goal v = false := by simpa using hg
        simp only [hg', Bool.false_eq_true, if_false]
        have hnd : (gs.que ++ [v]).Nodup := by
          rw [List.nodup_append]
          refine ⟨hR.nodup, by simp, ?_⟩
          rintro a ha b hb rfl
          simp only [List.mem_singleton] at hb; subst hb
          have := hR.queVis a ha
          rw [hs'] at this; exact absurd this (by simp)
        have hcap : cs.que.length < QUE_MAX := by
          have h1 := valid_length_le hW hnd (by
            intro c hc
            simp only [List.mem_append, List.mem_singleton] at hc
            rcases hc with hc | rfl
            · obtain ⟨p, hp⟩ := Option.isSome_iff_exists.1 (hR.queVis c hc)
              exact hR.valid c p hp
            · exact hv)
          have h2 := sq_le hW
          have h3 : QUE_MAX = 2048 := rfl
          rw [hR.que]; simp at h1 ⊢; omega
        simp only [pushCap, hcap, if_true]
        refine candFor_sim hW hgoal l _ _ ?_ (fun x hx => hl x (by simp [hx])) hpu
        have hne : ∀ w ∈ gs.que, w ≠ v := by
          rintro w hw rfl
          have := hR.queVis w hw
          rw [hs'] at this; exact absurd this (by simp)
        refine ⟨?_, ?_, ?_, ?_, hnd, ?_⟩
        · simp only [hR.que, List.map_append, List.map_cons, List.map_nil, upd, if_true,
            Option.getD_some, hsec]
          congr 1
          apply List.map_congr_left
          intro w hw
          simp [hne w hw]
        · intro w hw
          by_cases hwv : w = v
          · subst hwv; simp [upd]
          · have : w.asIndex W ≠ v.asIndex W := fun h => hwv (asIndex_inj hW hw hv h)
            simp only [this, if_false, upd, hwv]; exact hR.vis w hw
        · intro w p hp
          by_cases hwv : w = v
          · subst hwv; exact hv
          · simp only [upd, hwv, if_false] at hp; exact hR.valid w p hp
        · intro w hw p hp
          by_cases hwv : w = v
          · subst hwv
            simp only [upd, if_true, Option.some.injEq] at hp
            subst hp; simp; omega
          · simp only [upd, hwv, if_false] at hp
            exact hR.len w (by simpa [hwv] using hw) p hp
        · intro w hw
          simp only [List.mem_append, List.mem_singleton] at hw
          by_cases hwv : w = v
          · simp [upd, hwv]
          · simp only [upd, hwv, if_false]; exact hR.queVis w (by simpa [hwv] using hw)

theorem candLoop_sim {W : Nat} (hW : Supported W) {ns : List Coord}
    {ws : Coord → WallState} {goal : Coord → Bool} {unchecked : Coord → R Bool}
    (hgoal : ∀ c, Valid W c → unchecked c = .ok (goal c)) :
    ∀ (n : Nat) (cs : CandState) (gs : GState Coord), CRel W ns cs gs →
    match gLoop (nbrs W ws) goal n gs with
    | none => True
    | some none => candLoop W ws unchecked n cs = .ok none
    | some (some p) => candLoop W ws unchecked n cs = .ok (some (ns.idxOf (second p)))
  | 0, _, _, _ => by simp [gLoop]
  | n + 1, cs, gs, hR => by
    unfold gLoop candLoop
    rw [hR.que]
    rcases hq : gs.que with _ | ⟨u, q⟩
    · simp
    · simp only [List.map_cons]
      obtain ⟨pu, hpu⟩ := Option.isSome_iff_exists.1 (hR.queVis u (by simp [hq]))
      have huv := hR.valid u pu hpu
      have hlen := hR.len u (by simp [hq]) pu hpu
      have hW' := hW.le
      rw [hpu]
      obtain ⟨u1, u2, u3⟩ := id huv
      rw [neighbors_eq hW' (by omega) (by omega)]
      simp only [Option.getD_some, bind, Except.bind]
      have hR1 : CRel W ns ⟨q.map fun v => (v, ns.idxOf (second ((gs.pth v).getD []))),
          cs.visited⟩ ⟨q, gs.pth⟩ := by
        refine ⟨rfl, hR.vis, hR.valid, fun v hv => hR.len v (by simp [hq, hv]), ?_,
          fun v hv => hR.queVis v (by simp [hq, hv])⟩
        have := hR.nodup; rw [hq] at this; exact (List.nodup_cons.1 this).2
      have hsim := candFor_sim hW hgoal (nbrs W ws u) _ _ hR1
        (fun x hx => nbrs_valid huv hx) hlen
      revert hsim
      cases gFor goal pu (nbrs W ws u) ⟨q, gs.pth⟩ with
      | found p => intro h; rw [h]
      | cont gs' =>
        rintro ⟨cs', h1, h2⟩
        rw [h1]
        exact candLoop_sim hW hgoal n cs' gs' h2

/-- The first loop of `candidates` is the processing of the current coordinate. -/
theorem candFirst_sim {W : Nat} (hW : Supported W) {cur : Coord} {ns : List Coord}
    {goal : Coord → Bool} {unchecked : Coord → R Bool}
    (hgoal : ∀ c, Valid W c → unchecked c = .ok (goal c)) :
    ∀ (l pre : List Coord) (cs : CandState) (gs : GState Coord), CRel W ns cs gs →
    ns = pre ++ l → ns.Nodup →
    (∀ x ∈ l, Valid W x ∧ (gs.pth x).isSome = false) →
    match gFor goal [cur] l gs with
    | .cont gs' => ∃ cs', candFirst W unchecked l pre.length cs = .ok (.cont cs') ∧
        CRel W ns cs' gs'
    | .found p => candFirst W unchecked l pre.length cs = .ok (.found (ns.idxOf (second p)))
  | [], pre, cs, gs, hR, _, _, _ => ⟨cs, rfl, hR⟩
  | v :: l, pre, cs, gs, hR, hns, hnd0, hl => by
    obtain ⟨hv, hs'⟩ := hl v (by simp)
    have hi : v.asIndex W < QUE_MAX := asIndex_lt_que hW hv
    have hsec : second ([cur] ++ [v]) = v := by simp [second]
    have hpre : v ∉ pre := by
      intro h
      rw [hns, List.nodup_append] at hnd0
      exact hnd0.2.2 v h v (by simp) rfl
    have hvl : v ∉ l := by
      intro h
      rw [hns, List.nodup_append] at hnd0
      exact (List.nodup_cons.1 hnd0.2.1).1 h
    have hidx : ns.idxOf v = pre.length := by rw [hns]; simp [List.idxOf_append, hpre]
    unfold gFor candFirst
    simp only [arrSet, hi, if_true, bind, Except.bind]
    simp only [hs', Bool.false_eq_true, if_false]
    rw [hgoal v hv]
    by_cases hg : goal v = true
    · simp only [hg, if_true, hsec, hidx]
    · have hg' : goal v = false := by simpa using hg
      simp only [hg', Bool.false_eq_true, if_false]
      have hnd : (gs.que ++ [v]).Nodup := by
        rw [List.nodup_append]
        refine ⟨hR.nodup, by simp, ?_⟩
        rintro a ha b hb rfl
        simp only [List.mem_singleton] at hb; subst hb
        have := hR.queVis a ha
        rw [hs'] at this; exact absurd this (by simp)
      have hcap : cs.que.length < QUE_MAX := by
        have h1 := valid_length_le hW hnd (by
          intro c hc
          simp only [List.mem_append, List.mem_singleton] at hc
          rcases hc with hc | rfl
          · obtain ⟨p, hp⟩ := Option.isSome_iff_exists.1 (hR.queVis c hc)
            exact hR.valid c p hp
          · exact hv)
        have h2 := sq_le hW
        have h3 : QUE_MAX = 2048 := rfl
        rw [hR.que]; simp at h1 ⊢; omega
      simp only [pushCap, hcap, if_true]
      have hne : ∀ w ∈ gs.que, w ≠ v := by
        rintro w hw rfl
        have := hR.queVis w hw
        rw [hs'] at this; exact absurd this (by simp)
      have ih := candFirst_sim hW (cur := cur) hgoal l (pre ++ [v])
        ⟨cs.que ++ [(v, pre.length)], fun j => if j = v.asIndex W then true else cs.visited j⟩
        ⟨gs.que ++ [v], upd gs.pth v ([cur] ++ [v])⟩ (by
          refine ⟨?_, ?_, ?_, ?_, hnd, ?_⟩
          · simp only [hR.que, List.map_append, List.map_cons, List.map_nil, upd, if_true,
              Option.getD_some, hsec, hidx]
            congr 1
            apply List.map_congr_left
            intro w hw
            simp [hne w hw]
          · intro w hw
            by_cases hwv : w = v
            · subst hwv; simp [upd]
            · have : w.asIndex W ≠ v.asIndex W := fun h => hwv (asIndex_inj hW hw hv h)
              simp only [this, if_false, upd, hwv]; exact hR.vis w hw
          · intro w p hp
            by_cases hwv : w = v
            · subst hwv; exact hv
            · simp only [upd, hwv, if_false] at hp; exact hR.valid w p hp
          · intro w hw p hp
            by_cases hwv : w = v
            · subst hwv
              simp only [upd, if_true, Option.some.injEq] at hp
              subst hp; simp
            · simp only [upd, hwv, if_false] at hp
              exact hR.len w (by simpa [hwv] using hw) p hp
          · intro w hw
            simp only [List.mem_append, List.mem_singleton] at hw
            by_cases hwv : w = v
            · simp [upd, hwv]
            · simp only [upd, hwv, if_false]; exact hR.queVis w (by simpa [hwv] using hw))
        (by simp [hns]) hnd0 (by
          intro x hx
          obtain ⟨h1, h2⟩ := hl x (by simp [hx])
          refine ⟨h1, ?_⟩
          have : x ≠ v := by rintro rfl; exact hvl hx
          simp [upd, this, h2])
      simp only [List.length_append, List.length_singleton] at ih
      exact ih

/-- Abstract search from the current coordinate to the nearest goal. -/
def nearOf (W : Nat) (ws : Coord → WallState) (goal : Coord → Bool) (cur : Coord) :
    Option (Option (List Coord)) :=
  gBfs (nbrs W ws) goal cur (QUE_MAX + 2)

theorem nbrs_walk_valid {W : Nat} {ws} {s v : Coord} (hs : Valid W s) {p}
    (h : Walk (nbrs W ws) s v p) : Valid W v := by
  induction h with
  | nil => exact hs
  | snoc _ hv ih => exact nbrs_valid ih hv

theorem nearOf_ne_none {W : Nat} (hW : Supported W) {cur : Coord} (hc : Valid W cur) {ws goal} :
    nearOf W ws goal cur ≠ none := by
  refine gBfs_terminates (univ := univ W) (fun v p h => mem_univ.2 (nbrs_walk_valid hc h)) ?_
  have := univ_length hW
  have : QUE_MAX = 2048 := rfl
  omega

theorem second_mem {W : Nat} {ws} {s v : Coord} {p} (h : Walk (nbrs W ws) s v p) (hne : v ≠ s) :
    second p ∈ nbrs W ws s ∧ ∃ l, p = s :: second p :: l := by
  obtain ⟨l, rfl, hl⟩ := h.fchain
  cases l with
  | nil => have := h.getLast; simp at this; exact absurd this.symm hne
  | cons a l => exact ⟨by simpa [second] using hl.1, l, by simp [second]⟩

theorem candidates_sim {W : Nat} (hW : Supported W) {cur : Coord} (hc : Valid W cur)
    {ws : Coord → WallState} {goal : Coord → Bool} {unchecked : Coord → R Bool}
    (hgoal : ∀ c, Valid W c → unchecked c = .ok (goal c)) :
    match nearOf W ws goal cur with
    | none => False
    | some none => candidates W cur ws unchecked = .ok none
    | some (some p) => candidates W cur ws unchecked =
        .ok (some (arranged cur (nbrs W ws cur) (second p))) := by
  have hi := asIndex_lt_que hW hc
  have hne := nearOf_ne_none hW hc (ws := ws) (goal := goal)
  have hspec := gBfs_spec (adj := nbrs W ws) (goal := goal) (s := cur) (QUE_MAX + 2)
  have hcur : cur ∉ nbrs W ws cur := by
    intro h; exact ((mem_nbrs hc).1 h).1.2.2.1 rfl
  have hR : CRel W (nbrs W ws cur) ⟨[], fun j => if j = cur.asIndex W then true else false⟩
      ⟨[], (gInit cur).pth⟩ := by
    refine ⟨by simp, ?_, ?_, by simp, by simp, by simp⟩
    · intro v hv
      by_cases hvs : v = cur
      · subst hvs; simp [gInit]
      · have : v.asIndex W ≠ cur.asIndex W := fun h => hvs (asIndex_inj hW hv hc h)
        simp [gInit, this, hvs]
    · intro v p hp
      simp only [gInit] at hp
      split at hp
      · rename_i h; subst h; exact hc
      · simp at hp
  have h1 := candFirst_sim hW (cur := cur) hgoal (nbrs W ws cur) [] _ _ hR (by simp) nbrs_nodup (by
    intro x hx
    refine ⟨nbrs_valid hc hx, ?_⟩
    have : x ≠ cur := by rintro rfl; exact hcur hx
    simp [gInit, this])
  have hpick : ∀ {p v}, Walk (nbrs W ws) cur v p → v ≠ cur →
      (nbrs W ws cur)[(nbrs W ws cur).idxOf (second p)]? = some (second p) ∧
      arrange cur (nbrs W ws cur) (second p) =
        .ok (arranged cur (nbrs W ws cur) (second p)) := by
    intro p v hw hv
    have hm := (second_mem hw hv).1
    refine ⟨?_, arrange_eq nbrs_nodup hm hcur nbrs_length⟩
    rw [List.getElem?_eq_getElem (List.idxOf_lt_length_iff.2 hm), List.getElem_idxOf]
  obtain ⟨c1, c2, c3⟩ := id hc
  unfold nearOf gBfs at hne ⊢
  unfold gBfs at hspec
  have hgl : gLoop (nbrs W ws) goal (QUE_MAX + 2) (gInit cur) =
      match gFor goal [cur] (nbrs W ws cur) ⟨[], (gInit cur).pth⟩ with
      | .found p => some (some p)
      | .cont s' => gLoop (nbrs W ws) goal (QUE_MAX + 1) s' := by
    conv_lhs => unfold gLoop
    simp only [gInit, if_true, Option.getD_some]
    generalize gFor goal [cur] (nbrs W ws cur) _ = o
    cases o <;> rfl
  rw [hgl] at hne hspec ⊢
  unfold candidates
  simp only [arrSet, hi, if_true, bind, Except.bind]
  rw [neighbors_eq hW.le (by have := hW.le; omega) (by have := hW.le; omega)]
  simp only
  revert h1 hne hspec
  simp only [List.length_nil]
  cases gFor goal [cur] (nbrs W ws cur) ⟨[], (gInit cur).pth⟩ with
  | found p =>
    rintro hne ⟨v, hw, hv, -⟩ h1
    rw [h1]
    obtain ⟨h2, h3⟩ := hpick hw hv
    simp only [h2, h3]
    rfl
  | cont gs' =>
    rintro hne hspec ⟨cs', h1, h2⟩
    rw [h1]
    have h3 := candLoop_sim hW hgoal (ws := ws) (QUE_MAX + 1) cs' gs' h2
    simp only at hne hspec ⊢
    revert hne hspec h3
    cases gLoop (nbrs W ws) goal (QUE_MAX + 1) gs' with
    | none => simp
    | some o =>
      cases o with
      | none => intro _ _ h; simp only [h]; rfl
      | some p =>
        rintro - ⟨v, hw, hv, -⟩ h
        obtain ⟨h4, h5⟩ := hpick hw hv
        simp only [h, h4, h5]
        rfl

end Verif.Grid
