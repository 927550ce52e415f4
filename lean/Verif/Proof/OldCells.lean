import Verif.Spec.OldExplore
import Verif.Proof.OldTotals
/-! A path of drivable moves as a walk from cell to cell. -/
namespace Verif.Proof.OldS
open Verif Verif.Run Verif.Spec Verif.Old Verif.Proof Verif.Proof.OldN

variable {W : Nat} {n m : Node} {isWall : Search.Coord → Bool}

def units : List V := [(0, 1), (1, 0), (0, -1), (-1, 0)]

/-- A walk on positions. -/
inductive VW : V → List V → V → Prop
  | nil (a : V) : VW a [] a
  | cons (a e b : V) (l : List V) : e ∈ units → VW (a.1 + 2 * e.1, a.2 + 2 * e.2) l b → VW a ((a.1 + e.1, a.2 + e.2) :: l) b

theorem VW.mk (e : V) {a a' c b : V} {l : List V} (he : e ∈ units) (h1 : a' = (a.1 + e.1, a.2 + e.2)) (h2 : c = (a.1 + 2 * e.1, a.2 + 2 * e.2))
    (h : VW c l b) : VW a (a' :: l) b := by
  subst h1 h2
  exact .cons a e b l he h

theorem inFrame_unit {f s e : V} (hA : Axes f s) (he : e ∈ units) : inFrame f s e ∈ units := by
  unfold Axes at hA
  simp only [units, List.mem_cons, List.not_mem_nil, or_false] at he
  rcases hA with ⟨rfl, rfl⟩ | ⟨rfl, rfl⟩ | ⟨rfl, rfl⟩ | ⟨rfl, rfl⟩ | ⟨rfl, rfl⟩ | ⟨rfl, rfl⟩ | ⟨rfl, rfl⟩ | ⟨rfl, rfl⟩ <;>
    rcases he with rfl | rfl | rfl | rfl <;> decide

theorem vw_frame {f s p : V} (hA : Axes f s) {a b : V} {l : List V} (h : VW a l b) :
    VW (p.1 + (inFrame f s a).1, p.2 + (inFrame f s a).2) (l.map fun d => (p.1 + (inFrame f s d).1, p.2 + (inFrame f s d).2))
      (p.1 + (inFrame f s b).1, p.2 + (inFrame f s b).2) := by
  induction h with
  | nil a => exact .nil _
  | cons a e b l he h ih =>
    have h1 : (p.1 + (inFrame f s (a.1 + 2 * e.1, a.2 + 2 * e.2)).1, p.2 + (inFrame f s (a.1 + 2 * e.1, a.2 + 2 * e.2)).2) =
        (((p.1 + (inFrame f s a).1, p.2 + (inFrame f s a).2) : V).1 + 2 * (inFrame f s e).1,
          ((p.1 + (inFrame f s a).1, p.2 + (inFrame f s a).2) : V).2 + 2 * (inFrame f s e).2) := by
      simp only [inFrame, Prod.mk.injEq]; constructor <;> ring
    rw [h1] at ih
    have h2 := VW.cons _ _ _ _ (inFrame_unit hA he) ih
    rw [List.map_cons]
    convert h2 using 2
    simp only [inFrame, Prod.mk.injEq]; constructor <;> ring

theorem vw_cells {C D : V} {l : List V} (h : VW C l D) : ∀ {now : List Search.Coord}, C.1 % 2 = 0 → C.2 % 2 = 0 →
    now.map (fun c => ((c.x : Int), (c.y : Int))) = l → ∃ cells, CellWalk C now cells ∧ cells.getLast? = some D := by
  induction h with
  | nil a =>
    intro now _ _ h
    rw [List.map_eq_nil_iff] at h
    subst h
    exact ⟨_, .stay a, rfl⟩
  | cons a e b l he _ ih =>
    intro now h1 h2 h
    cases now with
    | nil => cases h
    | cons c now =>
      rw [List.map_cons] at h
      injection h with h3 h4
      simp only [Prod.mk.injEq] at h3
      obtain ⟨cells, h5, h6⟩ := ih (by simp only; omega) (by simp only; omega) h4
      refine ⟨_, .step _ _ c now cells ⟨h1, h2, e, he, h3.1, h3.2, rfl⟩ h5, ?_⟩
      cases h5 <;> simpa using h6

theorem straight_walk (j : Nat) : VW (0, 0) ((List.range j).map fun i : Nat => (2 * (i : Int) + 1, 0)) (2 * j, 0) := by
  have : ∀ (k j : Nat), VW (2 * (k : Int), 0) ((List.range j).map fun i : Nat => (2 * ((k + i : Nat) : Int) + 1, 0)) (2 * ((k + j : Nat) : Int), 0) := by
    intro k j
    induction j generalizing k with
    | zero => exact .nil _
    | succ j ih =>
      rw [List.range_succ_eq_map, List.map_cons, List.map_map]
      have h := VW.cons ((2 * (k : Int), 0) : V) (1, 0) (2 * ((k + (j + 1) : Nat) : Int), 0)
        ((List.range j).map ((fun i : Nat => ((2 * ((k + i : Nat) : Int) + 1, 0) : V)) ∘ Nat.succ)) (by decide) (by
          have h := ih (k + 1)
          convert h using 1
          · simp only [Prod.mk.injEq]; exact ⟨by push_cast; ring, by ring⟩
          · apply List.map_congr_left; intro i _; simp only [Function.comp, Prod.mk.injEq, and_true]; push_cast; ring
          · simp only [Prod.mk.injEq, and_true]; push_cast; ring)
      convert h using 2
      simp
  have h := this 0 j
  simpa using h

/-- The cell ahead on a diagonal, in the frame of the wall. -/
def zig (i : Nat) : V := if i % 2 = 0 then ((i : Int) + 1, (i : Int)) else ((i : Int), (i : Int) + 1)

theorem diagonal_walk (j : Nat) : VW (1, 0) ((List.range j).map fun i : Nat => ((i : Int) + 1, (i : Int) + 1)) (zig j) := by
  have : ∀ (k j : Nat), VW (zig k) ((List.range j).map fun i : Nat => (((k + i : Nat) : Int) + 1, ((k + i : Nat) : Int) + 1)) (zig (k + j)) := by
    intro k j
    induction j generalizing k with
    | zero => exact .nil _
    | succ j ih =>
      rw [List.range_succ_eq_map, List.map_cons, List.map_map]
      have h := VW.cons (zig k) (if k % 2 = 0 then (0, 1) else (1, 0)) (zig (k + (j + 1)))
        ((List.range j).map ((fun i : Nat => ((((k + i : Nat) : Int) + 1, ((k + i : Nat) : Int) + 1) : V)) ∘ Nat.succ)) (by split <;> decide) (by
          have h := ih (k + 1)
          convert h using 1
          · unfold zig
            by_cases hk : k % 2 = 0
            · have : ¬ (k + 1) % 2 = 0 := by omega
              simp only [if_pos hk, if_neg this, Prod.mk.injEq]; constructor <;> push_cast <;> ring
            · have : (k + 1) % 2 = 0 := by omega
              simp only [if_neg hk, if_pos this, Prod.mk.injEq]; constructor <;> push_cast <;> ring
          · apply List.map_congr_left; intro i _; simp only [Function.comp, Prod.mk.injEq]; constructor <;> (push_cast; ring)
          · congr 1; omega)
      convert h using 2
      unfold zig
      by_cases hk : k % 2 = 0
      · simp [if_pos hk]
      · simp [if_neg hk]
  have h := this 0 j
  simpa [zig] using h

/-- The cell in which a run pose is, or which it looks into. -/
def aheadOf (n : Node) : V :=
  if n.x % 2 = 0 ∧ n.y % 2 = 0 then (n.x, n.y)
  else if n.x % 2 = 1 then (n.x + (heading n.posture).1, n.y) else (n.x, n.y + (heading n.posture).2)

theorem aheadOf_even (hn : Legal W n) : (aheadOf n).1 % 2 = 0 ∧ (aheadOf n).2 % 2 = 0 := by
  obtain ⟨x, y, p⟩ := n
  obtain ⟨-, -, ⟨h1, h2, -⟩ | ⟨h1, hp⟩⟩ := hn
  · unfold aheadOf; simp only at h1 h2 ⊢; rw [if_pos ⟨h1, h2⟩]; simp only; omega
  · unfold aheadOf
    simp only at h1 hp ⊢
    rw [if_neg (by omega)]
    split
    · cases p <;> simp [heading] at hp ⊢ <;> omega
    · cases p <;> simp [heading] at hp ⊢ <;> omega

theorem move_walk (hn : Legal W n) {k : EdgeKind} {crossed : List V} (hR : Related n k m crossed) :
    VW (aheadOf n) (crossed.map fun d => ((n.x : Int) + d.1, (n.y : Int) + d.2)) (aheadOf m) := by
  obtain ⟨f, s, fin, head, cr, hF, hS, hx, hy, hh, rfl⟩ := hR
  rw [List.map_map]
  unfold Shape at hS
  by_cases hc : n.x % 2 = 0 ∧ n.y % 2 = 0
  · obtain ⟨hA, -⟩ := (frame_centre hn hc f s).mp hF
    rw [if_pos hc] at hS
    have e0 : aheadOf n = ((n.x : Int) + (inFrame f s (0, 0)).1, (n.y : Int) + (inFrame f s (0, 0)).2) := by
      unfold aheadOf; rw [if_pos hc]; simp [inFrame]
    have main : ∀ b : V, VW (0, 0) cr b → aheadOf m = ((n.x : Int) + (inFrame f s b).1, (n.y : Int) + (inFrame f s b).2) →
        VW (aheadOf n) (cr.map ((fun d : V => ((n.x : Int) + d.1, (n.y : Int) + d.2)) ∘ inFrame f s)) (aheadOf m) := by
      intro b h1 h2
      rw [e0, h2]
      exact vw_frame (p := (n.x, n.y)) hA h1
    have two : VW (0, 0) [(1, 0), (2, 1)] (2, 2) :=
      .mk (1, 0) (c := (2, 0)) (by decide) (by decide) (by decide) (.mk (0, 1) (c := (2, 2)) (by decide) (by decide) (by decide) (.nil _))
    have three : VW (0, 0) [(1, 0), (2, 1), (1, 2)] (0, 2) :=
      .mk (1, 0) (c := (2, 0)) (by decide) (by decide) (by decide) (.mk (0, 1) (c := (2, 2)) (by decide) (by decide) (by decide)
        (.mk (-1, 0) (c := (0, 2)) (by decide) (by decide) (by decide) (.nil _)))
    have hA' := hA
    unfold Axes at hA'
    cases hS with
    | straight j hj =>
      refine main _ (straight_walk j) ?_
      unfold aheadOf
      rw [if_pos, hx, hy]
      rcases hA' with ⟨rfl, rfl⟩ | ⟨rfl, rfl⟩ | ⟨rfl, rfl⟩ | ⟨rfl, rfl⟩ | ⟨rfl, rfl⟩ | ⟨rfl, rfl⟩ | ⟨rfl, rfl⟩ | ⟨rfl, rfl⟩ <;>
        simp [inFrame] at hx hy <;> omega
    | slalom45 =>
      refine main _ two ?_
      unfold aheadOf
      rw [hx, hy, hh]
      rcases hA' with ⟨rfl, rfl⟩ | ⟨rfl, rfl⟩ | ⟨rfl, rfl⟩ | ⟨rfl, rfl⟩ | ⟨rfl, rfl⟩ | ⟨rfl, rfl⟩ | ⟨rfl, rfl⟩ | ⟨rfl, rfl⟩ <;>
        simp only [inFrame] at hx hy ⊢ <;> split_ifs <;> simp only [Prod.mk.injEq] <;> omega
    | slalom90 =>
      refine main _ two ?_
      unfold aheadOf
      rw [if_pos, hx, hy]
      rcases hA' with ⟨rfl, rfl⟩ | ⟨rfl, rfl⟩ | ⟨rfl, rfl⟩ | ⟨rfl, rfl⟩ | ⟨rfl, rfl⟩ | ⟨rfl, rfl⟩ | ⟨rfl, rfl⟩ | ⟨rfl, rfl⟩ <;>
        simp [inFrame] at hx hy <;> omega
    | slalom135 =>
      refine main _ three ?_
      unfold aheadOf
      rw [hx, hy, hh]
      rcases hA' with ⟨rfl, rfl⟩ | ⟨rfl, rfl⟩ | ⟨rfl, rfl⟩ | ⟨rfl, rfl⟩ | ⟨rfl, rfl⟩ | ⟨rfl, rfl⟩ | ⟨rfl, rfl⟩ | ⟨rfl, rfl⟩ <;>
        simp only [inFrame] at hx hy ⊢ <;> split_ifs <;> simp only [Prod.mk.injEq] <;> omega
    | slalom180 =>
      refine main _ three ?_
      unfold aheadOf
      rw [if_pos, hx, hy]
      rcases hA' with ⟨rfl, rfl⟩ | ⟨rfl, rfl⟩ | ⟨rfl, rfl⟩ | ⟨rfl, rfl⟩ | ⟨rfl, rfl⟩ | ⟨rfl, rfl⟩ | ⟨rfl, rfl⟩ | ⟨rfl, rfl⟩ <;>
        simp [inFrame] at hx hy <;> omega
  · obtain ⟨hA, hp, hv⟩ := (frame_bound hn hc f s).mp hF
    rw [if_neg hc] at hS
    have hodd : (n.x + n.y) % 2 = 1 := by
      obtain ⟨-, -, ⟨h1, h2, -⟩ | ⟨h1, -⟩⟩ := hn
      · exact absurd ⟨h1, h2⟩ hc
      · exact h1
    have hA' := hA
    unfold Axes at hA'
    have e0 : aheadOf n = ((n.x : Int) + (inFrame f s (1, 0)).1, (n.y : Int) + (inFrame f s (1, 0)).2) := by
      unfold aheadOf; rw [if_neg hc, hp]
      rcases hA' with ⟨rfl, rfl⟩ | ⟨rfl, rfl⟩ | ⟨rfl, rfl⟩ | ⟨rfl, rfl⟩ | ⟨rfl, rfl⟩ | ⟨rfl, rfl⟩ | ⟨rfl, rfl⟩ | ⟨rfl, rfl⟩ <;>
        simp at hv <;> simp only [inFrame] <;> split_ifs <;> simp only [Prod.mk.injEq] <;> omega
    have main : ∀ b : V, VW (1, 0) cr b → aheadOf m = ((n.x : Int) + (inFrame f s b).1, (n.y : Int) + (inFrame f s b).2) →
        VW (aheadOf n) (cr.map ((fun d : V => ((n.x : Int) + d.1, (n.y : Int) + d.2)) ∘ inFrame f s)) (aheadOf m) := by
      intro b h1 h2
      rw [e0, h2]
      exact vw_frame (p := (n.x, n.y)) hA h1
    have one : VW (1, 0) [(1, 1)] (1, 2) := .mk (0, 1) (c := (1, 2)) (by decide) (by decide) (by decide) (.nil _)
    have two : VW (1, 0) [(1, 1), (0, 2)] (-1, 2) :=
      .mk (0, 1) (c := (1, 2)) (by decide) (by decide) (by decide) (.mk (-1, 0) (c := (-1, 2)) (by decide) (by decide) (by decide) (.nil _))
    cases hS with
    | straightDiagonal j hj =>
      refine main _ (diagonal_walk j) ?_
      unfold aheadOf zig
      rw [hx, hy, hh]
      rcases Nat.mod_two_eq_zero_or_one j with hj2 | hj2
      · rw [if_pos hj2]
        rcases hA' with ⟨rfl, rfl⟩ | ⟨rfl, rfl⟩ | ⟨rfl, rfl⟩ | ⟨rfl, rfl⟩ | ⟨rfl, rfl⟩ | ⟨rfl, rfl⟩ | ⟨rfl, rfl⟩ | ⟨rfl, rfl⟩ <;>
          simp at hv <;> simp only [inFrame] at hx hy ⊢ <;> split_ifs <;> simp only [Prod.mk.injEq] <;> omega
      · rw [if_neg (show ¬ j % 2 = 0 by omega)]
        rcases hA' with ⟨rfl, rfl⟩ | ⟨rfl, rfl⟩ | ⟨rfl, rfl⟩ | ⟨rfl, rfl⟩ | ⟨rfl, rfl⟩ | ⟨rfl, rfl⟩ | ⟨rfl, rfl⟩ | ⟨rfl, rfl⟩ <;>
          simp at hv <;> simp only [inFrame] at hx hy ⊢ <;> split_ifs <;> simp only [Prod.mk.injEq] <;> omega
    | slalom45 =>
      refine main _ one ?_
      unfold aheadOf
      rw [if_pos, hx, hy]
      rcases hA' with ⟨rfl, rfl⟩ | ⟨rfl, rfl⟩ | ⟨rfl, rfl⟩ | ⟨rfl, rfl⟩ | ⟨rfl, rfl⟩ | ⟨rfl, rfl⟩ | ⟨rfl, rfl⟩ | ⟨rfl, rfl⟩ <;>
        simp at hv <;> simp only [inFrame] at hx hy ⊢ <;> omega
    | slalomDiagonal90 =>
      refine main _ two ?_
      unfold aheadOf
      rw [hx, hy, hh]
      rcases hA' with ⟨rfl, rfl⟩ | ⟨rfl, rfl⟩ | ⟨rfl, rfl⟩ | ⟨rfl, rfl⟩ | ⟨rfl, rfl⟩ | ⟨rfl, rfl⟩ | ⟨rfl, rfl⟩ | ⟨rfl, rfl⟩ <;>
        simp at hv <;> simp only [inFrame] at hx hy ⊢ <;> split_ifs <;> simp only [Prod.mk.injEq] <;> omega
    | slalom135 =>
      refine main _ two ?_
      unfold aheadOf
      rw [if_pos, hx, hy]
      rcases hA' with ⟨rfl, rfl⟩ | ⟨rfl, rfl⟩ | ⟨rfl, rfl⟩ | ⟨rfl, rfl⟩ | ⟨rfl, rfl⟩ | ⟨rfl, rfl⟩ | ⟨rfl, rfl⟩ | ⟨rfl, rfl⟩ <;>
        simp at hv <;> simp only [inFrame] at hx hy ⊢ <;> omega

theorem walk_append {C D E : V} {cs ds : List Search.Coord} {cells cells' : List V} (h : CellWalk C cs cells) (hl : cells.getLast? = some D)
    (h' : CellWalk D ds cells') (hl' : cells'.getLast? = some E) :
    ∃ l, CellWalk C (cs ++ ds) l ∧ l.getLast? = some E := by
  induction h with
  | stay C => cases hl; exact ⟨_, h', hl'⟩
  | step C C' c cs cells hb hw ih =>
    obtain ⟨l, h1, h2⟩ := ih (by cases hw <;> simpa using hl)
    refine ⟨_, .step _ _ c _ l hb h1, ?_⟩
    rw [List.getLast?_cons, h2]
    rfl

/-- The cells a path of drivable moves passes through. -/
theorem path_walk {path : List Node} {cs : List Search.Coord} (h : Crosses W isWall path cs) : ∀ {n g : Node}, path.head? = some n →
    Legal W n → path.getLast? = some g → ∃ cells, CellWalk (aheadOf n) cs cells ∧ cells.getLast? = some (aheadOf g) := by
  induction h with
  | single x =>
    intro n g h1 _ h2
    cases h1; cases h2
    exact ⟨_, .stay _, rfl⟩
  | cons x m k crossed l now later hR h3 h4 ho hnow hc ih =>
    intro n g h1 hn h2
    cases h1
    have hm := related_legal hn hR h3 h4 ho
    obtain ⟨cells, h5, h6⟩ := ih (n := m) (g := g) rfl hm (by simpa using h2)
    have he := aheadOf_even hn
    obtain ⟨cells', h7, h8⟩ := vw_cells (move_walk hn hR) he.1 he.2 hnow
    exact walk_append h7 h8 h5 h6

end Verif.Proof.OldS
