import Verif.Proof.OldTotals
import Mathlib.Algebra.Order.BigOperators.Group.List
/-! How many walls the paths in small mazes can cross. -/
namespace Verif.Proof.OldS
open Verif Verif.Run Verif.Spec Verif.Old Verif.Proof Verif.Proof.OldN

variable {W : Nat} {n m : Node} {isWall : Search.Coord → Bool}

/-- How far a straight from the pose can go. -/
def room (W : Nat) (n : Node) : Nat :=
  match n.posture with
  | .north => (2 * W - 1 - n.y) / 2 | .east => (2 * W - 1 - n.x) / 2 | .south => n.y / 2 | .west => n.x / 2
  | .northEast => min (2 * W - 1 - n.x) (2 * W - 1 - n.y) | .southEast => min (2 * W - 1 - n.x) n.y
  | .southWest => min n.x n.y | .northWest => min n.x (2 * W - 1 - n.y)

/-- A bound of the number of walls crossed by a move. -/
def crossBound (W : Nat) (n : Node) : Nat :=
  if room W n = 0 then 0 else max (room W n) (if n.x % 2 = 0 ∧ n.y % 2 = 0 then 3 else 2)

theorem room_cell {f s : V} (hA : Axes f s) (hp : heading n.posture = f) {j : Nat} {t : Int} {x y : Nat} (hx : (x : Int) = n.x + (inFrame f s (2 * j, t)).1)
    (hy : (y : Int) = n.y + (inFrame f s (2 * j, t)).2) (h1 : x < 2 * W) (h2 : y < 2 * W) : j ≤ room W n := by
  obtain ⟨nx, ny, p⟩ := n
  unfold room
  unfold Axes at hA
  rcases hA with ⟨rfl, rfl⟩ | ⟨rfl, rfl⟩ | ⟨rfl, rfl⟩ | ⟨rfl, rfl⟩ | ⟨rfl, rfl⟩ | ⟨rfl, rfl⟩ | ⟨rfl, rfl⟩ | ⟨rfl, rfl⟩ <;>
    cases p <;> simp [heading] at hp <;> simp [inFrame] at hx hy ⊢ <;> omega

theorem room_wall {f s : V} (hA : Axes f s) (hp : heading n.posture = (f.1 + s.1, f.2 + s.2)) {j : Nat} {x y : Nat}
    (hx : (x : Int) = n.x + (inFrame f s (j, j)).1)
    (hy : (y : Int) = n.y + (inFrame f s (j, j)).2) (h1 : x < 2 * W) (h2 : y < 2 * W) : j ≤ room W n := by
  obtain ⟨nx, ny, p⟩ := n
  unfold room
  unfold Axes at hA
  rcases hA with ⟨rfl, rfl⟩ | ⟨rfl, rfl⟩ | ⟨rfl, rfl⟩ | ⟨rfl, rfl⟩ | ⟨rfl, rfl⟩ | ⟨rfl, rfl⟩ | ⟨rfl, rfl⟩ | ⟨rfl, rfl⟩ <;>
    cases p <;> simp [heading] at hp <;> simp [inFrame] at hx hy ⊢ <;> omega

theorem cross_le (hn : Legal W n) {k : EdgeKind} {crossed : List V} (hR : Related n k m crossed) (h3 : m.x < 2 * W) (h4 : m.y < 2 * W)
    (hin : ∀ d ∈ crossed, WallIn W n d) : crossed.length ≤ crossBound W n := by
  obtain ⟨f, s, fin, head, cr, hF, hS, hx, hy, hh, rfl⟩ := hR
  rw [List.length_map]
  unfold Shape at hS
  unfold crossBound
  have hin' : ∀ d ∈ cr, WallIn W n (inFrame f s d) := fun d hd => hin _ (List.mem_map_of_mem hd)
  by_cases hc : n.x % 2 = 0 ∧ n.y % 2 = 0
  · obtain ⟨hA, hp⟩ := (frame_centre hn hc f s).mp hF
    rw [if_pos hc] at hS ⊢
    have one : ((2, 1) : V) ∈ cr → 1 ≤ room W n := by
      intro h
      obtain ⟨c, h5, h6, h7, h8, -⟩ := hin' _ h
      exact room_cell (j := 1) (t := 1) hA hp h5 h6 h7 h8
    cases hS with
    | straight j hj =>
      have := room_cell (j := j) (t := 0) hA hp hx hy h3 h4
      rw [if_neg (by omega), List.length_map, List.length_range]
      omega
    | _ =>
      have := one (by simp)
      rw [if_neg (by omega)]
      simp only [List.length_cons, List.length_nil]
      omega
  · obtain ⟨hA, hp, hv⟩ := (frame_bound hn hc f s).mp hF
    rw [if_neg hc] at hS ⊢
    have one : ((1, 1) : V) ∈ cr → 1 ≤ room W n := by
      intro h
      obtain ⟨c, h5, h6, h7, h8, -⟩ := hin' _ h
      exact room_wall (j := 1) hA hp h5 h6 h7 h8
    cases hS with
    | straightDiagonal j hj =>
      have := room_wall (j := j) hA hp hx hy h3 h4
      rw [if_neg (by omega), List.length_map, List.length_range]
      omega
    | _ =>
      have := one (by simp)
      rw [if_neg (by omega)]
      simp only [List.length_cons, List.length_nil]
      omega

theorem crosses_le {path : List Node} {cs : List Search.Coord} (h : Crosses W isWall path cs) (hn : ∀ n ∈ path.head?, Legal W n) :
    cs.length ≤ (path.map (crossBound W)).sum ∧ ∀ n ∈ path, Legal W n := by
  induction h with
  | single n => exact ⟨by simp, by simpa using hn⟩
  | cons n m k crossed l now later hR h3 h4 ho hnow _ ih =>
    have hn := hn n rfl
    have hm := related_legal hn hR h3 h4 ho
    obtain ⟨h5, h6⟩ := ih (by simpa using hm)
    have h7 := cross_le hn hR h3 h4 (fun d hd => by
      obtain ⟨c, h1, h2, h3, -⟩ := ho d hd
      exact ⟨c, h1, h2, h3⟩)
    have h8 := congrArg List.length hnow
    rw [List.length_map, List.length_map] at h8
    refine ⟨?_, ?_⟩
    · rw [List.length_append, List.map_cons, List.sum_cons]
      omega
    · intro x hx
      rcases List.mem_cons.mp hx with rfl | hx
      · exact hn
      · exact h6 x hx

theorem small_crossings : ∀ W ∈ [1, 2, 4, 8], 2 * ((allNodes W).map (crossBound W)).sum + 16 * (W * W) ≤ HEAP_MAX := by
  decide +kernel

theorem small_width (hW : Supported W) (h8 : W ≤ 8) : W ∈ [1, 2, 4, 8] := by
  obtain ⟨k, hk, rfl⟩ := hW
  have : k ≤ 3 := by
    by_contra h
    have : 2 ^ 4 ≤ 2 ^ k := Nat.pow_le_pow_right (by omega) (by omega)
    omega
  rcases (by omega : k = 0 ∨ k = 1 ∨ k = 2 ∨ k = 3) with rfl | rfl | rfl | rfl <;> decide

theorem few_crossings (hW : Supported W) (h8 : W ≤ 8) {path : List Node} {cs : List Search.Coord} (h : Crosses W isWall path cs)
    (hn : ∀ n ∈ path.head?, Legal W n) (hnd : path.Nodup) : 2 * cs.length + 16 * (W * W) ≤ HEAP_MAX := by
  obtain ⟨h1, h2⟩ := crosses_le h hn
  have h3 : path.Subperm (allNodes W) := hnd.subperm fun n hn => mem_allNodes (h2 n hn)
  have h4 : (path.map (crossBound W)).sum ≤ ((allNodes W).map (crossBound W)).sum := by
    obtain ⟨l, hp, hs⟩ := h3
    have e := (hp.map (crossBound W)).sum_eq
    rw [← e]
    exact (hs.map (crossBound W)).sum_le_sum (fun _ _ => Nat.zero_le _)
  have := small_crossings W (small_width hW h8)
  omega

end Verif.Proof.OldS
