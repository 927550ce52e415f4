import Verif.Spec.Robot
import Verif.Props.SearchExplore
/-! # C21, C22: the robot's search state -/
namespace Verif.Props
open Verif Verif.Search Verif.Spec Verif.Grid Verif.Bfs

/-- A sequence of `update` calls, return values ignored. -/
def updates (s : SearchState) : List Coord → R SearchState
  | [] => .ok s
  | c :: cs => do
    let (s', _) ← s.update c
    updates s' cs

theorem faces_cases {c : Coord} {p : Posture} (h : Faces c p) (hp : (c.x + c.y) % 2 = 1) :
    (c.isTop = true ∧ c.y % 2 = 1 ∧ c.x % 2 = 0 ∧ (p = .north ∨ p = .south)) ∨
    (c.isTop = false ∧ c.y % 2 = 0 ∧ c.x % 2 = 1 ∧ (p = .east ∨ p = .west)) := by
  obtain ⟨h1, h2⟩ := h
  by_cases ht : c.isTop = true
  · left
    have := isTop_iff.1 ht
    refine ⟨ht, this, by omega, ?_⟩
    cases p <;> simp [vec] at h1 h2 ⊢ <;> omega
  · right
    have : c.y % 2 = 0 := by have := mt isTop_iff.2 ht; omega
    refine ⟨by simpa using ht, this, by omega, ?_⟩
    cases p <;> simp [vec] at h1 h2 ⊢ <;> omega

/-- **C21 (construction).** `SearchState::new` accepts exactly the perpendicular postures. -/
theorem C21_new_iff {W : Nat} {c : Coord} (hc : Valid W c) (p : Posture) :
    (SearchState.new c p = some ⟨c, p⟩ ↔ Faces c p) ∧
    (SearchState.new c p = none ↔ ¬ Faces c p) := by
  obtain ⟨-, -, hp⟩ := hc
  have hy : c.isTop = true ↔ c.y % 2 = 1 := isTop_iff
  unfold SearchState.new Faces
  by_cases ht : c.isTop = true
  · have h1 := hy.1 ht
    have h2 : c.x % 2 = 0 := by omega
    cases p <;> simp [ht, vec] <;> omega
  · have h1 : c.y % 2 = 0 := by have := mt hy.2 ht; omega
    have ht' : c.isTop = false := by simpa using ht
    have h2 : c.x % 2 = 1 := by omega
    cases p <;> simp [ht', vec] <;> omega

set_option maxHeartbeats 4000000 in
/-- **C21 (one step).** -/
theorem C21_update {W : Nat} (hW : Supported W) {s : SearchState} (hs : Valid W s.coord)
    (hf : Faces s.coord s.posture) {next : Coord} (hn : Valid W next) :
    -- a wall of the cell ahead: go there, looking out of that cell
    (∀ q, q ≠ opposite s.posture → SideAhead s.coord s.posture q next →
      s.update next = .ok (⟨next, q⟩, some (turn s.posture q)) ∧ turn s.posture q ≠ .back ∧
        Faces next q) ∧
    -- a wall of the cell behind: turn round on the spot
    (∀ q, q ≠ s.posture → SideAhead s.coord (opposite s.posture) q next →
      s.update next = .ok (⟨s.coord, opposite s.posture⟩, some .back) ∧
        Faces s.coord (opposite s.posture)) ∧
    -- any other wall: nothing happens
    (¬ Adjacent W s.coord next → s.update next = .ok (s, none)) ∧
    -- these are all cases
    (Adjacent W s.coord next ↔
      (∃ q, q ≠ opposite s.posture ∧ SideAhead s.coord s.posture q next) ∨
      (∃ q, q ≠ s.posture ∧ SideAhead s.coord (opposite s.posture) q next)) := by
  obtain ⟨c, p⟩ := s
  simp only at hs hf ⊢
  have hpar := hs.2.2
  have hWle := hW.le
  have hadj := stepDir_adjacent (d := next) hs
  obtain ⟨c1, c2, c3⟩ := id hs
  obtain ⟨d1, d2, d3⟩ := id hn
  have hx : asI8 next.x = next.x := asI8_small (by omega)
  have hy : asI8 next.y = next.y := asI8_small (by omega)
  have hx' : asI8 c.x = c.x := asI8_small (by omega)
  have hy' : asI8 c.y = c.y := asI8_small (by omega)
  have hsd : Adjacent W c next ↔ StepDir c ((next.x : Int) - c.x) ((next.y : Int) - c.y) := by
    rw [← hadj]; simp [d1, d2]
  rw [hsd]
  rcases faces_cases hf hpar with ⟨ht, h1, h2, rfl | rfl⟩ | ⟨ht, h1, h2, rfl | rfl⟩
  all_goals
    refine ⟨?_, ?_, ?_, ?_⟩
    · intro q hq ha
      simp only [SideAhead, vec] at ha
      unfold SearchState.update
      cases q <;> simp [opposite, cw] at hq <;>
        simp only [vec] at ha <;>
        simp only [ht, hx, hy, hx', hy', updateTable, Prod.mk.injEq, bind, Except.bind, pure,
          Except.pure] <;>
        refine ⟨?_, by simp [turn, cw, opposite], by simp only [Faces, vec]; omega⟩ <;>
        (repeat' first | rw [if_pos (by omega)] | rw [if_neg (by omega)]) <;>
        simp [turn, cw, opposite]
    · intro q hq ha
      simp only [SideAhead, opposite, cw, vec] at ha
      unfold SearchState.update
      cases q <;> simp at hq <;>
        simp only [vec] at ha <;>
        simp only [ht, hx, hy, hx', hy', updateTable, Prod.mk.injEq, bind, Except.bind, pure,
          Except.pure] <;>
        refine ⟨?_, by simp only [Faces, vec, opposite, cw]; omega⟩ <;>
        (repeat' first | rw [if_pos (by omega)] | rw [if_neg (by omega)]) <;>
        simp [turn, cw, opposite]
    · intro hna
      unfold StepDir at hna
      unfold SearchState.update
      simp only [ht, hx, hy, hx', hy', updateTable, Prod.mk.injEq, bind, Except.bind, pure,
          Except.pure]
      (repeat' first | rw [if_pos (by omega)] | rw [if_neg (by omega)])
    · constructor
      · intro h
        rcases StepDir.cases h with h | h | h | h | h | h | h | h
        all_goals first
          | (exfalso; omega)
          | exact .inl ⟨.north, by simp [opposite, cw], by simp only [SideAhead, opposite, cw, vec]; omega⟩
          | exact .inl ⟨.east, by simp [opposite, cw], by simp only [SideAhead, opposite, cw, vec]; omega⟩
          | exact .inl ⟨.south, by simp [opposite, cw], by simp only [SideAhead, opposite, cw, vec]; omega⟩
          | exact .inl ⟨.west, by simp [opposite, cw], by simp only [SideAhead, opposite, cw, vec]; omega⟩
          | exact .inr ⟨.north, by simp [opposite, cw], by simp only [SideAhead, opposite, cw, vec]; omega⟩
          | exact .inr ⟨.east, by simp [opposite, cw], by simp only [SideAhead, opposite, cw, vec]; omega⟩
          | exact .inr ⟨.south, by simp [opposite, cw], by simp only [SideAhead, opposite, cw, vec]; omega⟩
          | exact .inr ⟨.west, by simp [opposite, cw], by simp only [SideAhead, opposite, cw, vec]; omega⟩
      · unfold StepDir
        rintro (⟨q, hq, ha⟩ | ⟨q, hq, ha⟩) <;> simp only [SideAhead, opposite, cw, vec] at ha hq <;>
          cases q <;> simp at hq <;> simp only [vec] at ha <;> omega

end Verif.Props
