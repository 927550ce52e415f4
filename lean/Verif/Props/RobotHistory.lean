import Verif.Props.Robot
/-! # C21 (histories), C22: executing the commands -/
namespace Verif.Props
open Verif Verif.Search Verif.Spec Verif.Grid Verif.Bfs

/-- Consistent robot states. -/
def Consistent (W : Nat) (s : SearchState) : Prop := Valid W s.coord ∧ Faces s.coord s.posture

theorem faces_opposite {c : Coord} {p : Posture} (h : Faces c p) : Faces c (opposite p) := by
  obtain ⟨h1, h2⟩ := h
  cases p <;> simp only [Faces, vec, opposite, cw] at * <;> omega

/-- One update from a consistent state ends normally in a consistent state. -/
theorem update_total {W : Nat} (hW : Supported W) {s : SearchState} (hs : Consistent W s)
    {next : Coord} (hn : Valid W next) :
    ∃ s' k, s.update next = .ok (s', k) ∧ Consistent W s' ∧
      (k = none → s' = s ∧ ¬ Adjacent W s.coord next) ∧
      (k ≠ none → Adjacent W s.coord next) ∧
      (k = some .back → s' = ⟨s.coord, opposite s.posture⟩ ∧
        ∃ q, q ≠ s.posture ∧ SideAhead s.coord (opposite s.posture) q next) ∧
      (k ≠ some .back → k ≠ none → s'.coord = next) := by
  obtain ⟨h1, h2, h3, h4⟩ := C21_update hW hs.1 hs.2 hn
  by_cases ha : Adjacent W s.coord next
  · rcases h4.1 ha with ⟨q, hq, hsa⟩ | ⟨q, hq, hsa⟩
    · obtain ⟨e1, e2, e3⟩ := h1 q hq hsa
      exact ⟨_, _, e1, ⟨hn, e3⟩, by simp, fun _ => ha, by simp [e2], by simp⟩
    · obtain ⟨e1, e2⟩ := h2 q hq hsa
      exact ⟨_, _, e1, ⟨hs.1, e2⟩, by simp, fun _ => ha, fun _ => ⟨rfl, q, hq, hsa⟩, by simp⟩
  · exact ⟨_, _, h3 ha, hs, fun _ => ⟨rfl, ha⟩, by simp, by simp, by simp⟩

/-- **C21 (histories).** No sequence of updates panics, and the robot always stays perpendicular to the
wall it is on. -/
theorem C21_history {W : Nat} (hW : Supported W) (cs : List Coord) (hcs : ∀ c ∈ cs, Valid W c) :
    ∀ s : SearchState, Valid W s.coord → Faces s.coord s.posture →
      ∃ s', updates s cs = .ok s' ∧ Valid W s'.coord ∧ Faces s'.coord s'.posture := by
  induction cs with
  | nil => intro s h1 h2; exact ⟨s, rfl, h1, h2⟩
  | cons c cs ih =>
    intro s h1 h2
    obtain ⟨s', k, e1, e2, -⟩ := update_total hW (s := s) ⟨h1, h2⟩ (hcs c (by simp))
    obtain ⟨s'', e3, e4⟩ := ih (fun c hc => hcs c (by simp [hc])) s' e2.1 e2.2
    refine ⟨s'', ?_, e4⟩
    simp only [updates, e1, bind, Except.bind]
    exact e3

/-- After turning round, a wall that was behind is ahead. -/
theorem update_after_back {W : Nat} (hW : Supported W) {s s' : SearchState} (hs : Consistent W s)
    {next : Coord} (hn : Valid W next) (hb : s.update next = .ok (s', some .back)) :
    ∃ s'' k, s'.update next = .ok (s'', some k) ∧ k ≠ .back ∧ s''.coord = next := by
  obtain ⟨s1, k, e1, e2, -, -, e5, -⟩ := update_total hW hs hn
  rw [hb] at e1
  simp only [Except.ok.injEq, Prod.mk.injEq] at e1
  obtain ⟨rfl, rfl⟩ := e1
  obtain ⟨rfl, q, hq, hsa⟩ := e5 rfl
  obtain ⟨h1, -⟩ := C21_update hW e2.1 e2.2 hn
  have hqo : q ≠ opposite (opposite s.posture) := by
    have : opposite (opposite s.posture) = s.posture := by cases s.posture <;> rfl
    rw [this]; exact hq
  obtain ⟨f1, f2, -⟩ := h1 q hqo hsa
  exact ⟨_, _, f1, f2, rfl⟩

/-- **C22.** Whatever the commander answers, under whatever wall states the question is asked, the robot
can execute: `update` never returns `None`, and after at most one turn on the spot it is there. -/
theorem C22_executable {W start goals} (h : Request W start goals) {s : SearchState}
    (hs : Consistent W s) (ws ws' : Coord → WallState) (cmd : Commander)
    (hcmd : explore W start goals s.coord ws = .ok (.ok (some cmd))) (c : Coord)
    (hc : cmd.nextCoordinate ws' = .ok (some c) ∨ cmd.forceNextCoordinate ws' = some c) :
    ∃ s' k, s.update c = .ok (s', some k) ∧ Consistent W s' ∧
      (k ≠ .back → s'.coord = c) ∧
      (k = .back → ∃ s'' k', s'.update c = .ok (s'', some k') ∧ k' ≠ .back ∧ s''.coord = c) := by
  have hmem : c ∈ cmd.candidates := by
    obtain ⟨c1, -, -, c2, -⟩ := C20_next_coordinate cmd ws'
    rcases hc with hc | hc
    · obtain ⟨b, a, e, -⟩ := (c1 c).1 hc
      rw [e]; simp
    · obtain ⟨b, a, e, -⟩ := (c2 c).1 hc
      rw [e]; simp
  obtain ⟨-, -, hadj, -⟩ := C18_candidates h hs.1 ws cmd hcmd
  obtain ⟨ha, -⟩ := (hadj c).1 hmem
  obtain ⟨s', k, e1, e2, e3, e4, e5, e6⟩ := update_total h.width hs ha.2.1
  cases k with
  | none => exact absurd ha (e3 rfl).2
  | some k =>
    refine ⟨s', k, e1, e2, fun hk => e6 (by simp [hk]) (by simp), ?_⟩
    rintro rfl
    exact update_after_back h.width hs ha.2.1 e1

/-! Non-vacuity: the initial state of the tests is consistent, and a full turn-round happens. -/

example : Consistent 16 ⟨⟨0, 1⟩, .north⟩ := ⟨by decide, by decide, by decide⟩

example : (⟨⟨0, 1⟩, .north⟩ : SearchState).update ⟨1, 0⟩ =
    .ok (⟨⟨0, 1⟩, .south⟩, some .back) := by decide

example : updates ⟨⟨0, 1⟩, .north⟩ [⟨1, 2⟩, ⟨3, 2⟩, ⟨9, 9⟩, ⟨4, 3⟩] = .ok ⟨⟨4, 3⟩, .north⟩ := by decide

end Verif.Props
