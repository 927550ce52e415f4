import Verif.Props.SingleTestModel
import Verif.Props.Corridor
/-!
# C132: mazes on which the search test passes
-/
namespace Verif.Props
open Verif Verif.Spec Verif.Single Verif.Trial
open Verif.Search (Coord Searcher)
open Verif.Grid Verif.WallsP

/-- **C132.** The test can pass: the search test with the values of `tests/search.rs`, in floating point numbers without rounding, passes on every maze of every supported size
that begins with a straight corridor to all the goals, after finitely many rounds and whatever order the candidates of equal length get. -/
theorem C132_passes {maze : Walls.Walls} {goals : List Coord} {k : Nat} {W : Nat} (hW : Supported W) (h2 : 2 ≤ W) (hg : InCorridor k goals) {pi : ℝ} (hpi : 0 < pi)
    {sort : List (Convert.Dir × F) → List (Convert.Dir × F)} (hs : Sorts sort) {text : List Char} (ht : Walls.fromStr W text = .ok (.ok maze)) (hm : MazeMap W maze)
    (hc : Corridor W maze k) (hk : Valid W ⟨0, 2 * k + 1⟩) {w : Walls.Walls} {searcher : Searcher} (hw : Walls.new W = .ok w)
    (hn : Searcher.new W ⟨0, 1⟩ goals = .ok searcher) :
    let i := Trial.initial w maze 0.01
    ∃ N, ∀ n, N ≤ n → (kitOf (Trial.gear .real pi W sort searcher 0.01)).test exact (libOf .real pi) n
      ⟨robotOf i.estimator standing ⟨40, 4⟩ i.tracker i.controller, w, Detect.new, (questOf (Trial.config 0.01)).start exact (libOf .real pi), simulatorOf i.simulator⟩ =
        .ok (some ()) := by
  intro i
  obtain ⟨N, hN⟩ := C116_passes hW h2 hg hpi.le hs ht hm hc hk (fo := 0.01) (by norm_num) le_rfl
  refine ⟨N, fun n hle => ?_⟩
  have f0 : (0 : ℝ) ≤ 0.01 := by norm_num
  obtain ⟨k1, k2, k3⟩ := id hk
  simp only at k1 k2
  have hv : ∀ c ∈ goals, Valid W c := by
    intro c h
    obtain ⟨j, j1, j2, rfl⟩ := hg.2 c h
    exact ⟨k1, by simp only; omega, by simp only; omega⟩
  have hr : Request W ⟨0, 1⟩ goals := ⟨hW, ⟨k1, by simp only; omega, rfl⟩, hv⟩
  obtain ⟨s1, s2, s3⟩ := first_attempt W sort searcher w maze pi
  have e := hN n hle
  rw [whole_eq hW hv .real pi sort ht 0.01 hw hn n] at e
  rw [← e]
  refine C132_model (g := Trial.gear .real pi W sort searcher 0.01) rfl hpi s3 n s1 s2 fun r _ m' hgo => ?_
  obtain ⟨s, y0, v0, rest, I⟩ := inside_start (k := k) f0 le_rfl hW h2 hw hm pi sort searcher
  obtain ⟨i', s, y0, v0, rest, I'⟩ := inside_all (g := gear .real pi W sort searcher 0.01) f0 le_rfl rfl hpi.le rfl rfl rfl hr hn hs (.parsed ht) hm.full hc hg hk r I hgo
  show Real.cos (m'.estimator.estimate .real m'.state (Trial.sensed .real m'.simulator)).1.slip ≠ 0
  rw [I'.lane.estimate, Real.cos_zero]
  exact one_ne_zero

/-- A maze of 16 squares with a corridor of fifteen squares, and a goal in the last of them. -/
example : ∃ text maze w searcher, Walls.fromStr 16 text = .ok (.ok maze) ∧ Walls.new 16 = .ok w ∧ Searcher.new 16 ⟨0, 1⟩ [⟨0, 29⟩] = .ok searcher ∧
    let i := Trial.initial w maze 0.01
    ∃ N, ∀ n, N ≤ n → (kitOf (Trial.gear .real Real.pi 16 demoSort searcher 0.01)).test exact (libOf .real Real.pi) n
      ⟨robotOf i.estimator standing ⟨40, 4⟩ i.tracker i.controller, w, Detect.new, (questOf (Trial.config 0.01)).start exact (libOf .real Real.pi), simulatorOf i.simulator⟩ =
        .ok (some ()) := by
  obtain ⟨maze, e, f, -⟩ := C09_canonical (W := 16) ⟨4, by omega, rfl⟩ (fun c => decide (c.x = 31 ∨ c.y = 31 ∨ c.x = 1))
  obtain ⟨w, hw, -⟩ := C04_new (W := 16) ⟨4, by omega, rfl⟩ (by norm_num)
  obtain ⟨searcher, hn⟩ := searcher_new (W := 16) (goals := [⟨0, 29⟩]) (h := ⟨⟨4, by omega, rfl⟩, by decide, by simp; decide⟩)
  refine ⟨_, maze, w, searcher, e, hw, hn, C132_passes (k := 14) ⟨4, by omega, rfl⟩ (by norm_num) ⟨by simp, ?_⟩ Real.pi_pos demoSort_sorts e
    ⟨fun c hc => ⟨_, f c hc⟩, fun c hc ho => ?_, ?_, ?_⟩ (fun i hi => ⟨?_, ?_⟩) (by decide) hw hn⟩
  · intro c hc
    exact ⟨14, by omega, le_rfl, by simpa using hc⟩
  · rw [f c hc]; simp; omega
  · rw [f _ (by decide)]; simp
  · rw [f _ (by decide)]; simp
  · rw [f _ ⟨by simp, by simp only; omega, by simp only; omega⟩]; simp; omega
  · rw [f _ ⟨by simp, by simp only; omega, by simp only; omega⟩]; simp

end Verif.Props
