import Verif.Proof.SearchBfs
/-! # C10 - C14, C17 (first half): `Searcher::shortest_path` -/
namespace Verif.Props
open Verif Verif.Search Verif.Spec Verif.Grid Verif.Bfs

/-- `Searcher::new(start, goals).shortest_path(is_wall)`. -/
def plan (W : Nat) (start : Coord) (goals : List Coord) (isWall : Coord → Bool) :
    R (Option (List Coord)) := do
  let s ← Searcher.new W start goals
  s.shortestPath W isWall

/-- What a caller has to provide: a supported width and coordinates made by `Coordinate::new`. -/
structure Request (W : Nat) (start : Coord) (goals : List Coord) : Prop where
  width : Supported W
  start : Valid W start
  goals : ∀ g ∈ goals, Valid W g

theorem runPath_fchain {W : Nat} (hW : W ≤ 32) {isWall : Coord → Bool} :
    ∀ {s : Coord} {l : List Coord}, Valid W s →
    (FChain (adj W fun c => !isWall c) s l ↔ RunPath W (fun c => isWall c = false) (s :: l))
  | s, [], _ => by simp [FChain, RunPath]
  | s, a :: l, hs => by
    simp only [FChain, RunPath, mem_adj hW hs, Bool.not_eq_true']
    constructor
    · rintro ⟨h1, h2⟩
      obtain ⟨_, _, _, h3⟩ := id h1
      exact ⟨h1, (runPath_fchain hW (OnLine.valid h3).1).1 h2⟩
    · rintro ⟨h1, h2⟩
      obtain ⟨_, _, _, h3⟩ := id h1
      exact ⟨h1, (runPath_fchain hW (OnLine.valid h3).1).2 h2⟩

/-- Everything about `shortest_path` at once, in terms of the abstract search. -/
theorem plan_eq {W start goals} (h : Request W start goals) (isWall : Coord → Bool) :
    ∃ r, planOf W start (fun c => decide (c ∈ goals)) isWall = some r ∧
      plan W start goals isWall = .ok r := by
  obtain ⟨f, hf, hc⟩ := searcher_new h.width start goals h.goals
  obtain ⟨r, h1, h2⟩ := shortestPath_eq h.width h.start (goalF := f)
    (goal := fun c => decide (c ∈ goals))
    (fun c hv => by rw [Bool.eq_iff_iff, hc c hv, decide_eq_true_eq]) (isWall := isWall)
  refine ⟨r, h1, ?_⟩
  unfold plan
  rw [hf]
  exact h2

/-- **C13 (shortest_path).** Planning ends normally: no panic, no full container, no infinite loop. -/
theorem C13_plan_total {W start goals} (h : Request W start goals) (isWall : Coord → Bool) :
    ∃ r, plan W start goals isWall = .ok r := by
  obtain ⟨r, -, h2⟩ := plan_eq h isWall
  exact ⟨r, h2⟩

theorem plan_some {W start goals} (h : Request W start goals) {isWall : Coord → Bool} {path}
    (hp : plan W start goals isWall = .ok (some path)) :
    ∃ v, Walk (adj W fun c => !isWall c) start v path ∧ v ≠ start ∧ v ∈ goals ∧
      ∀ x q, Walk (adj W fun c => !isWall c) start x q → x ≠ start → x ∈ goals →
        sle (ranks (adj W fun c => !isWall c) path) (ranks (adj W fun c => !isWall c) q) := by
  obtain ⟨r, h1, h2⟩ := plan_eq h isWall
  rw [hp] at h2; cases h2
  have := gBfs_spec (adj := adj W fun c => !isWall c) (goal := fun c => decide (c ∈ goals))
    (s := start) (QUE_MAX + 1)
  unfold planOf at h1
  rw [h1] at this
  simpa using this

theorem plan_none {W start goals} (h : Request W start goals) {isWall : Coord → Bool}
    (hp : plan W start goals isWall = .ok none) :
    ∀ x q, Walk (adj W fun c => !isWall c) start x q → x ≠ start → x ∉ goals := by
  obtain ⟨r, h1, h2⟩ := plan_eq h isWall
  rw [hp] at h2; cases h2
  have := gBfs_spec (adj := adj W fun c => !isWall c) (goal := fun c => decide (c ∈ goals))
    (s := start) (QUE_MAX + 1)
  unfold planOf at h1
  rw [h1] at this
  simpa using this

/-- A path of runs from `start` is an abstract walk. -/
theorem walk_of_runPath {W start} (hW : Supported W) (hs : Valid W start) {isWall : Coord → Bool}
    {l : List Coord} (hl : RunPath W (fun c => isWall c = false) (start :: l)) :
    ∃ v, Walk (adj W fun c => !isWall c) start v (start :: l) ∧ (start :: l).getLast? = some v := by
  have := (runPath_fchain hW.le hs).2 hl
  obtain ⟨v, h1, h2⟩ := this.walk (.nil)
  exact ⟨v, by simpa using h1, h2⟩

/-- **C10.** The returned path starts at `start`, ends at a goal other than `start`, and successive
coordinates are joined by a straight run through free wall positions of the maze. -/
theorem C10_path_sound {W start goals} (h : Request W start goals) (isWall : Coord → Bool)
    (path : List Coord) (hp : plan W start goals isWall = .ok (some path)) :
    path.head? = some start ∧ (∃ g ∈ goals, g ≠ start ∧ path.getLast? = some g) ∧
      RunPath W (fun c => isWall c = false) path := by
  obtain ⟨v, hw, hne, hg, -⟩ := plan_some h hp
  refine ⟨hw.head, ⟨v, hg, hne, hw.getLast⟩, ?_⟩
  obtain ⟨l, rfl, hl⟩ := hw.fchain
  exact (runPath_fchain h.width.le h.start).1 hl

/-- **C11.** No competing path to a goal other than `start` has fewer runs. -/
theorem C11_path_minimal {W start goals} (h : Request W start goals) (isWall : Coord → Bool)
    (path : List Coord) (hp : plan W start goals isWall = .ok (some path))
    (other : List Coord) (hhead : other.head? = some start)
    (hlast : ∃ g ∈ goals, g ≠ start ∧ other.getLast? = some g)
    (hrun : RunPath W (fun c => isWall c = false) other) :
    path.length ≤ other.length := by
  obtain ⟨v, hw, hne, hg, hmin⟩ := plan_some h hp
  obtain ⟨g, hgg, hgne, hgl⟩ := hlast
  cases other with
  | nil => simp at hhead
  | cons a l =>
    simp only [List.head?_cons, Option.some.injEq] at hhead
    subst hhead
    obtain ⟨x, hx, hxl⟩ := walk_of_runPath h.width h.start hrun
    rw [hgl] at hxl; cases hxl
    have := sle_length (hmin g _ hx hgne hgg)
    have h1 := hw.ranks_length
    have h2 := hx.ranks_length
    omega

/-- **C12.** `None` is returned exactly when no goal other than `start` is reachable. -/
theorem C12_complete {W start goals} (h : Request W start goals) (isWall : Coord → Bool) :
    plan W start goals isWall = .ok none ↔
      ¬ ∃ path : List Coord, path.head? = some start ∧
        (∃ g ∈ goals, g ≠ start ∧ path.getLast? = some g) ∧
        RunPath W (fun c => isWall c = false) path := by
  constructor
  · rintro hp ⟨path, hh, ⟨g, hg, hne, hl⟩, hr⟩
    cases path with
    | nil => simp at hh
    | cons a l =>
      simp only [List.head?_cons, Option.some.injEq] at hh
      subst hh
      obtain ⟨x, hx, hxl⟩ := walk_of_runPath h.width h.start hr
      rw [hl] at hxl; cases hxl
      exact plan_none h hp g _ hx hne hg
  · intro hn
    obtain ⟨r, hr⟩ := C13_plan_total h isWall
    cases r with
    | none => exact hr
    | some p => exact absurd ⟨p, C10_path_sound h isWall p hr⟩ hn

/-- **C14.** A start that is itself a goal is not recognised: the trivial path is never returned, and
with `start` as the only goal the answer is `None` in every maze. -/
theorem C14_start_not_goal {W start goals} (h : Request W start goals) (isWall : Coord → Bool) :
    plan W start goals isWall ≠ .ok (some [start]) ∧
    (goals = [start] → plan W start goals isWall = .ok none) := by
  constructor
  · intro hp
    obtain ⟨-, ⟨g, -, hne, hl⟩, -⟩ := C10_path_sound h isWall _ hp
    simp at hl; exact hne hl.symm
  · intro hg
    rw [C12_complete h]
    rintro ⟨path, -, ⟨g, hgm, hne, -⟩, -⟩
    rw [hg] at hgm; simp at hgm; exact hne hgm

/-! Non-vacuity: a request exists, and a path of runs in the empty maze of width 2. -/

example : Request 2 ⟨0, 1⟩ [⟨3, 2⟩] :=
  ⟨⟨1, by omega, rfl⟩, by decide, by simp; decide⟩

/-- In the open maze of width 2 there is a path, so C10 and C11 have content. -/
example : ∃ path, plan 2 ⟨0, 1⟩ [⟨3, 2⟩] (fun _ => false) = .ok (some path) ∧ path.length = 3 := by
  refine ⟨[⟨0, 1⟩, ⟨1, 2⟩, ⟨3, 2⟩], ?_, rfl⟩
  decide +kernel

end Verif.Props
