import Verif.Props.SearchExplore
/-! # Which wall states `search` looks at -/
namespace Verif.Bfs
variable {V : Type} [DecidableEq V]

theorem gFor_congr {goal goal' : V → Bool} {pu : List V} : ∀ (l : List V) (st : GState V),
    (∀ v ∈ l, goal v = goal' v) → gFor goal pu l st = gFor goal' pu l st
  | [], _, _ => rfl
  | v :: l, st, h => by
    unfold gFor
    rw [h v (by simp), gFor_congr l st (fun v hv => h v (by simp [hv])),
      gFor_congr l _ (fun v hv => h v (by simp [hv]))]

theorem gFor_que {goal : V → Bool} {pu : List V} {P : V → Prop} : ∀ (l : List V) (st st' : GState V),
    (∀ v ∈ l, P v) → (∀ v ∈ st.que, P v) → gFor goal pu l st = .cont st' → ∀ v ∈ st'.que, P v
  | [], st, st', _, h, he => by
    simp only [gFor, GOut.cont.injEq] at he; subst he; exact h
  | v :: l, st, st', hl, h, he => by
    unfold gFor at he
    split at he
    · exact gFor_que l st st' (fun v hv => hl v (by simp [hv])) h he
    · split at he
      · cases he
      · refine gFor_que l _ st' (fun v hv => hl v (by simp [hv])) ?_ he
        intro w hw
        simp only [List.mem_append, List.mem_singleton] at hw
        rcases hw with hw | rfl
        · exact h w hw
        · exact hl w (by simp)

/-- The search only depends on the graph inside a closed set. -/
theorem gBfs_congr {adj adj' : V → List V} {goal goal' : V → Bool} {P : V → Prop}
    (hadj : ∀ v, P v → adj v = adj' v) (hgoal : ∀ v, P v → goal v = goal' v)
    (hcl : ∀ v, P v → ∀ w ∈ adj v, P w) {s : V} (hs : P s) (fuel : Nat) :
    gBfs adj goal s fuel = gBfs adj' goal' s fuel := by
  have loop : ∀ (n : Nat) (st : GState V), (∀ v ∈ st.que, P v) →
      gLoop adj goal n st = gLoop adj' goal' n st := by
    intro n
    induction n with
    | zero => intro st _; rfl
    | succ n ih =>
      intro st hq
      unfold gLoop
      rcases hqq : st.que with _ | ⟨u, q⟩
      · rfl
      · simp only
        have hu : P u := hq u (by simp [hqq])
        rw [← hadj u hu]
        rw [gFor_congr (goal := goal) (goal' := goal') (adj u) _
          (fun v hv => hgoal v (hcl u hu v hv))]
        cases hf : gFor goal' ((st.pth u).getD []) (adj u) { st with que := q } with
        | found p => rfl
        | cont s' =>
          simp only
          apply ih
          exact gFor_que (adj u) _ s' (fun v hv => hcl u hu v hv)
            (fun v hv => hq v (by rw [hqq]; simp [show v ∈ q from hv])) hf
  exact loop fuel (gInit s) (by simp [gInit]; exact hs)

end Verif.Bfs

namespace Verif.Grid
open Verif Verif.Search Verif.Spec Verif.Bfs

theorem nb_congr {W : Nat} {ws ws' : Coord → WallState} {c : Coord} {dx dy : Int}
    (h : ∀ d, rel W c dx dy = some d → ws d = ws' d) : nb W ws c dx dy = nb W ws' c dx dy := by
  unfold nb
  cases hr : rel W c dx dy with
  | none => rfl
  | some d => simp only [h d hr]

theorem nbrs_congr {W : Nat} {ws ws' : Coord → WallState} {c : Coord} (hc : Valid W c)
    (h : ∀ d, Valid W d → ws d = ws' d) : nbrs W ws c = nbrs W ws' c := by
  obtain ⟨c1, c2, c3⟩ := hc
  have key : ∀ {dx dy : Int}, (dx + dy) % 2 = 0 → nb W ws c dx dy = nb W ws' c dx dy := by
    intro dx dy hd
    refine nb_congr fun d hr => h d ?_
    obtain ⟨h1, h2, h3, h4⟩ := rel_some.1 hr
    exact ⟨h3, h4, by omega⟩
  unfold nbrs
  rw [key (by decide), key (by decide), key (by decide), key (by decide), key (by decide),
    key (by decide), key (by decide), key (by decide)]

end Verif.Grid

namespace Verif.Props
open Verif Verif.Search Verif.Spec Verif.Grid Verif.Bfs

/-- Wall positions and cell centres of the maze. -/
def Looked (W : Nat) (x : Coord) : Prop :=
  Valid W x ∨ (x.x % 2 = 0 ∧ x.y % 2 = 0 ∧ x.x < 2 * W ∧ x.y < 2 * W)

theorem plan_looked {W start goals} (h : Request W start goals) {isWall : Coord → Bool} {path x}
    (hp : plan W start goals isWall = .ok (some path)) (hx : PassedBy path x) : Looked W x := by
  obtain ⟨hh, -, h3⟩ := C10_path_sound h _ _ hp
  cases path with
  | nil => simp at hh
  | cons a l =>
    simp only [List.head?_cons, Option.some.injEq] at hh
    subst hh
    rcases passedBy_run h.start h3 hx with ⟨hv, -⟩ | h1
    · exact .inl hv
    · exact .inr h1

theorem plan_optimistic_congr {W start goals} (h : Request W start goals)
    {ws ws' : Coord → WallState} (heq : ∀ x, Looked W x → ws x = ws' x) :
    plan W start goals (optimistic ws) = plan W start goals (optimistic ws') :=
  C17_plan_valid_only h fun c hc => by simp only [optimistic, heq c (.inl hc)]

theorem interesting_congr {W start goals} (h : Request W start goals)
    {ws ws' : Coord → WallState} (heq : ∀ x, Looked W x → ws x = ws' x) {isWall path}
    (hp : plan W start goals isWall = .ok (some path)) {c : Coord} :
    Interesting (fun x => ws x = .unchecked) path c ↔
      Interesting (fun x => ws' x = .unchecked) path c := by
  unfold Interesting
  constructor
  · rintro ⟨x, x1, x2, x3⟩
    exact ⟨x, x1, by simp only at x2 ⊢; rw [← heq x (plan_looked h hp x1)]; exact x2, x3⟩
  · rintro ⟨x, x1, x2, x3⟩
    exact ⟨x, x1, by simp only at x2 ⊢; rw [heq x (plan_looked h hp x1)]; exact x2, x3⟩

/-- **C17 (what `search` looks at).** The answer of `search` depends only on the states of wall
positions and of cell centres. -/
theorem C17_search_looked {W start goals} (h : Request W start goals) {current : Coord}
    (hc : Valid W current) {ws ws' : Coord → WallState} (heq : ∀ x, Looked W x → ws x = ws' x) :
    explore W start goals current ws = explore W start goals current ws' := by
  have hplan := plan_optimistic_congr h heq
  rcases explore_cases h hc ws with ⟨h0, h1⟩ | ⟨path, h0, h1⟩
  · rcases explore_cases h hc ws' with ⟨_, h1'⟩ | ⟨path', h0', -⟩
    · rw [h1, h1']
    · rw [← hplan, h0] at h0'; cases h0'
  · rcases explore_cases h hc ws' with ⟨h0', _⟩ | ⟨path', h0', h1'⟩
    · rw [← hplan, h0] at h0'; cases h0'
    · rw [← hplan, h0] at h0'
      simp only [Except.ok.injEq, Option.some.injEq] at h0'
      subst h0'
      rcases h1 with ⟨a1, a2⟩ | ⟨⟨x, a1, a1'⟩, goal, a2, a3⟩
      · rcases h1' with ⟨b1, b2⟩ | ⟨⟨x, b1, b1'⟩, -⟩
        · rw [a2, b2]
        · have := a1 x b1
          rw [heq x (plan_looked h h0 b1)] at this
          exact absurd b1' this
      · rcases h1' with ⟨b1, b2⟩ | ⟨-, goal', b2, b3⟩
        · have := b1 x a1
          rw [← heq x (plan_looked h h0 a1)] at this
          exact absurd a1' this
        · have hv : ∀ d, Valid W d → ws d = ws' d := fun d hd => heq d (.inl hd)
          have hn : nearOf W ws goal current = nearOf W ws' goal' current := by
            refine gBfs_congr (P := Valid W) (fun v hv' => nbrs_congr hv' hv) (fun v hv' => ?_)
              (fun v hv' w hw => nbrs_valid hv' hw) hc _
            rw [Bool.eq_iff_iff, a2 v hv', b2 v hv', interesting_congr h heq h0]
          rw [← hn, ← nbrs_congr hc hv] at b3
          revert a3 b3
          cases nearOf W ws goal current with
          | none => simp
          | some o => cases o <;> (intro a b; simp only at a b; rw [a, b])

end Verif.Props
