import Verif.Props.LaneLegs
/-!
# What the planner decides in a straight corridor of known walls
-/
namespace Verif.Props
open Verif Verif.Spec
open Verif.Search (Coord WallState Searcher SearchState Posture Commander)
open Verif.Grid Verif.WallsP

/-- The corridor along the left edge of the maze is known up to the wall position `⟨0, 2 i + 1⟩`. -/
def Known (ws : Coord → WallState) (i : Nat) : Prop := ∀ j ≤ i, ws ⟨0, 2 * j + 1⟩ = .checked false ∧ ws ⟨1, 2 * j⟩ = .checked true

theorem adj_lane {W : Nat} {j : Nat} {d : Coord} (h : Adjacent W ⟨0, 2 * j + 1⟩ d) :
    d = ⟨0, 2 * j + 3⟩ ∨ d = ⟨1, 2 * j + 2⟩ ∨ (∃ j', j = j' + 1 ∧ d = ⟨0, 2 * j' + 1⟩) ∨ d = ⟨1, 2 * j⟩ := by
  obtain ⟨-, h2, hne, ⟨c1, c2⟩, t1, t2⟩ := h
  obtain ⟨x, y⟩ := d
  simp only [Touches] at t1 t2
  rw [if_pos (by omega)] at t1
  simp only [ne_eq, Coord.mk.injEq] at hne ⊢
  split at t2
  · by_cases hj : y = 2 * j + 3
    · left; omega
    · right; right; left
      exact ⟨j - 1, by omega, by omega⟩
  · by_cases hj : y = 2 * j + 2 <;> omega

theorem touch_up (j : Nat) : Touches ⟨0, 2 * j + 1⟩ (0, (j : ℤ) + 1) := by
  unfold Touches
  rw [if_pos (by simp only; omega)]
  exact ⟨by simp, .inr (by push_cast; ring)⟩

theorem touch_down (j : Nat) : Touches ⟨0, 2 * j + 3⟩ (0, (j : ℤ) + 1) := by
  unfold Touches
  rw [if_pos (by simp only; omega)]
  exact ⟨by simp, .inl (by push_cast; ring)⟩

theorem touch_left (j : Nat) : Touches ⟨1, 2 * j + 2⟩ (0, (j : ℤ) + 1) := by
  unfold Touches
  rw [if_neg (by simp only; omega)]
  exact ⟨by simp, by push_cast; ring⟩

theorem adj_next {W : Nat} {j : Nat} (h : Valid W ⟨0, 2 * j + 3⟩) : Adjacent W ⟨0, 2 * j + 1⟩ ⟨0, 2 * j + 3⟩ := by
  obtain ⟨h1, h2, h3⟩ := h
  simp only at h1 h2 h3
  refine ⟨⟨h1, by simp only; omega, by simp only; omega⟩, ⟨h1, h2, h3⟩, by simp, _, touch_up j, touch_down j⟩

theorem adjPath_last {W : Nat} {ok : Coord → Prop} : ∀ {l : List Coord} {a t : Coord}, Valid W a → AdjPath W ok (a :: l) → (a :: l).getLast? = some t → Valid W t
  | [], a, t, ha, _, h => by cases h; exact ha
  | b :: l, a, t, _, hp, h => adjPath_last hp.1.1.2.1 hp.2 (by rwa [List.getLast?_cons_cons] at h)

/-- A walk from behind to an unknown wall passes the place where the robot is. -/
theorem walk_escape {W : Nat} {ws : Coord → WallState} {i : Nat} (past : Known ws i) {t : Coord} (ht : ws t = .unchecked) : ∀ (rest : List Coord) (j : Nat), j < i →
    AdjPath W (fun c => ws c ≠ .checked true) (⟨0, 2 * j + 1⟩ :: rest) → (⟨0, 2 * j + 1⟩ :: rest : List Coord).getLast? = some t →
    ∃ other, AdjPath W (fun c => ws c ≠ .checked true) (⟨0, 2 * i + 1⟩ :: other) ∧ (⟨0, 2 * i + 1⟩ :: other : List Coord).getLast? = some t ∧
      other.length < rest.length
  | [], j, hj, _, h => by
    obtain rfl : (⟨0, 2 * j + 1⟩ : Coord) = t := by simpa using h
    rw [(past j hj.le).1] at ht; cases ht
  | c :: l, j, hj, hp, h => by
    obtain ⟨⟨ha, hok⟩, hp'⟩ := hp
    rw [List.getLast?_cons_cons] at h
    rcases adj_lane ha with rfl | rfl | ⟨j', rfl, rfl⟩ | rfl
    · rcases Nat.lt_or_ge (j + 1) i with hji | hji
      · obtain ⟨o, o1, o2, o3⟩ := walk_escape past ht l (j + 1) hji hp' h
        exact ⟨o, o1, o2, by simp; omega⟩
      · obtain rfl : i = j + 1 := by omega
        exact ⟨l, hp', h, by simp⟩
    · exact absurd (past (j + 1) hj).2 hok
    · obtain ⟨o, o1, o2, o3⟩ := walk_escape past ht l j' (by omega) hp' h
      exact ⟨o, o1, o2, by simp; omega⟩
    · exact absurd (past j hj.le).2 hok

/-- In the corridor the planner prefers the way on to the way back. -/
theorem corridor_candidates {W : Nat} {goals : List Coord} (h : Request W ⟨0, 1⟩ goals) {ws : Coord → WallState} (hslot : SlotConsistent W ws) {i : Nat}
    (past : Known ws i) (hv : Valid W ⟨0, 2 * i + 3⟩) (hon : ws ⟨0, 2 * i + 3⟩ ≠ .checked true) {cmd : Commander}
    (hcmd : explore W ⟨0, 1⟩ goals ⟨0, 2 * i + 1⟩ ws = .ok (.ok (some cmd))) {before after : List Coord} {c : Coord}
    (hc : cmd.candidates = before ++ c :: after) : c = ⟨0, 2 * i + 3⟩ ∨ c = ⟨1, 2 * i + 2⟩ ∨ ⟨0, 2 * i + 3⟩ ∈ before := by
  have hv0 : Valid W ⟨0, 2 * i + 1⟩ := (adj_next hv).1
  obtain ⟨-, -, k3, ⟨path, p1, first, rest, p2, p3, ⟨t, p4, p5, p6⟩, p7⟩, first', near, far, q1, q2, q3⟩ := C18_candidates h hv0 ws cmd hcmd
  obtain rfl : first' = first := by rw [q1] at p2; simpa using p2
  have hmem : ⟨0, 2 * i + 3⟩ ∈ cmd.candidates := (k3 _).2 ⟨adj_next hv, hon⟩
  have hun : ws t = .unchecked := by
    obtain ⟨x, x1, x2, x3⟩ := p6
    rw [← hslot x t (plan_looked h p1 x1) (adjPath_last hv0 p3 (by rwa [List.getLast?_cons_cons])) x3]
    exact x2
  have hfirst : first' = ⟨0, 2 * i + 3⟩ ∨ first' = ⟨1, 2 * i + 2⟩ := by
    obtain ⟨ha, hok⟩ := p3.1
    rcases adj_lane ha with e | e | ⟨j', rfl, rfl⟩ | rfl
    · exact .inl e
    · exact .inr e
    · obtain ⟨o, o1, o2, o3⟩ := walk_escape past hun rest j' (by omega) p3.2 p4
      have := p7 o t o1 o2 p5 p6
      simp at this
      omega
    · exact absurd (past i le_rfl).2 hok
  have hcc : Adjacent W ⟨0, 2 * i + 1⟩ c ∧ ws c ≠ .checked true := (k3 c).1 (by rw [hc]; simp)
  rcases adj_lane hcc.1 with e | e | ⟨j', rfl, rfl⟩ | rfl
  · exact .inl e
  · exact .inr (.inl e)
  · right; right
    rw [hc, List.cons_append] at q1
    cases before with
    | nil =>
      obtain ⟨rfl, -⟩ := List.cons.inj q1
      rcases hfirst with e | e <;> simp at e
      omega
    | cons b before =>
      obtain ⟨rfl, q4⟩ := List.cons.inj q1
      rcases hfirst with rfl | rfl
      · simp
      · right
        have hin : ∀ d, d ∈ near → Adjacent W ⟨1, 2 * (j' + 1) + 2⟩ d := q2
        have hfar : ¬ Adjacent W ⟨1, 2 * (j' + 1) + 2⟩ ⟨0, 2 * j' + 1⟩ := by
          rintro ⟨-, -, -, ⟨c1, c2⟩, t1, t2⟩
          simp only [Touches] at t1 t2
          rw [if_neg (by omega)] at t1
          rw [if_pos (by omega)] at t2
          push_cast at t1 t2
          omega
        have hnear : Adjacent W ⟨1, 2 * (j' + 1) + 2⟩ ⟨0, 2 * (j' + 1) + 3⟩ := by
          obtain ⟨v1, v2, v3⟩ := id hv
          simp only at v1 v2 v3
          refine ⟨⟨by simp only; omega, by simp only; omega, by simp only; omega⟩, hv, by simp, _, touch_left _, touch_down _⟩
        have hA : (⟨0, 2 * (j' + 1) + 3⟩ : Coord) ∈ near := by
          rw [hc] at hmem
          have : (⟨0, 2 * (j' + 1) + 3⟩ : Coord) ∈ near ++ far := by
            rw [← q4]
            simpa using hmem
          rcases List.mem_append.1 this with e | e
          · exact e
          · exact absurd hnear (q3 _ e)
        have hB : (⟨0, 2 * j' + 1⟩ : Coord) ∉ near := fun e => hfar (q2 _ e)
        rcases List.append_eq_append_iff.1 q4 with ⟨l, e1, e2⟩ | ⟨l, e1, e2⟩
        · cases l with
          | nil => simp at e1 e2; rw [← e1]; exact hA
          | cons z l =>
            simp only [List.cons_append, List.cons.injEq] at e2
            rw [e1, ← e2.1] at hB
            simp at hB
        · rw [e1]; exact List.mem_append_left _ hA
  · exact absurd (past i le_rfl).2 hcc.2

/-- When the corridor is known up to the goals, there is nothing left to look at. -/
theorem corridor_stop {W : Nat} {goals : List Coord} (h : Request W ⟨0, 1⟩ goals) {ws : Coord → WallState} (hslot : SlotConsistent W ws) {i : Nat}
    (past : Known ws i) (hv : Valid W ⟨0, 2 * i + 1⟩) (hne : goals ≠ []) (hg : ∀ c ∈ goals, ∃ j, 1 ≤ j ∧ j ≤ i ∧ c = ⟨0, 2 * j + 1⟩) :
    explore W ⟨0, 1⟩ goals ⟨0, 2 * i + 1⟩ ws = .ok (.ok none) := by
  obtain ⟨v1, v2, v3⟩ := hv
  simp only at v1 v2
  obtain ⟨c, hc⟩ := List.exists_mem_of_ne_nil _ hne
  obtain ⟨j, j1, j2, rfl⟩ := hg c hc
  have hrun : RunPath W (fun c => optimistic ws c = false) [⟨0, 1⟩, ⟨0, 2 * j + 1⟩] := by
    refine ⟨⟨0, 2, .inr (.inl ⟨rfl, rfl, .inl rfl⟩), j, j1, ⟨by simp, by push_cast; ring⟩, fun n n1 n2 => ⟨⟨0, 2 * n + 1⟩, ⟨by simp, by push_cast; ring⟩, ?_, ?_⟩⟩, trivial⟩
    · exact ⟨v1, by simp only; omega, by simp only; omega⟩
    · simp [optimistic, (past n (by omega)).1]
  have hlast : ∃ g ∈ goals, g ≠ ⟨0, 1⟩ ∧ [(⟨0, 1⟩ : Coord), ⟨0, 2 * j + 1⟩].getLast? = some g := ⟨_, hc, by simp; omega, rfl⟩
  obtain ⟨r, hr⟩ := C13_plan_total h (optimistic ws)
  cases r with
  | none => exact absurd ⟨_, rfl, hlast, hrun⟩ ((C12_complete h _).1 hr)
  | some path =>
    refine (C16_stop_iff h ⟨v1, v2, v3⟩ ws).1.2 ⟨path, hr, fun x hx => ?_⟩
    have hlen := C11_path_minimal h _ path hr _ rfl hlast hrun
    obtain ⟨s1, ⟨g, g1, g2, g3⟩, -⟩ := C10_path_sound h _ path hr
    match path, hlen, s1, g3 with
    | [], _, s1, _ => cases s1
    | [a], _, s1, g3 => cases s1; cases g3; exact absurd rfl g2
    | [a, b], _, s1, g3 =>
      cases s1
      cases g3
      obtain ⟨m, m1, m2, rfl⟩ := hg _ g1
      rcases hx with ⟨ux, uy, N, n, u1, u2, ⟨s1, s2⟩, n1, n2, s3, s4⟩ | hx
      · have e : ux = 0 ∧ uy = 1 := by
          simp only at s1 s2
          push_cast at s1 s2
          rcases u1 with rfl | rfl | rfl <;> rcases u2 with rfl | rfl | rfl <;> omega
        obtain ⟨rfl, rfl⟩ := e
        obtain ⟨x, y⟩ := x
        simp only at s1 s2 s3 s4
        push_cast at s1 s2 s3 s4
        obtain rfl : x = 0 := by omega
        rcases Nat.even_or_odd' y with ⟨q, rfl | rfl⟩
        · rw [hslot ⟨0, 2 * q⟩ ⟨1, 2 * q⟩ (.inr ⟨rfl, by simp, v1, by simp only; omega⟩) ⟨by simp only; omega, by simp only; omega, by simp only; omega⟩
            (.inr ⟨rfl, by simp, rfl⟩), (past q (by omega)).2]
          simp
        · rw [(past q (by omega)).1]; simp
      · exact absurd hx id
    | a :: b :: c :: l, hlen, _, _ => simp at hlen

end Verif.Props
