import Verif.Props.Termination
/-! # Everything interesting can be reached from the start -/
namespace Verif.Props
open Verif Verif.Search Verif.Spec Verif.Grid Verif.Bfs

/-- There is a walk over adjacent walls from `c` to `p`. -/
def Reach (W : Nat) (ok : Coord → Prop) (c p : Coord) : Prop :=
  ∃ walk, AdjPath W ok (c :: walk) ∧ (c :: walk).getLast? = some p

theorem Reach.refl {W ok c} : Reach W ok c c := ⟨[], trivial, rfl⟩

theorem adjPath_snoc {W : Nat} {ok : Coord → Prop} : ∀ {l : List Coord} {p q : Coord}, AdjPath W ok l →
    l.getLast? = some p → Adjacent W p q → ok q → AdjPath W ok (l ++ [q])
  | [], _, _, h, _, _, _ => h.elim
  | [a], p, q, _, hl, h1, h2 => by
    simp only [List.getLast?_singleton, Option.some.injEq] at hl
    subst hl
    exact ⟨⟨h1, h2⟩, trivial⟩
  | a :: b :: l, p, q, h, hl, h1, h2 => by
    refine ⟨h.1, adjPath_snoc (l := b :: l) h.2 ?_ h1 h2⟩
    simpa using hl

theorem Reach.step {W ok c p q} (h : Reach W ok c p) (ha : Adjacent W p q) (hq : ok q) : Reach W ok c q := by
  obtain ⟨walk, h1, h2⟩ := h
  exact ⟨walk ++ [q], adjPath_snoc h1 h2 ha hq, by rw [← List.cons_append, List.getLast?_append]; rfl⟩

theorem Reach.cons {W ok a b p} (h : Reach W ok b p) (ha : Adjacent W a b) (hb : ok b) : Reach W ok a p := by
  obtain ⟨walk, h1, h2⟩ := h
  exact ⟨b :: walk, ⟨⟨ha, hb⟩, h1⟩, by simpa using h2⟩

theorem Reach.mono {W : Nat} {ok ok' : Coord → Prop} (hok : ∀ c, Valid W c → ok c → ok' c) {c p : Coord}
    (h : Reach W ok c p) : Reach W ok' c p := by
  obtain ⟨walk, h1, h2⟩ := h
  exact ⟨walk, adjPath_mono hok h1, h2⟩

/-- The positions of a run are reached from its beginning. -/
theorem reach_run {W : Nat} {ok : Coord → Prop} {c a b : Coord} {dx dy : Int} (ha : Valid W a)
    (hd : StepDir a dx dy) {n : Nat}
    (hl : ∀ i : Nat, 1 ≤ i → i ≤ n → ∃ c, Shift a dx dy i c ∧ Valid W c ∧ ok c) (hca : Reach W ok c a) :
    ∀ i : Nat, i ≤ n → Shift a dx dy i b → Valid W b ∧ Reach W ok c b
  | 0, _, hs => by
    have : b = a := by
      obtain ⟨h1, h2⟩ := hs
      cases a; cases b; simp only [Coord.mk.injEq] at *; simp at h1 h2; omega
    subst this; exact ⟨ha, hca⟩
  | i + 1, hi, hs => by
    obtain ⟨q, q1, q2, q3⟩ := hl (i + 1) (by omega) hi
    have hqb : q = b := by
      obtain ⟨h1, h2⟩ := hs
      obtain ⟨h3, h4⟩ := q1
      cases q; cases b; simp only [Coord.mk.injEq] at *; omega
    subst hqb
    have hp : ∃ p, Shift a dx dy i p := by
      rcases Nat.eq_zero_or_pos i with rfl | hpos
      · exact ⟨a, by simp [Shift]⟩
      · obtain ⟨p, p1, -⟩ := hl i hpos (by omega); exact ⟨p, p1⟩
    obtain ⟨p, hp⟩ := hp
    obtain ⟨pv, pr⟩ := reach_run ha hd hl hca i (by omega) hp
    refine ⟨q2, pr.step ((stepDir_adjacent pv).1 ⟨?_, q2.1, q2.2.1⟩) q3⟩
    obtain ⟨h1, h2⟩ := hp
    obtain ⟨h3, h4⟩ := hs
    have e1 : (q.x : Int) - p.x = dx := by rw [h3, h1]; push_cast; ring
    have e2 : (q.y : Int) - p.y = dy := by rw [h4, h2]; push_cast; ring
    rw [e1, e2]
    rcases hd with h | ⟨k, h5, h6⟩ | ⟨k, h5, h6⟩
    · exact .inl h
    · refine .inr (.inl ⟨?_, h5, h6⟩)
      rcases h6 with rfl | rfl <;> omega
    · refine .inr (.inr ⟨?_, h5, h6⟩)
      subst h6; simp at h2; omega

/-- For every lattice point of a run, a wall in whose slot it lies is reached. -/
theorem reach_segPoint {W : Nat} {ok : Coord → Prop} {c a b x : Coord} (ha : Valid W a)
    (hr : Run W ok a b) (hx : SegPoint a b x) (hca : Reach W ok c a)
    (hside : ∀ e, Valid W e → x.x % 2 = 0 → x.y % 2 = 0 → e = ⟨x.x + 1, x.y⟩ → ok e) :
    ∃ t, Valid W t ∧ SlotOf x t ∧ Reach W ok c t := by
  obtain ⟨dx, dy, hd, n, hn, hs, hl⟩ := hr
  obtain ⟨a1, a2, a3⟩ := id ha
  have diag : ∀ j : Nat, j ≤ n → Shift a dx dy j x → ∃ t, Valid W t ∧ SlotOf x t ∧ Reach W ok c t := by
    intro j hj hsx
    obtain ⟨h1, h2⟩ := reach_run ha hd hl hca j hj hsx
    exact ⟨x, h1, .inl rfl, h2⟩
  -- a centre: the wall before it is reached
  have centre : ∀ (j : Nat), j < n → 2 * (x.x : Int) = 2 * a.x + (2 * j + 1) * dx →
      2 * (x.y : Int) = 2 * a.y + (2 * j + 1) * dy → (dx = 0 ∧ (dy = 2 ∨ dy = -2) ∧ a.y % 2 = 1 ∨
        dy = 0 ∧ (dx = 2 ∨ dx = -2) ∧ a.y % 2 = 0) →
      ∃ t, Valid W t ∧ SlotOf x t ∧ Reach W ok c t := by
    intro j hj e1 e2 hdd
    have hp : ∃ p, Shift a dx dy j p := by
      rcases Nat.eq_zero_or_pos j with rfl | hpos
      · exact ⟨a, by simp [Shift]⟩
      · obtain ⟨p, p1, -⟩ := hl j hpos (by omega); exact ⟨p, p1⟩
    obtain ⟨p, hp⟩ := hp
    obtain ⟨pv, pr⟩ := reach_run ha hd hl hca j (by omega) hp
    obtain ⟨q, q1, q2, -⟩ := hl (j + 1) (by omega) (by omega)
    obtain ⟨p1, p2⟩ := hp
    obtain ⟨r1, r2⟩ := q1
    obtain ⟨v1, v2, v3⟩ := id pv
    obtain ⟨w1, w2, w3⟩ := id q2
    have heven : x.x % 2 = 0 ∧ x.y % 2 = 0 ∧ x.x + 1 < 2 * W ∧ x.y < 2 * W := by
      rcases hdd with ⟨rfl, rfl | rfl, h⟩ | ⟨rfl, rfl | rfl, h⟩ <;> push_cast at * <;> omega
    have hev : Valid W ⟨x.x + 1, x.y⟩ := ⟨heven.2.2.1, heven.2.2.2, by simp only; omega⟩
    refine ⟨⟨x.x + 1, x.y⟩, hev, .inr ⟨heven.1, heven.2.1, rfl⟩, ?_⟩
    by_cases hpe : p = ⟨x.x + 1, x.y⟩
    · rw [← hpe]; exact pr
    · refine pr.step ((stepDir_adjacent pv).1 ⟨?_, hev.1, hev.2.1⟩) (hside _ hev heven.1 heven.2.1 rfl)
      have hpe' : ¬ (p.x = x.x + 1 ∧ p.y = x.y) := by
        rintro ⟨h1, h2⟩; apply hpe; cases p; simp only at h1 h2; rw [h1, h2]
      unfold StepDir
      rcases hdd with ⟨rfl, rfl | rfl, h⟩ | ⟨rfl, rfl | rfl, h⟩ <;> push_cast at * <;> omega
  have axis : ∀ (ux uy : Int), dx = 2 * ux → dy = 2 * uy → (ux = -1 ∨ ux = 0 ∨ ux = 1) →
      (uy = -1 ∨ uy = 0 ∨ uy = 1) → ¬ (ux = 0 ∧ uy = 0) →
      (dx = 0 ∧ (dy = 2 ∨ dy = -2) ∧ a.y % 2 = 1 ∨ dy = 0 ∧ (dx = 2 ∨ dx = -2) ∧ a.y % 2 = 0) →
      ∃ t, Valid W t ∧ SlotOf x t ∧ Reach W ok c t := by
    intro ux uy hux huy h1 h2 h3 hdd
    have hsb : Shift a ux uy (2 * n) b := by
      obtain ⟨s1, s2⟩ := hs
      constructor
      · rw [s1, hux]; push_cast; ring
      · rw [s2, huy]; push_cast; ring
    obtain ⟨j, j1, j2, j3, j4⟩ := (segPoint_unit h1 h2 h3 (by omega) hsb).1 hx
    rcases Nat.even_or_odd' j with ⟨i, rfl | rfl⟩
    · refine diag i (by omega) ⟨?_, ?_⟩
      · rw [j3, hux]; push_cast; ring
      · rw [j4, huy]; push_cast; ring
    · refine centre i (by omega) ?_ ?_ hdd
      · rw [j3, hux]; push_cast; ring
      · rw [j4, huy]; push_cast; ring
  have diagonal : (dx = -1 ∨ dx = 1) → (dy = -1 ∨ dy = 1) → ∃ t, Valid W t ∧ SlotOf x t ∧ Reach W ok c t := by
    intro h1 h2
    obtain ⟨j, j1, j2, j3, j4⟩ := (segPoint_unit (by omega) (by omega) (by omega) hn hs).1 hx
    exact diag j j2 ⟨j3, j4⟩
  rcases hd with ⟨h1, h2⟩ | ⟨h1, rfl, h2⟩ | ⟨h1, h2, rfl⟩
  · exact diagonal (by omega) (by omega)
  · rcases h2 with rfl | rfl
    · exact axis 0 1 (by omega) (by omega) (by omega) (by omega) (by omega) (by omega)
    · exact axis 0 (-1) (by omega) (by omega) (by omega) (by omega) (by omega) (by omega)
  · rcases h2 with rfl | rfl
    · exact axis 1 0 (by omega) (by omega) (by omega) (by omega) (by omega) (by omega)
    · exact axis (-1) 0 (by omega) (by omega) (by omega) (by omega) (by omega) (by omega)

theorem reach_passedBy {W : Nat} {ok : Coord → Prop} {c : Coord} : ∀ {l : List Coord} {a x : Coord},
    Valid W a → RunPath W ok (a :: l) → PassedBy (a :: l) x → Reach W ok c a →
    (∀ e, Valid W e → x.x % 2 = 0 → x.y % 2 = 0 → e = ⟨x.x + 1, x.y⟩ → ok e) →
    ∃ t, Valid W t ∧ SlotOf x t ∧ Reach W ok c t
  | [], _, _, _, _, h, _, _ => by simp [PassedBy] at h
  | b :: l, a, x, ha, hr, h, hca, hside => by
    rcases h with h | h
    · exact reach_segPoint ha hr.1 h hca hside
    · obtain ⟨dx, dy, hd, n, hn, hs, hl⟩ := hr.1
      obtain ⟨h1, h2⟩ := reach_run ha hd hl hca n (Nat.le_refl _) hs
      exact reach_passedBy h1 hr.2 h h2 hside

theorem runPath_mono {W : Nat} {free free' : Coord → Prop} (hf : ∀ c, Valid W c → free c → free' c) :
    ∀ {l : List Coord}, RunPath W free l → RunPath W free' l
  | [], h => h
  | [_], _ => trivial
  | _ :: _ :: _, h => by
    refine ⟨?_, runPath_mono hf h.2⟩
    obtain ⟨dx, dy, hd, n, hn, hs, hl⟩ := h.1
    refine ⟨dx, dy, hd, n, hn, hs, fun i h1 h2 => ?_⟩
    obtain ⟨c, c1, c2, c3⟩ := hl i h1 h2
    exact ⟨c, c1, c2, hf c c2 c3⟩

/-- From a place connected with the start, `search` fails only when no goal can be reached. -/
theorem unreachable_only_goal {W start goals} (h : Request W start goals) {current : Coord}
    (hc : Valid W current) {ws : Coord → WallState} (hslot : SlotConsistent W ws)
    (hcur : ws current ≠ .unchecked) (hcon : Reach W (fun c => ws c ≠ .checked true) current start)
    (he : explore W start goals current ws = .ok (.error .unreachable)) :
    ¬ ∃ path : List Coord, path.head? = some start ∧
        (∃ g ∈ goals, g ≠ start ∧ path.getLast? = some g) ∧
        RunPath W (fun c => ws c ≠ .checked true) path := by
  rcases (C19_unreachable_iff h hc ws).1 he with h1 | ⟨path, hp, ⟨x, x1, x2⟩, hno⟩
  · exact h1
  · exfalso
    obtain ⟨hh, -, hr⟩ := C10_path_sound h _ _ hp
    have hr' : RunPath W (fun c => ws c ≠ .checked true) path := by
      have : (fun c => optimistic ws c = false) = fun c => ws c ≠ .checked true := by
        funext c; simp [optimistic]
      rw [← this]; exact hr
    cases path with
    | nil => simp at hh
    | cons a l =>
      simp only [List.head?_cons, Option.some.injEq] at hh
      subst hh
      have hlk : Looked W x := by
        rcases passedBy_run h.start hr' x1 with h | h
        · exact .inl h.1
        · exact .inr (by tauto)
      obtain ⟨t, t1, t2, ⟨walk, t3, t4⟩⟩ := reach_passedBy h.start hr' x1 hcon
        (fun e he _ _ hee => by rw [← hslot x e hlk he (.inr ⟨by assumption, by assumption, hee⟩), x2]; simp)
      refine hno ⟨walk, t, t3, t4, ?_, x, x1, x2, t2⟩
      rintro rfl
      exact hcur (by rw [← hslot x _ hlk t1 t2, x2])

end Verif.Props
