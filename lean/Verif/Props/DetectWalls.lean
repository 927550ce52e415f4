import Verif.Props.Walls
import Verif.Props.Detect
/-!
# The detector seeded from a wall map (C40)
-/
namespace Verif.Props
open Verif Verif.Spec Verif.Proof Verif.Detect Verif.Search Verif.Grid Verif.WallsP

section
variable {W : Nat} (hW : Supported W) {w : Walls.Walls}
include hW

theorem withK_step {d : Detector} {i j k n : Nat} {c : Coord} (hc : Valid W c)
    (hx : (i <<< 1) ||| ((1 + k) &&& 1) = c.x) (hy : (j <<< 1) ||| k = c.y) :
    withK W w i j (n + 1) k d = (match Walls.wallState W w c with
      | .ok st => withK W w i j n (k + 1) (fun m => if m = c.asIndex W then ofState st else d m)
      | .error e => .error e) := by
  have hle := hW.le
  have hn : Coord.new W c.x c.y = some c :=
    (C01_valid W hW c.x c.y (by have := hc.1; omega) (by have := hc.2.1; omega) c).2 ⟨hc, rfl, rfl⟩
  have hlt : c.asIndex W < LEN := asIndex_lt_que hW hc
  conv_lhs => unfold withK
  rw [hx, hy, hn]
  simp only [unwrap, bind, Except.bind]
  cases Walls.wallState W w c with
  | error e => rfl
  | ok st => simp only [arrSet, if_pos hlt]

/-- The two walls stored for a cell. -/
theorem withK_eq {d : Detector} {i j : Nat} (hi : i < W) (hj : j < W) :
    withK W w i j 2 0 d = (match Walls.wallState W w ⟨2 * i + 1, 2 * j⟩ with
      | .ok s => match Walls.wallState W w ⟨2 * i, 2 * j + 1⟩ with
        | .ok t => .ok (fun m => if m = Coord.asIndex W ⟨2 * i, 2 * j + 1⟩ then ofState t else
            if m = Coord.asIndex W ⟨2 * i + 1, 2 * j⟩ then ofState s else d m)
        | .error e => .error e
      | .error e => .error e) := by
  have v1 : Valid W ⟨2 * i + 1, 2 * j⟩ := ⟨by simp only; omega, by simp only; omega, by simp only; omega⟩
  have v2 : Valid W ⟨2 * i, 2 * j + 1⟩ := ⟨by simp only; omega, by simp only; omega, by simp only; omega⟩
  rw [withK_step hW v1 (by simp [shl1_or1]) (by simp [shl1])]
  cases Walls.wallState W w ⟨2 * i + 1, 2 * j⟩ with
  | error e => rfl
  | ok s =>
    simp only
    rw [withK_step hW v2 (by simp [shl1]) (by simp [shl1_or1])]
    cases Walls.wallState W w ⟨2 * i, 2 * j + 1⟩ with
    | error e => rfl
    | ok t => rfl

/-- Exactly the listed walls have been copied. -/
def Copied (W : Nat) (st : Coord → WallState) (done : Coord → Prop) (d : Detector) : Prop :=
  (∀ c, Valid W c → done c → d (c.asIndex W) = ofState (st c)) ∧ ∀ m, 2 * W * W ≤ m → d m = .fin (1 / 2)

theorem withK_copied {st : Coord → WallState} (hst : ∀ c, Valid W c → Walls.wallState W w c = .ok (st c))
    {done : Coord → Prop} {d : Detector} {i j : Nat} (hi : i < W) (hj : j < W) (h : Copied W st done d) :
    ∃ d', withK W w i j 2 0 d = .ok d' ∧ Copied W st (fun c => done c ∨ (c.x / 2 = i ∧ c.y / 2 = j)) d' := by
  have v1 : Valid W ⟨2 * i + 1, 2 * j⟩ := ⟨by simp only; omega, by simp only; omega, by simp only; omega⟩
  have v2 : Valid W ⟨2 * i, 2 * j + 1⟩ := ⟨by simp only; omega, by simp only; omega, by simp only; omega⟩
  have h1 := asIndex_lt hW v1
  have h2 := asIndex_lt hW v2
  rw [withK_eq hW hi hj, hst _ v1, hst _ v2]
  refine ⟨_, rfl, ?_, ?_⟩
  · intro c hc hd
    by_cases e2 : c = ⟨2 * i, 2 * j + 1⟩
    · subst e2; simp only [if_true]
    · have n2 : c.asIndex W ≠ Coord.asIndex W ⟨2 * i, 2 * j + 1⟩ := fun h => e2 (asIndex_inj hW hc v2 h)
      simp only [if_neg n2]
      by_cases e1 : c = ⟨2 * i + 1, 2 * j⟩
      · subst e1; simp only [if_true]
      · have n1 : c.asIndex W ≠ Coord.asIndex W ⟨2 * i + 1, 2 * j⟩ := fun h => e1 (asIndex_inj hW hc v1 h)
        simp only [if_neg n1]
        rcases hd with hd | ⟨hx, hy⟩
        · exact h.1 c hc hd
        · exfalso
          obtain ⟨x, y⟩ := c
          have hp := hc.2.2
          simp only [Coord.mk.injEq] at hp e1 e2 hx hy
          omega
  · intro m hm
    simp only
    rw [if_neg (by omega), if_neg (by omega)]
    exact h.2 m hm

omit hW in
theorem Copied.mono {st : Coord → WallState} {p q : Coord → Prop} {d : Detector} (h : Copied W st p d)
    (hpq : ∀ c, Valid W c → q c → p c) : Copied W st q d := ⟨fun c hc hq => h.1 c hc (hpq c hc hq), h.2⟩

theorem withJ_copied {st : Coord → WallState} (hst : ∀ c, Valid W c → Walls.wallState W w c = .ok (st c)) {i : Nat}
    (hi : i < W) : ∀ (n j : Nat) (done : Coord → Prop) (d : Detector), j + n = W → Copied W st done d →
    ∃ d', withJ W w i n j d = .ok d' ∧ Copied W st (fun c => done c ∨ (c.x / 2 = i ∧ j ≤ c.y / 2)) d'
  | 0, j, done, d, hj, h => ⟨d, rfl, h.mono (by
      intro c hc hq
      rcases hq with hq | ⟨-, hq⟩
      · exact hq
      · have := hc.2.1; omega)⟩
  | n + 1, j, done, d, hj, h => by
    obtain ⟨d1, e1, h1⟩ := withK_copied hW hst hi (show j < W by omega) h
    obtain ⟨d2, e2, h2⟩ := withJ_copied hst hi n (j + 1) _ d1 (by omega) h1
    refine ⟨d2, ?_, h2.mono ?_⟩
    · unfold withJ
      simp only [e1, bind, Except.bind, e2]
    · intro c _ hq
      rcases hq with hq | ⟨hx, hy⟩
      · exact Or.inl (Or.inl hq)
      · rcases Nat.lt_or_ge j (c.y / 2) with h | h
        · exact Or.inr ⟨hx, h⟩
        · exact Or.inl (Or.inr ⟨hx, by omega⟩)

theorem withI_copied {st : Coord → WallState} (hst : ∀ c, Valid W c → Walls.wallState W w c = .ok (st c)) :
    ∀ (n i : Nat) (done : Coord → Prop) (d : Detector), i + n = W → Copied W st done d →
    ∃ d', withI W w n i d = .ok d' ∧ Copied W st (fun c => done c ∨ i ≤ c.x / 2) d'
  | 0, i, done, d, hi, h => ⟨d, rfl, h.mono (by
      intro c hc hq
      rcases hq with hq | hq
      · exact hq
      · have := hc.1; omega)⟩
  | n + 1, i, done, d, hi, h => by
    obtain ⟨d1, e1, h1⟩ := withJ_copied hW hst (show i < W by omega) W 0 done d (by omega) h
    obtain ⟨d2, e2, h2⟩ := withI_copied hst n (i + 1) _ d1 (by omega) h1
    refine ⟨d2, ?_, h2.mono ?_⟩
    · unfold withI
      simp only [e1, bind, Except.bind, e2]
    · intro c _ hq
      rcases hq with hq | hx
      · exact Or.inl (Or.inl hq)
      · rcases Nat.lt_or_ge i (c.x / 2) with h | h
        · exact Or.inr h
        · exact Or.inl (Or.inr ⟨by omega, Nat.zero_le _⟩)

end

/-- **C40.** For every wall map whose walls can be read (C05 says when), `with_walls` does not panic; the belief is 1 for
a known wall, 0 for a known opening, 1/2 for an unknown one, and 1/2 in the entries that belong to no wall. -/
theorem C40_with_walls (W : Nat) (hW : Supported W) (w : Walls.Walls)
    (hr : ∀ c, Valid W c → ∃ st, Walls.wallState W w c = .ok st) :
    ∃ d, withWalls W w = .ok d ∧
      (∀ c, Valid W c → (d (c.asIndex W) = .fin 1 ↔ Walls.wallState W w c = .ok (.checked true)) ∧
        (d (c.asIndex W) = .fin 0 ↔ Walls.wallState W w c = .ok (.checked false)) ∧
        (d (c.asIndex W) = .fin (1 / 2) ↔ Walls.wallState W w c = .ok .unchecked)) ∧
      (∀ i, 2 * W * W ≤ i → d i = .fin (1 / 2)) := by
  let st : Coord → WallState := fun c => match Walls.wallState W w c with
    | .ok s => s
    | .error _ => .unchecked
  have hst : ∀ c, Valid W c → Walls.wallState W w c = .ok (st c) := by
    intro c hc
    obtain ⟨s, hs⟩ := hr c hc
    simp only [st, hs]
  obtain ⟨d, e, h⟩ := withI_copied hW hst W 0 (fun _ => False) new (by omega) ⟨fun _ _ h => h.elim, fun _ _ => rfl⟩
  refine ⟨d, e, ?_, h.2⟩
  intro c hc
  rw [h.1 c hc (Or.inr (Nat.zero_le _)), hst c hc]
  have h2 : (2 : ℝ)⁻¹ ≠ 0 := by norm_num
  have h2' : (2 : ℝ)⁻¹ ≠ 1 := by norm_num
  rcases st c with _ | b
  · simp [ofState, h2]
  · cases b <;> simp [ofState, eq_comm]

/-- **C40, consequence.** On a detector made from a map, the belief about a known wall is never changed, in any
history of observations, and no report is about it. -/
theorem C40_known_frozen (A : Arith) (hA : Rounding A) (W : Nat) (hW : Supported W) (w : Walls.Walls)
    (hr : ∀ c, Valid W c → ∃ st, Walls.wallState W w c = .ok st) (convert : Pose → Option WallInfo)
    (hc : GoodConverter convert W) (c : Coord) (hv : Valid W c) (e : Bool)
    (hk : Walls.wallState W w c = .ok (.checked e)) (l : List Obs) (d d' : Detector)
    (rs : List (Option (Coord × WallState))) (hd : withWalls W w = .ok d) (h : observe A convert W l d = .ok (d', rs)) :
    d' (c.asIndex W) = .fin (if e then 1 else 0) ∧ ∀ st, some (c, st) ∉ rs := by
  obtain ⟨d0, h0, h1, -⟩ := C40_with_walls W hW w hr
  rw [hd] at h0
  cases h0
  have hE : (0 : ℝ) < EPSILON := eps_pos
  have hval : d (c.asIndex W) = .fin (if e then 1 else 0) := by
    cases e
    · exact (h1 c hv).2.1.mpr hk
    · exact (h1 c hv).1.mpr hk
  have hz : isZero (d (c.asIndex W)) ∨ isOne A (d (c.asIndex W)) := by
    rw [hval]
    cases e
    · left; simpa [isZero, F.abs, F.lt] using hE
    · right
      have e : A.sub (.fin (if true then 1 else 0)) (.fin 1) = .fin 0 := by
        show A.rnd (1 + -1) = _
        rw [add_neg_cancel, hA.zero]
      unfold isOne
      rw [e]
      simpa [F.abs, F.lt] using hE
  obtain ⟨i1, i2⟩ := (C38_settled A W hW convert hc d c hv hz).2 l d' rs h
  exact ⟨i1.trans hval, i2⟩

example : ∃ w, Walls.new 16 = .ok w ∧ (∀ c, Valid 16 c → ∃ st, Walls.wallState 16 w c = .ok st) := by
  have h16 : Supported 16 := ⟨4, by decide⟩
  obtain ⟨w, h, -⟩ := C04_new h16 (by omega)
  exact ⟨w, h, fun c hc => C05_readable h16 (.new h) c hc⟩

end Verif.Props
