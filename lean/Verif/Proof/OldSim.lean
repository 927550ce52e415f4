import Verif.Spec.OldSim
import Verif.Proof.OldPatrol
/-!
# Searches in the former simulator
-/
namespace Verif.Proof.OldX
open Verif Verif.Spec Verif.Old.Sim Verif.Old.Manager Verif.Old.Search Verif.Proof.OldE
open Verif.Old.Detect hiding State
open Verif.Detect (Pose)

variable {W : Nat} {conv : FPose → R (Except ConvError Info)} {see : Pose → Option Seen} {real : Old.Wall → Bool}

/-- A sensor that has been waiting since `q` saw nothing from there. -/
def Blind (see : Pose → Option Seen) (past : Option Pose) (mount : Pose) : Prop := ∀ q, past = some q → see (aimed q mount 0 0) = none

theorem glance_none {s : Control.State} {m : Pose} : glance .utils see real s m = none ↔ see (aimed (stands s) m 0 0) = none := by
  unfold glance seat
  simp

theorem look_fair {m : Mounted} {k : Copy} {s : Control.State} (h : m.Fair W) : (m.look k see real s).Fair W := by
  refine ⟨?_, h.read, h.write⟩
  intro z σ hr
  unfold Mounted.look glance at hr
  simp only [Option.map_eq_some_iff, Prod.mk.injEq] at hr
  obtain ⟨e, -, -, rfl⟩ := hr
  cases k <;> norm_num [Copy.deviation]

/-- What a look tells a robot that knows its pose. -/
theorem target_true {s : Control.State} {m : Mounted} {i : Nat} {g : Guess} (h0 : g.dx = 0 ∧ g.dy = 0) (hb : Blind see (g.past i) m.mount) {e : Seen} {z σ : ℝ}
    (ht : g.target see (stands s) i (m.look .utils see real s) = some (e, z, σ)) :
    see (aimed (stands s) m.mount 0 0) = some e ∧ z = if real e.wall then e.near else e.far := by
  unfold Guess.target Guess.from at ht
  rw [h0.1, h0.2] at ht
  cases hp : g.past i with
  | some q =>
    rw [hp] at ht
    have := hb q hp
    simp only [Option.getD_some, Mounted.look, this] at ht
    cases hg : glance .utils see real s m.mount <;> rw [hg] at ht <;> cases ht
  | none =>
    rw [hp] at ht
    simp only [Option.getD_none, Mounted.look] at ht
    cases hsee : see (aimed (stands s) m.mount 0 0) with
    | none => rw [hsee] at ht; split at ht <;> simp_all
    | some e' =>
      have hg : glance .utils see real s m.mount = some (if real e'.wall then e'.near else e'.far, Copy.utils.deviation) := by
        unfold glance seat; rw [hsee]; rfl
      rw [hg, hsee] at ht
      dsimp only at ht
      by_cases hbusy : e'.wall ∈ m.busyRead
      · erw [if_pos hbusy] at ht; cases ht
      · erw [if_neg hbusy] at ht; cases ht; exact ⟨rfl, rfl⟩

theorem look_truthful {s : Control.State} {m : Mounted} {i : Nat} {g : Guess} (h0 : g.dx = 0 ∧ g.dy = 0) (hb : Blind see (g.past i) m.mount) :
    Truthful real see (stands s) i (m.look .utils see real s) g := by
  intro e z σ ht
  obtain ⟨-, hz⟩ := target_true h0 hb ht
  rw [hz]
  cases real e.wall <;> simp

theorem look_still (hs : Sees W conv see) {s : Control.State} {m : Mounted} {i : Nat} {g : Guess} (h0 : g.dx = 0 ∧ g.dy = 0) (hb : Blind see (g.past i) m.mount)
    (hsd : Sided W real g) :
    let g' := g.after see (stands s) i (m.look .utils see real s)
    g'.dx = 0 ∧ g'.dy = 0 ∧ Blind see (g'.past i) m.mount ∧ ∀ j, j ≠ i → g'.past j = g.past j := by
  intro g'
  have hpast : g'.past = fun j => if j = i then waits (g.past i) (stands s) (glance .utils see real s m.mount).isSome else g.past j := by
    show (g.after see (stands s) i (m.look .utils see real s)).past = _
    unfold Guess.after
    dsimp only
    split
    · rfl
    · split_ifs <;> rfl
  have hwait : Blind see (g'.past i) m.mount := by
    rw [hpast]
    simp only [if_true]
    intro q hq
    unfold waits at hq
    split at hq
    · cases hq
    · rename_i hn
      simp only [Bool.not_eq_true, Option.isSome_eq_false_iff, Option.isNone_iff_eq_none] at hn
      cases hp : g.past i with
      | none => rw [hp] at hq; simp only [Option.getD_none, Option.some.injEq] at hq; rw [← hq]; exact glance_none.1 hn
      | some q' => rw [hp] at hq; simp only [Option.getD_some, Option.some.injEq] at hq; rw [← hq]; exact hb q' hp
  have hmove : g'.dx = 0 ∧ g'.dy = 0 := by
    show (g.after see (stands s) i (m.look .utils see real s)).dx = 0 ∧ (g.after see (stands s) i (m.look .utils see real s)).dy = 0
    unfold Guess.after
    dsimp only
    cases ht : g.target see (stands s) i (m.look .utils see real s) with
    | none => exact h0
    | some r =>
      obtain ⟨e, z, σ⟩ := r
      dsimp only
      obtain ⟨hsee, hz⟩ := target_true h0 hb ht
      have hin : InMaze W e.wall := by
        have := hs (aimed (stands s) m.mount 0 0)
        rw [hsee] at this
        exact this.1
      split_ifs with h1 h2 h3
      · exact h0
      · have hr : real e.wall = true := by
          by_contra hr
          have := hsd _ hin
          rw [if_neg hr] at this
          unfold Sure at h2
          norm_num at h2
          linarith [this.2]
        rw [hr, if_pos rfl] at hz
        dsimp only
        rw [hz, h0.1, h0.2]
        simp
      · exact h0
      · exact h0
  exact ⟨hmove.1, hmove.2, hwait, fun j hj => by rw [hpast]; simp only [if_neg hj]⟩

theorem looks_still (hs : Sees W conv see) {s : Control.State} : ∀ (ms : List Mounted) (i : Nat) (g : Guess), (∀ m ∈ ms, m.Fair W) → g.dx = 0 ∧ g.dy = 0 →
    (∀ k m, ms[k]? = some m → Blind see (g.past (i + k)) m.mount) → Sided W real g →
    let ls := ms.map fun m => m.look .utils see real s
    let g' := g.afterAll see (stands s) i ls
    AllTruthful real see (stands s) i ls g ∧ g'.dx = 0 ∧ g'.dy = 0 ∧ (∀ k m, ms[k]? = some m → Blind see (g'.past (i + k)) m.mount) ∧
    ∀ j, j < i → g'.past j = g.past j
  | [], i, g, _, h0, hb, hsd => ⟨trivial, h0.1, h0.2, hb, fun _ _ => rfl⟩
  | m :: ms, i, g, hf, h0, hb, hsd => by
    intro ls g'
    have hb0 : Blind see (g.past i) m.mount := hb 0 m rfl
    have ht := look_truthful (real := real) (s := s) h0 hb0
    obtain ⟨h1, h2, h3, h4⟩ := look_still hs (s := s) h0 hb0 hsd
    have hsd' := after_sided (look_fair (hf m (List.mem_cons_self ..))) hsd ht
    obtain ⟨k1, k2, k3, k4, k5⟩ := looks_still hs (s := s) ms (i + 1) _ (fun m' hm' => hf m' (List.mem_cons_of_mem _ hm')) ⟨h1, h2⟩ (by
      intro k m' hm'
      rw [h4 _ (by omega), show i + 1 + k = i + (k + 1) by omega]
      exact hb (k + 1) m' hm') hsd'
    refine ⟨⟨ht, k1⟩, k2, k3, ?_, ?_⟩
    · intro k m' hm'
      cases k with
      | zero =>
        cases hm'
        show Blind see ((Guess.afterAll see (stands s) (i + 1) _ _).past i) _
        rw [k5 i (by omega)]
        exact h3
      | succ k =>
        have := k4 k m' hm'
        rw [show i + 1 + k = i + (k + 1) by omega] at this
        exact this
    · intro j hj
      show (Guess.afterAll see (stands s) (i + 1) _ _).past j = _
      rw [k5 j (by omega), h4 j (by omega)]

theorem lift_inj {p q : Option Pose} (h : (p.map fun p : Pose => (⟨.fin p.x, .fin p.y, p.theta⟩ : FPose)) = q.map fun p : Pose => (⟨.fin p.x, .fin p.y, p.theta⟩ : FPose)) :
    p = q := by
  cases p with
  | none => cases q <;> simp_all
  | some a =>
    cases q with
    | none => simp at h
    | some b =>
      simp only [Option.map_some, Option.some.injEq, FPose.mk.injEq, F.fin.injEq] at h
      obtain ⟨h1, h2, h3⟩ := h
      cases a; cases b; simp_all

theorem simPatrol_inv {P : Config} (hW : Supported P.W) {t : F} (hg : GoodThreshold exact t) (hr : Regular P.W real) (hs : Sees P.W conv see) {mounts : List Pose}
    (hm : mounts.length ≤ 6) {d : Detector} {c : Commander} {rs : List Reply} (h : SimPatrol P t real conv see mounts d c rs) :
    Patrol P t real conv see d c rs ∧ ∀ g, Remembers P.W d g → ∀ i m, mounts[i]? = some m → Blind see (g.past i) m := by
  induction h with
  | start m hm' =>
    refine ⟨.start m hm', fun g hd i m' hi q hq => ?_⟩
    have hlt : i < SENSORS := by
      have := (List.getElem?_eq_some_iff.1 hi).1
      show i < 6
      omega
    have := hd.past i hlt
    rw [hq] at this
    cases this
  | detect d d' c rs s sx sy ms s' _ hms hf hcall ih =>
    obtain ⟨i1, i2⟩ := ih
    obtain ⟨-, -, ⟨g, hd⟩, hsd⟩ := patrol_inv hW hg hr hs i1
    have hlen : ms.length ≤ 6 := by rw [← hms, List.length_map] at hm; exact hm
    have hfair : ∀ l ∈ ms.map (fun m => m.look .utils see real s), l.Fair P.W := by
      intro l hl
      obtain ⟨m, hm', rfl⟩ := List.mem_map.1 hl
      exact look_fair (hf m hm')
    have hbl : ∀ k m, ms[k]? = some m → Blind see ((g.begin sx sy).past (0 + k)) m.mount := by
      intro k m hk
      rw [zero_add]
      exact i2 g hd k m.mount (by rw [← hms, List.getElem?_map, hk]; rfl)
    obtain ⟨k1, k2, k3, k4, k5⟩ := looks_still hs (s := s) ms 0 (g.begin sx sy) hf ⟨rfl, rfl⟩ hbl (fun w hw => hsd g hd w hw)
    refine ⟨.detect _ _ _ _ _ _ _ _ _ _ i1 (by simpa using hlen) hfair hd k1 hcall, fun g' hd' i m hi => ?_⟩
    obtain ⟨d2, e1, e2, -⟩ := call_eq hW hs hd (hsd g hd).chances (by simpa [SENSORS] using hlen) hfair (stands s) sx sy
    rw [hcall] at e1
    simp only [Except.ok.injEq, Prod.mk.injEq] at e1
    obtain ⟨rfl, -⟩ := e1
    have hlt : i < SENSORS := by
      have := (List.getElem?_eq_some_iff.1 hi).1
      show i < 6
      omega
    have hp : g'.past i = ((g.begin sx sy).afterAll see (stands s) 0 (ms.map fun m => m.look .utils see real s)).past i :=
      lift_inj (by rw [← hd'.past i hlt, ← e2.past i hlt])
    rw [hp]
    rw [← hms, List.getElem?_map] at hi
    simp only [Option.map_eq_some_iff] at hi
    obtain ⟨m', hi', rfl⟩ := hi
    have := k4 i m' hi'
    rw [zero_add] at this
    exact this
  | call d c c' r rs ws _ hc ih => exact ⟨.call _ _ _ _ _ ws ih.1 hc, ih.2⟩

end Verif.Proof.OldX
