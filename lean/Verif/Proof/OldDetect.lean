import Verif.Spec.OldDetect
import Verif.Proof.OldMemory
import Verif.Props.Convert
/-!
# Lemmas about the former wall detector
-/
namespace Verif.Proof.OldE
open Verif Verif.Spec Verif.Proof Verif.Old Verif.Old.Manager Verif.Old.Detect Verif.Proof.OldM
open Verif.Detect (Pose)
open Verif.Convert (Converter Dir)

variable {W : Nat} {m m' : Manager} {w v : Wall} {A : Arith}

/-! ## One measurement -/

theorem posterior_of {p a b v : F} (h : Verif.Detect.posterior A p a b = .ok v) : posterior A p a b = .ok v := by
  classical
  unfold Verif.Detect.posterior at h
  unfold posterior
  by_cases h1 : a.isNan
  · rw [if_pos h1] at h; cases h
  rw [if_neg h1] at h ⊢
  by_cases h2 : b.isNan
  · rw [if_pos h2] at h; cases h
  rw [if_neg h2] at h ⊢
  generalize (if a.lt b then a else b) = c at h ⊢
  dsimp only at h ⊢
  have hr : Verif.Detect.reverse A p = reverse A p := rfl
  have hp : ∀ v, Verif.Detect.probability v = probNew v := fun _ => rfl
  rw [hr, hp] at h
  split_ifs at h ⊢
  · exact h
  · exact h
  · revert h
    generalize probNew _ = o
    intro h
    cases o with
    | none => cases h
    | some q => exact h

theorem div_repr (hA : Rounding A) {x y : F} {r : ℝ} (h : A.div x y = .fin r) : A.rnd r = .fin r := by
  cases x <;> cases y <;> simp only [Arith.div] at h
  all_goals first
    | (cases h; done)
    | (cases h; exact hA.zero)
    | (split at h <;> (cases h; done))
    | skip
  split at h
  · unfold F.infOf at h
    split_ifs at h
  · exact hA.idem _ _ h

theorem posterior_prob (hA : Rounding A) {p a b v : F} (h : posterior A p a b = .ok v) : IsProb A v := by
  classical
  unfold posterior at h
  by_cases h1 : a.isNan
  · rw [if_pos h1] at h; cases h
  rw [if_neg h1] at h
  by_cases h2 : b.isNan
  · rw [if_pos h2] at h; cases h
  rw [if_neg h2] at h
  generalize (if a.lt b then a else b) = c at h
  dsimp only at h
  split_ifs at h
  · cases h; exact isProb_one hA
  · cases h; exact isProb_zero hA
  · revert h
    generalize hx : A.div _ _ = x
    intro h
    unfold probNew at h
    by_cases hb : x.isNan ∨ x.lt (.fin 0) ∨ (F.fin 1).lt x
    · rw [if_pos hb] at h; cases h
    · rw [if_neg hb] at h
      cases h
      push Not at hb
      obtain ⟨h1, h2, h3⟩ := hb
      cases v with
      | nan => exact absurd trivial h1
      | ninf => exact absurd trivial h2
      | pinf => exact absurd trivial h3
      | fin r => exact ⟨r, rfl, not_lt.mp h2, not_lt.mp h3, div_repr hA hx⟩

/-! ## Real numbers -/

theorem posterior_real {p : ℝ} {e : Seen} {z s : ℝ} (hs : 0 < s) (h0 : 0 < p) (h1 : p < 1) :
    posterior exact (.fin p) (score exact (.fin e.near) (.fin z) (.fin s)) (score exact (.fin e.far) (.fin z) (.fin s)) =
      .ok (.fin (updated p e z s)) := by
  refine posterior_of ?_
  have e1 : ∀ a, score exact (.fin a) (.fin z) (.fin s) = .fin (-((z - a) / s) ^ 2 / 2) := fun a => Props.score_exact a z s hs
  rw [e1, e1, Props.posterior_exact p _ _ h0 h1]
  rfl

theorem zero_iff {p : ℝ} (h0 : 0 ≤ p) : isZero (.fin p) ↔ Nil p := by
  unfold isZero Nil
  show |p| < EPSILON ↔ _
  rw [abs_of_nonneg h0]
  rfl

theorem one_iff {p : ℝ} (h1 : p ≤ 1) : isOne exact (.fin p) ↔ Sure p := by
  unfold isOne Sure
  show |p + -1| < EPSILON ↔ _
  rw [abs_of_nonpos (by linarith), show -(p + -1) = 1 - p by ring]
  rfl

theorem not_nil {p : ℝ} (h : ¬ Nil p) : 0 < p := by
  unfold Nil at h
  have : (0 : ℝ) < 1 / 2 ^ 23 := by positivity
  linarith

theorem not_sure {p : ℝ} (h : ¬ Sure p) : p < 1 := by
  unfold Sure at h
  have : (0 : ℝ) < 1 / 2 ^ 23 := by positivity
  linarith

theorem lik_pos (a z s : ℝ) : 0 < likelihood a z s := Real.exp_pos _

theorem updated_mem {p : ℝ} (h0 : 0 < p) (h1 : p < 1) (e : Seen) (z s : ℝ) : 0 < updated p e z s ∧ updated p e z s < 1 := by
  have a := mul_pos h0 (lik_pos e.near z s)
  have b := mul_pos (sub_pos.mpr h1) (lik_pos e.far z s)
  unfold updated
  exact ⟨by positivity, by rw [div_lt_one (by positivity)]; linarith⟩

/-- A position of finite numbers. -/
def lift (p : Pose) : FPose := ⟨.fin p.x, .fin p.y, p.theta⟩

theorem sensorPose_eq (p r : Pose) (dx dy : ℝ) : sensorPose exact (lift p) r (.fin dx) (.fin dy) = lift (aimed p r dx dy) := by
  unfold sensorPose lift aimed
  simp only [exact, Arith.add, Arith.sub, Arith.mul, F.neg, FPose.mk.injEq, F.fin.injEq, and_true]
  exact ⟨by ring, by ring⟩

/-- The variables of the loop hold this guess. -/
structure Holds (W : Nat) (t : F) (a : Acc) (g : Guess) : Prop where
  memory : ∀ w, InMaze W w → val W a.memory w = .fin (g.prob w)
  threshold : a.memory.threshold = t
  past : ∀ i < SENSORS, a.past i = (g.past i).map lift
  dx : a.dx = .fin g.dx
  dy : a.dy = .fin g.dy
  sigma2 : a.sigma2 = .fin g.var

theorem correct_eq {a : Acc} {g : Guess} {t : F} (h : Holds W t a g) (hv : 0 ≤ g.var) {θ : ℝ} {near z s : ℝ} (hs : 0 < s) :
    correct exact θ (.fin near) (.fin z) (.fin s) a =
      { a with
        dx := .fin (g.dx + g.var / (g.var + s ^ 2) * (near - z) * Real.cos θ)
        dy := .fin (g.dy + g.var / (g.var + s ^ 2) * (near - z) * Real.sin θ)
        sigma2 := .fin (g.var * (1 - g.var / (g.var + s ^ 2))) } := by
  have hne : g.var + s * s ≠ 0 := by positivity
  unfold correct
  rw [h.sigma2, h.dx, h.dy]
  simp only [exact, Arith.add, Arith.sub, Arith.mul, Arith.div, F.neg, if_neg hne]
  simp only [pow_two, sub_eq_add_neg]

/-! ## One sensor -/

theorem after_chances {see : Pose → Option Seen} {here : Pose} {i : Nat} {l : Look} {g : Guess} (hc : Chances W g) :
    Chances W (g.after see here i l) := by
  intro w hw
  unfold Guess.after
  dsimp only
  split
  · exact hc w hw
  · rename_i e z s _
    split_ifs with h1 h2 h3
    · exact hc w hw
    · exact hc w hw
    · exact hc w hw
    · show 0 ≤ (if w = e.wall then _ else _) ∧ (if w = e.wall then _ else _) ≤ (1 : ℝ)
      by_cases h : w = e.wall
      · rw [if_pos h, h]
        have := updated_mem (not_nil h1) (not_sure h2) e z s
        exact ⟨this.1.le, this.2.le⟩
      · rw [if_neg h]
        exact hc w hw

theorem shrink {v s : ℝ} (hv : 0 ≤ v) (hs : 0 < s) : v * (1 - v / (v + s ^ 2)) = v * s ^ 2 / (v + s ^ 2) := by
  have : v + s ^ 2 ≠ 0 := by positivity
  field_simp
  ring

theorem after_var {see : Pose → Option Seen} {here : Pose} {i : Nat} {l : Look} {g : Guess} (hl : l.Fair W) (hv : 0 ≤ g.var) :
    0 ≤ (g.after see here i l).var := by
  unfold Guess.after
  dsimp only
  split
  · exact hv
  · rename_i e z s ht
    split_ifs with h1 h2 h3
    · exact hv
    · have hs : 0 < s := by
        unfold Guess.target at ht
        split at ht
        · rename_i z' s' e' hr _
          split at ht
          · cases ht
          · cases ht
            exact hl.positive _ _ hr
        · cases ht
      show 0 ≤ g.var * (1 - g.var / (g.var + s ^ 2))
      rw [shrink hv hs]
      positivity
    · exact hv
    · exact hv

theorem step_eq (hW : Supported W) {conv : FPose → R (Except ConvError Info)} {see : Pose → Option Seen} (hs : Sees W conv see)
    {here : Pose} {i : Nat} (hi : i < SENSORS) {l : Look} (hl : l.Fair W) {a : Acc} {g : Guess} {t : F} (h : Holds W t a g)
    (hc : Chances W g) (hv : 0 ≤ g.var) :
    ∃ a', step exact conv W (lift here) i (l.input W) a = .ok a' ∧ Holds W t a' (g.after see here i l) ∧
      (a'.memory = a.memory ∨ ∃ e z s, g.target see here i l = some (e, z, s) ∧ InMaze W e.wall ∧ ¬ Nil (g.prob e.wall) ∧ ¬ Sure (g.prob e.wall) ∧
        tryUpdate W (held W l.busyWrite) a.memory e.wall (.fin (updated (g.prob e.wall) e z s)) = .ok (some a'.memory)) := by
  classical
  have hpast : ∀ (q : Option Pose) (j : Nat), j < SENSORS →
      (if j = i then q.map lift else a.past j) = Option.map lift (if j = i then q else g.past j) := by
    intro q j hj
    by_cases e : j = i
    · rw [if_pos e, if_pos e]
    · rw [if_neg e, if_neg e]; exact h.past j hj
  unfold step arrGet arrSet
  rw [if_pos hi, if_pos hi, if_pos hi]
  cases hr : l.reading with
  | none =>
    have hinp : (l.input W).reading = none := by unfold Look.input; rw [hr]; rfl
    have ht : g.target see here i l = none := by unfold Guess.target; rw [hr]
    simp only [hinp, bind, Except.bind]
    unfold Guess.after
    rw [ht]
    dsimp only
    cases hp : g.past i with
    | none =>
      have : a.past i = none := by rw [h.past i hi, hp]; rfl
      rw [this]
      refine ⟨_, rfl, ⟨h.memory, h.threshold, fun j hj => ?_, h.dx, h.dy, h.sigma2⟩, Or.inl rfl⟩
      rw [hr]
      exact hpast (some here) j hj
    | some q =>
      have : a.past i = some (lift q) := by rw [h.past i hi, hp]; rfl
      rw [this]
      refine ⟨_, rfl, ⟨h.memory, h.threshold, fun j hj => ?_, h.dx, h.dy, h.sigma2⟩, Or.inl rfl⟩
      rw [hr]
      show a.past j = _
      rw [h.past j hj]
      show _ = Option.map lift (if j = i then some q else g.past j)
      by_cases e : j = i
      · rw [if_pos e, e, hp]
      · rw [if_neg e]
  | some zs =>
    obtain ⟨z, s⟩ := zs
    have hpos := hl.positive z s hr
    have hinp : (l.input W).reading = some (.fin z, .fin s) := by unfold Look.input; rw [hr]; rfl
    have hm : (a.past i).getD (lift here) = lift ((g.past i).getD here) := by
      rw [h.past i hi]
      cases g.past i <;> rfl
    have hpose : sensorPose exact ((a.past i).getD (lift here)) (l.input W).mount a.dx a.dy = lift (g.from here i l) := by
      rw [hm, h.dx, h.dy]
      exact sensorPose_eq _ _ _ _
    have hnan : ¬ (((a.past i).getD (lift here)).x.isNan ∨ ((a.past i).getD (lift here)).y.isNan) := by
      rw [hm]
      rintro (h | h) <;> exact h
    simp only [hinp, bind, Except.bind]
    rw [if_neg hnan, hpose]
    have hsee := hs (g.from here i l)
    have hpn : ∀ j, j < SENSORS → (if j = i then (none : Option FPose) else a.past j) =
        Option.map lift (if j = i then waits (g.past i) here (some (z, s)).isSome else g.past j) := fun j hj => hpast none j hj
    unfold Guess.after
    rw [hr]
    cases he : see (g.from here i l) with
    | none =>
      rw [he] at hsee
      obtain ⟨err, hconv⟩ := hsee
      have ht : g.target see here i l = none := by unfold Guess.target; rw [hr, he]
      rw [ht, show conv (lift (g.from here i l)) = _ from hconv]
      exact ⟨_, rfl, ⟨h.memory, h.threshold, hpn, h.dx, h.dy, h.sigma2⟩, Or.inl rfl⟩
    | some e =>
      rw [he] at hsee
      obtain ⟨hin, hconv⟩ := hsee
      rw [show conv (lift (g.from here i l)) = _ from hconv]
      dsimp only
      rw [try_eq hW hin]
      have hb : ((l.input W).lockedRead (e.wall.index W) = true) ↔ e.wall ∈ l.busyRead := held_iff hW hin hl.read
      have hb' : ((l.input W).lockedWrite (e.wall.index W) = true) ↔ e.wall ∈ l.busyWrite := held_iff hW hin hl.write
      by_cases hbusy : e.wall ∈ l.busyRead
      · have ht : g.target see here i l = none := by unfold Guess.target; rw [hr, he]; dsimp only; rw [if_pos hbusy]
        rw [ht, if_pos (hb.mpr hbusy)]
        exact ⟨_, rfl, ⟨h.memory, h.threshold, hpn, h.dx, h.dy, h.sigma2⟩, Or.inl rfl⟩
      · have ht : g.target see here i l = some (e, z, s) := by unfold Guess.target; rw [hr, he]; dsimp only; rw [if_neg hbusy]
        rw [ht, if_neg (fun x => hbusy (hb.mp x))]
        dsimp only
        rw [h.memory _ hin]
        obtain ⟨hp0, hp1⟩ := hc _ hin
        by_cases h1 : Nil (g.prob e.wall)
        · rw [if_pos h1, if_pos ((zero_iff hp0).mpr h1)]
          exact ⟨_, rfl, ⟨h.memory, h.threshold, hpn, h.dx, h.dy, h.sigma2⟩, Or.inl rfl⟩
        rw [if_neg h1, if_neg (fun x => h1 ((zero_iff hp0).mp x))]
        by_cases h2 : Sure (g.prob e.wall)
        · rw [if_pos h2, if_pos ((one_iff hp1).mpr h2)]
          refine ⟨_, rfl, ?_, Or.inl rfl⟩
          have h' : Holds W t { a with past := fun j => if j = i then none else a.past j } { g with
              past := fun j => if j = i then waits (g.past i) here (some (z, s)).isSome else g.past j } :=
              ⟨h.memory, h.threshold, hpn, h.dx, h.dy, h.sigma2⟩
          rw [correct_eq h' hv hpos]
          exact ⟨h.memory, h.threshold, hpn, rfl, rfl, rfl⟩
        rw [if_neg h2, if_neg (fun x => h2 ((one_iff hp1).mp x)), posterior_real hpos (not_nil h1) (not_sure h2)]
        dsimp only
        rw [update_eq hW hin]
        by_cases hbw : e.wall ∈ l.busyWrite
        · rw [if_pos hbw, if_pos (hb'.mpr hbw)]
          exact ⟨_, rfl, ⟨h.memory, h.threshold, hpn, h.dx, h.dy, h.sigma2⟩, Or.inl rfl⟩
        · rw [if_neg hbw, if_neg (fun x => hbw (hb'.mp x))]
          refine ⟨_, rfl, ⟨fun w hw => ?_, h.threshold, hpn, h.dx, h.dy, h.sigma2⟩, Or.inr ⟨e, z, s, rfl, hin, h1, h2, ?_⟩⟩
          rotate_left
          · rw [update_eq hW hin, if_neg (show ¬ held W l.busyWrite (e.wall.index W) = true from fun x => hbw (hb'.mp x))]
          show val W (withVal W a.memory e.wall _) w = .fin (if w = e.wall then _ else _)
          rw [val_withVal hW hin hw]
          by_cases hwe : w = e.wall
          · rw [if_pos hwe, if_pos hwe, hwe]
          · rw [if_neg hwe, if_neg hwe]
            exact h.memory w hw

/-! ## One call -/

theorem afterAll_chances {see : Pose → Option Seen} {here : Pose} : ∀ (ls : List Look) (i : Nat) (g : Guess), Chances W g →
    Chances W (g.afterAll see here i ls)
  | [], _, _, h => h
  | _ :: ls, i, _, h => afterAll_chances ls (i + 1) _ (after_chances h)

theorem afterAll_var {see : Pose → Option Seen} {here : Pose} : ∀ (ls : List Look) (i : Nat) (g : Guess), (∀ l ∈ ls, l.Fair W) → 0 ≤ g.var →
    0 ≤ (g.afterAll see here i ls).var
  | [], _, _, _, h => h
  | l :: ls, i, _, hl, h => afterAll_var ls (i + 1) _ (fun l' hl' => hl l' (List.mem_cons_of_mem _ hl'))
      (after_var (hl l (List.mem_cons_self ..)) h)

theorem loop_eq (hW : Supported W) {conv : FPose → R (Except ConvError Info)} {see : Pose → Option Seen} (hs : Sees W conv see)
    {here : Pose} {t : F} : ∀ (ls : List Look) (i : Nat) (a : Acc) (g : Guess), i + ls.length ≤ SENSORS → (∀ l ∈ ls, l.Fair W) →
    Holds W t a g → Chances W g → 0 ≤ g.var →
    ∃ a', loop exact conv W (lift here) i (ls.map (Look.input W)) a = .ok a' ∧ Holds W t a' (g.afterAll see here i ls)
  | [], _, a, _, _, _, h, _, _ => ⟨a, rfl, h⟩
  | l :: ls, i, a, g, hi, hl, h, hc, hv => by
    have hf := hl l (List.mem_cons_self ..)
    rw [List.length_cons] at hi
    obtain ⟨a1, h1, h2, -⟩ := step_eq hW hs (here := here) (i := i) (by omega) hf h hc hv
    obtain ⟨a2, h3, h4⟩ := loop_eq hW hs ls (i + 1) a1 _ (by omega) (fun l' hl' => hl l' (List.mem_cons_of_mem _ hl')) h2 (after_chances hc)
      (after_var hf hv)
    refine ⟨a2, ?_, h4⟩
    show (step exact conv W (lift here) i (l.input W) a >>= fun a => loop exact conv W (lift here) (i + 1) _ a) = _
    rw [h1]
    exact h3

theorem sqrt_eq {v : ℝ} (hv : 0 ≤ v) : sqrtF exact (.fin v) = .fin (Real.sqrt v) := by
  show (if v < 0 then F.nan else .fin (Real.sqrt v)) = _
  rw [if_neg (not_lt.mpr hv)]

theorem call_eq (hW : Supported W) {conv : FPose → R (Except ConvError Info)} {see : Pose → Option Seen} (hs : Sees W conv see)
    {d : Detector} {g : Guess} (hd : Remembers W d g) (hc : Chances W g) {ls : List Look} (hn : ls.length ≤ SENSORS) (hl : ∀ l ∈ ls, l.Fair W)
    (p : Pose) (sx sy : ℝ) :
    ∃ d', detectAndUpdate exact conv W d (ls.map (Look.input W)) (stateAt p sx sy) =
        .ok (d', ⟨.fin (p.x + ((g.begin sx sy).afterAll see p 0 ls).dx), .fin (p.y + ((g.begin sx sy).afterAll see p 0 ls).dy),
          .fin (Real.sqrt ((g.begin sx sy).afterAll see p 0 ls).var), .fin (Real.sqrt ((g.begin sx sy).afterAll see p 0 ls).var), p.theta⟩) ∧
      Remembers W d' ((g.begin sx sy).afterAll see p 0 ls) ∧ d'.memory.threshold = d.memory.threshold := by
  have hav : exact.div (exact.add (.fin sx) (.fin sy)) (.fin 2) = .fin ((sx + sy) / 2) := by
    simp only [exact, Arith.add, Arith.div, if_neg (two_ne_zero (α := ℝ))]
  have h0 : Holds W d.memory.threshold ⟨d.past, d.memory, .fin 0, .fin 0, exact.mul (.fin ((sx + sy) / 2)) (.fin ((sx + sy) / 2))⟩ (g.begin sx sy) :=
    ⟨(recalls_iff hW).mp hd.memory, rfl, hd.past, rfl, rfl, by
      show F.fin ((sx + sy) / 2 * ((sx + sy) / 2)) = .fin (((sx + sy) / 2) ^ 2)
      rw [pow_two]⟩
  have hv : 0 ≤ (g.begin sx sy).var := sq_nonneg _
  obtain ⟨a, h1, h2⟩ := loop_eq hW hs (here := p) ls 0 _ _ (by omega) hl h0 (fun w hw => hc w hw) hv
  refine ⟨⟨a.past, a.memory⟩, ?_, ⟨(recalls_iff hW).mpr h2.memory, h2.past⟩, h2.threshold⟩
  unfold detectAndUpdate
  dsimp only [stateAt]
  rw [hav]
  rw [show (⟨.fin p.x, .fin p.y, p.theta⟩ : FPose) = lift p from rfl, h1]
  simp only [bind, Except.bind, pure, Except.pure]
  rw [h2.sigma2, h2.dx, h2.dy, sqrt_eq (afterAll_var ls 0 _ hl hv)]
  rfl

/-! ## The converter -/

theorem wallNew_eq {x y : Nat} {top : Bool} (hW : Supported W) : Wall.new W x y top = if x < W ∧ y < W then some ⟨x, y, top⟩ else none := by
  have := hW.pos
  unfold Wall.new
  by_cases h : x < W ∧ y < W
  · rw [if_pos h, if_pos (by omega)]
  · rw [if_neg h, if_neg (by omega)]

theorem asU8_eq {q : Int} (h0 : 0 ≤ q) (h1 : q < 256) : (Convert.asU8 q : Int) = q := by
  unfold Convert.asU8
  omega

theorem sideWall_ok (hW : Supported W) {i j : Int} (hi0 : 0 ≤ i) (hi : i < 256) (hj0 : 0 ≤ j) (hj : j < 256) {dir : Dir} :
    sideWall W i j dir = .ok w ↔ InMaze W w ∧ ((w.x : Int), (w.y : Int), w.top) = oldSide i j dir := by
  have key : ∀ (x y : Nat) (top : Bool) (X Y : Int), (x : Int) = X → (y : Int) = Y →
      (sideWall.make (Wall.new W x y top) = .ok w ↔ InMaze W w ∧ ((w.x : Int), (w.y : Int), w.top) = (X, Y, top)) := by
    intro x y top X Y hx hy
    rw [wallNew_eq hW]
    obtain ⟨a, b, c⟩ := w
    unfold InMaze
    simp only [Prod.mk.injEq]
    by_cases h : x < W ∧ y < W
    · rw [if_pos h]
      simp only [sideWall.make, Except.ok.injEq, Wall.mk.injEq]
      constructor
      · rintro ⟨rfl, rfl, rfl⟩; exact ⟨h, hx, hy, rfl⟩
      · rintro ⟨-, h1, h2, h3⟩; exact ⟨by omega, by omega, h3.symm⟩
    · rw [if_neg h]
      simp only [sideWall.make, reduceCtorEq, false_iff, not_and]
      intro h1 h2 h3
      exact absurd (show x < W ∧ y < W by omega) h
  cases dir with
  | right =>
    simp only [sideWall, oldSide]
    rw [if_neg (by omega)]
    exact key _ _ _ _ _ (asU8_eq hi0 hi) (asU8_eq hj0 hj)
  | left =>
    simp only [sideWall, oldSide]
    by_cases h : i < 1
    · rw [if_pos (Or.inl h)]
      simp only [reduceCtorEq, false_iff, Prod.mk.injEq]
      rintro ⟨-, h1, -⟩; omega
    · rw [if_neg (by omega)]
      exact key _ _ _ _ _ (asU8_eq (by omega) (by omega)) (asU8_eq hj0 hj)
  | top =>
    simp only [sideWall, oldSide]
    rw [if_neg (by omega)]
    exact key _ _ _ _ _ (asU8_eq hi0 hi) (asU8_eq hj0 hj)
  | bottom =>
    simp only [sideWall, oldSide]
    by_cases h : j < 1
    · rw [if_pos (Or.inr h)]
      simp only [reduceCtorEq, false_iff, Prod.mk.injEq]
      rintro ⟨-, -, h1, -⟩; omega
    · rw [if_neg (by omega)]
      exact key _ _ _ _ _ (asU8_eq hi0 hi) (asU8_eq (by omega) (by omega))

theorem sideWall_inMaze (hW : Supported W) {i j : Int} {dir : Dir} (h : sideWall W i j dir = .ok w) : InMaze W w := by
  have key : ∀ (x y : Nat) (top : Bool), sideWall.make (Wall.new W x y top) = .ok w → InMaze W w := by
    intro x y top h
    rw [wallNew_eq hW] at h
    split at h
    · rename_i hxy
      cases h
      exact hxy
    · cases h
  cases dir <;> simp only [sideWall] at h <;> split at h
  all_goals first
    | (cases h; done)
    | exact key _ _ _ h

/-- Both crates name the same wall. -/
theorem sideWall_newer (hW : Supported W) {i j : Int} (hi0 : 0 ≤ i) (hi : i < 128) (hj0 : 0 ≤ j) (hj : j < 128) {dir : Dir} :
    sideWall W i j dir = .ok w ↔ ∃ c, Convert.wallAt W i j dir = some c ∧ oldWallAt c = w := by
  rw [sideWall_ok hW hi0 (by omega) hj0 (by omega)]
  constructor
  · rintro ⟨⟨h1, h2⟩, h3⟩
    obtain ⟨x, y, b⟩ := w
    cases b
    · refine ⟨⟨2 * x + 1, 2 * y⟩, (Verif.Proof.wallAt_eq hW hi0 hi hj0 hj).mpr ⟨⟨?_, ?_, ?_⟩, ?_⟩, ?_⟩
      · show 2 * x + 1 < 2 * W
        simp only at h1; omega
      · show 2 * y < 2 * W
        simp only at h2; omega
      · show (2 * x + 1 + 2 * y) % 2 = 1
        omega
      · cases dir <;> simp only [oldSide, Prod.mk.injEq, and_true, and_false, sideOf, reduceCtorEq] at h3 ⊢ <;> push_cast <;> omega
      · unfold oldWallAt
        simp only [Wall.mk.injEq, decide_eq_false_iff_not]
        omega
    · refine ⟨⟨2 * x, 2 * y + 1⟩, (Verif.Proof.wallAt_eq hW hi0 hi hj0 hj).mpr ⟨⟨?_, ?_, ?_⟩, ?_⟩, ?_⟩
      · show 2 * x < 2 * W
        simp only at h1; omega
      · show 2 * y + 1 < 2 * W
        simp only at h2; omega
      · show (2 * x + (2 * y + 1)) % 2 = 1
        omega
      · cases dir <;> simp only [oldSide, Prod.mk.injEq, and_true, and_false, sideOf, reduceCtorEq] at h3 ⊢ <;> push_cast <;> omega
      · unfold oldWallAt
        simp only [Wall.mk.injEq, decide_eq_true_eq]
        omega
  · rintro ⟨c, h, rfl⟩
    obtain ⟨⟨h1, h2, h3⟩, h4⟩ := (Verif.Proof.wallAt_eq hW hi0 hi hj0 hj).mp h
    refine ⟨⟨?_, ?_⟩, ?_⟩
    · show c.x / 2 < W
      omega
    · show c.y / 2 < W
      omega
    · unfold oldWallAt
      cases dir <;> simp only [sideOf, oldSide, Prod.mk.injEq] at h4 ⊢ <;> refine ⟨by omega, by omega, ?_⟩ <;>
        simp only [decide_eq_true_eq, decide_eq_false_iff_not] <;> omega

/-- Whatever is returned, anywhere. -/
theorem convert_some {sw ww ir il : ℝ} (hww : 0 < ww) (hsw : ww < sw) {sort : List (Dir × F) → List (Dir × F)}
    (hs : Sorts sort) {p : Pose} {info : Info} {rx ry : ℝ} {qx qy : Int}
    (hx : (Converter.new sw ww ir il).remquo p.x = (rx, qx)) (hy : (Converter.new sw ww ir il).remquo p.y = (ry, qy))
    (h : convert (Converter.new sw ww ir il) W sort p = .ok info) :
    ¬ (Converter.new sw ww ir il).isNearPillar ⟨rx, ry, p.theta⟩ ∧
    (ww / 2 < rx ∧ rx < sw - ww / 2 ∧ ww / 2 < ry ∧ ry < sw - ww / 2) ∧
    ∃ u α β, sideWall W qx qy u = .ok info.wall ∧ info.existing = .fin α ∧ info.notExisting = .fin β ∧
      Exits sw ww ⟨rx, ry, p.theta⟩ u α β ∧ il < α ∧ (ww / 2 < ir → α < β) := by
  unfold convert at h
  rw [hx, hy] at h
  dsimp only at h
  by_cases hn : (Converter.new sw ww ir il).isNearPillar ⟨rx, ry, p.theta⟩
  · rw [if_pos hn] at h; cases h
  rw [if_neg hn] at h
  by_cases hr : rx ≤ (Converter.new sw ww ir il).n1 ∨ (Converter.new sw ww ir il).p1 ≤ rx ∨
      ry ≤ (Converter.new sw ww ir il).n1 ∨ (Converter.new sw ww ir il).p1 ≤ ry
  · rw [if_pos hr] at h; cases h
  rw [if_neg hr] at h
  have hr' : ww / 2 < rx ∧ rx < sw - ww / 2 ∧ ww / 2 < ry ∧ ry < sw - ww / 2 := by
    simp only [not_or, not_le] at hr
    exact hr
  obtain ⟨u, v, α, β, r, hl, he, hd⟩ := core (ir := ir) (il := il) hww hsw hs (p := ⟨rx, ry, p.theta⟩) hr'
  dsimp only at hl
  rw [hl] at h
  dsimp only at h
  refine ⟨hn, hr', u, α, β, ?_⟩
  match hw : sideWall W qx qy u with
  | .error _ => rw [hw] at h; cases h
  | .ok c =>
    rw [hw] at h
    dsimp only at h
    by_cases hil : F.le (.fin α) (.fin (Converter.new sw ww ir il).ignoreLength)
    · rw [if_pos hil] at h; cases h
    · rw [if_neg hil] at h
      cases h
      exact ⟨rfl, rfl, rfl, he, not_le.mp hil, fun hir => lt_of_le_of_ne he.le (fun e => hn (hd e hir))⟩

/-- Conversely, when nothing rules the pose out. -/
theorem convert_of {sw ww ir il : ℝ} (hww : 0 < ww) (hsw : ww < sw) {sort : List (Dir × F) → List (Dir × F)}
    (hs : Sorts sort) {p : Pose} {rx ry : ℝ} {qx qy : Int}
    (hx : (Converter.new sw ww ir il).remquo p.x = (rx, qx)) (hy : (Converter.new sw ww ir il).remquo p.y = (ry, qy))
    (hn : ¬ (Converter.new sw ww ir il).isNearPillar ⟨rx, ry, p.theta⟩)
    (hr : ww / 2 < rx ∧ rx < sw - ww / 2 ∧ ww / 2 < ry ∧ ry < sw - ww / 2) :
    ∃ u α β, Exits sw ww ⟨rx, ry, p.theta⟩ u α β ∧
      (∀ e, sideWall W qx qy u = .error e → convert (Converter.new sw ww ir il) W sort p = .error e) ∧
      ∀ c, sideWall W qx qy u = .ok c →
        convert (Converter.new sw ww ir il) W sort p = if α ≤ il then .error .outOfBound else .ok ⟨c, .fin α, .fin β⟩ := by
  classical
  obtain ⟨u, v, α, β, r, hl, he, -⟩ := core (ir := ir) (il := il) hww hsw hs (p := ⟨rx, ry, p.theta⟩) hr
  dsimp only at hl
  refine ⟨u, α, β, he, ?_, ?_⟩
  all_goals
    intro c hc
    unfold convert
    rw [hx, hy]
    dsimp only
    rw [if_neg hn, if_neg (by simp only [not_or, not_le]; exact hr), hl]
    dsimp only
    rw [hc]
  dsimp only
  by_cases hα : α ≤ il
  · rw [if_pos hα, if_pos (show F.le (.fin α) (.fin (Converter.new sw ww ir il).ignoreLength) from hα)]
  · rw [if_neg hα, if_neg (show ¬ F.le (.fin α) (.fin (Converter.new sw ww ir il).ignoreLength) from hα)]

/-- Poses at which nothing is seen. -/
theorem convert_bad {c : Converter} {sort : List (Dir × F) → List (Dir × F)} {p : Pose} {rx ry : ℝ} {qx qy : Int}
    (hx : c.remquo p.x = (rx, qx)) (hy : c.remquo p.y = (ry, qy))
    (h : c.isNearPillar ⟨rx, ry, p.theta⟩ ∨ rx ≤ c.n1 ∨ c.p1 ≤ rx ∨ ry ≤ c.n1 ∨ c.p1 ≤ ry) :
    convert c W sort p = .error .outOfBound := by
  unfold convert
  rw [hx, hy]
  dsimp only
  by_cases hn : c.isNearPillar ⟨rx, ry, p.theta⟩
  · rw [if_pos hn]
  · rw [if_neg hn, if_pos (h.resolve_left hn)]

end Verif.Proof.OldE
