import Verif.Proof.Detect
import Verif.Proof.Grid
import Verif.Spec.Detect
import Mathlib.Analysis.SpecialFunctions.Log.Basic
import Mathlib.Tactic.FieldSimp
/-!
# Properties of the wall detector (C36 – C39)
-/
namespace Verif.Props
open Verif Verif.Spec Verif.Proof Verif.Detect Verif.Search Verif.Grid

/-! ## C36 -/

/-- **C36.** For every rounding: a call with finite distance and positive deviation keeps all stored values
probabilities, or it panics, and it panics exactly when the squared deviations from both hypotheses overflow (and the
wall is not settled). -/
theorem C36_call (A : Arith) (hA : Rounding A) (W : Nat) (hW : Supported W) (convert : Pose → Option WallInfo)
    (hc : GoodConverter convert W) (d : Detector) (hd : ∀ i, IsProb A (d i)) (o : Obs) (hs : 0 < o.stddev) :
    (∃ d' r, detectAndUpdate A convert W d (.fin o.mean) (.fin o.stddev) o.pose = .ok (d', r) ∧ (∀ i, IsProb A (d' i)) ∧
      ¬ ∃ i, r.isSome ∧ convert o.pose = some i ∧ SquareOverflows A i.existing o.mean o.stddev ∧
        SquareOverflows A i.notExisting o.mean o.stddev) ∨
    (detectAndUpdate A convert W d (.fin o.mean) (.fin o.stddev) o.pose = .error .unwrapNone ∧
      ∃ i, convert o.pose = some i ∧ SquareOverflows A i.existing o.mean o.stddev ∧
        SquareOverflows A i.notExisting o.mean o.stddev) := by
  unfold detectAndUpdate
  cases hcv : convert o.pose with
  | none => left; exact ⟨d, none, rfl, hd, by simp⟩
  | some i =>
    obtain ⟨hv, a, b, ha, hb⟩ := hc _ _ hcv
    have hlt : i.coord.asIndex W < LEN := asIndex_lt_que hW hv
    simp only [arrGet, if_pos hlt, bind, Except.bind]
    by_cases hz : isZero (d (i.coord.asIndex W)) ∨ isOne A (d (i.coord.asIndex W))
    · left
      rw [if_pos hz]
      exact ⟨d, none, rfl, hd, by simp⟩
    · rw [if_neg hz, ha, hb]
      have sa := score_cases hA a o.mean o.stddev hs
      have sb := score_cases hA b o.mean o.stddev hs
      by_cases hboth : SquareOverflows A (.fin a) o.mean o.stddev ∧ SquareOverflows A (.fin b) o.mean o.stddev
      · right
        rw [overflow_score hA hs hboth.1, overflow_score hA hs hboth.2, posterior_overflow hA]
        exact ⟨rfl, i, rfl, by rw [ha]; exact hboth.1, by rw [hb]; exact hboth.2⟩
      · left
        obtain ⟨v, hv', hvp⟩ := posterior_ok hA (hd (i.coord.asIndex W)) hz
          (a := score A (.fin a) (.fin o.mean) (.fin o.stddev)) (b := score A (.fin b) (.fin o.mean) (.fin o.stddev))
          (by rcases sa with h | h; exacts [Or.inl h.1, Or.inr h]) (by rcases sb with h | h; exacts [Or.inl h.1, Or.inr h])
          (by
            rintro ⟨h1, h2⟩
            apply hboth
            constructor
            · rcases sa with h | ⟨r, -, h, -⟩
              · exact h.2
              · rw [h1] at h; cases h
            · rcases sb with h | ⟨r, -, h, -⟩
              · exact h.2
              · rw [h2] at h; cases h)
        rw [hv']
        simp only [arrSet, if_pos hlt]
        refine ⟨_, _, rfl, ?_, ?_⟩
        · intro j
          by_cases hj : j = i.coord.asIndex W
          · simp only [if_pos hj]; exact hvp
          · simp only [if_neg hj]; exact hd j
        · rintro ⟨i', -, he, h1, h2⟩
          cases he
          rw [ha] at h1; rw [hb] at h2
          exact hboth ⟨h1, h2⟩

/-- The initial beliefs are probabilities. -/
theorem new_isProb (A : Arith) (hA : Rounding A) (i : Nat) : IsProb A (Detect.new i) :=
  ⟨1 / 2, rfl, by norm_num, by norm_num, hA.half⟩

/-- **C36, histories.** As long as no observation is so far off that both squared deviations overflow, no history of
observations panics and all stored values stay probabilities. -/
theorem C36_history (A : Arith) (hA : Rounding A) (W : Nat) (hW : Supported W) (convert : Pose → Option WallInfo)
    (hc : GoodConverter convert W) (l : List Obs)
    (hl : ∀ o ∈ l, 0 < o.stddev ∧ ∀ i, convert o.pose = some i →
      ¬ (SquareOverflows A i.existing o.mean o.stddev ∧ SquareOverflows A i.notExisting o.mean o.stddev))
    (d : Detector) (hd : ∀ i, IsProb A (d i)) :
    ∃ d' rs, observe A convert W l d = .ok (d', rs) ∧ rs.length = l.length ∧ ∀ i, IsProb A (d' i) := by
  induction l generalizing d with
  | nil => exact ⟨d, [], rfl, rfl, hd⟩
  | cons o l ih =>
    obtain ⟨hs, hno⟩ := hl o (by simp)
    rcases C36_call A hA W hW convert hc d hd o hs with ⟨d1, r, h1, h2, -⟩ | ⟨-, i, hi, h1⟩
    · obtain ⟨d2, rs, h3, h4, h5⟩ := ih (fun x hx => hl x (by simp [hx])) d1 h2
      refine ⟨d2, r :: rs, ?_, by simp [h4], h5⟩
      simp only [observe, h1, bind, Except.bind, h3, pure, Except.pure]
    · exact absurd h1 (hno i hi)

/-- When overflow cannot happen: the deviation is at most `B`, `B / stddev` at most `C`, and `C²` is still finite. -/
theorem C36_no_overflow (A : Arith) (hA : Rounding A) (a m s B C M : ℝ) (hs : 0 < s) (hB : A.rnd B = .fin B)
    (hC : A.rnd C = .fin C) (hM : A.rnd (C * C) = .fin M) (h1 : |a - m| ≤ B) (h2 : B ≤ C * s) :
    ¬ SquareOverflows A (.fin a) m s := by
  unfold SquareOverflows
  have bound : ∀ x b : ℝ, |x| ≤ b → A.rnd b = .fin b → ∃ y, A.rnd x = .fin y ∧ |y| ≤ b := by
    intro x b hx hb
    have hl := hA.mono x b (le_trans (le_abs_self x) hx)
    have hg := hA.mono (-b) x (by linarith [neg_abs_le x])
    rw [hA.odd, hb] at hg
    rw [hb] at hl
    cases hr : A.rnd x with
    | nan => rw [hr] at hl; exact hl.elim
    | ninf => rw [hr] at hg; exact hg.elim
    | pinf => rw [hr] at hl; exact hl.elim
    | fin y =>
      rw [hr] at hl hg
      exact ⟨y, rfl, abs_le.mpr ⟨hg, hl⟩⟩
  obtain ⟨y, hy, hyB⟩ := bound (a + -m) B (by rw [← sub_eq_add_neg]; exact h1) hB
  have e : A.sub (.fin a) (.fin m) = .fin y := hy
  rw [e]
  simp only [Arith.div, if_neg hs.ne']
  obtain ⟨t, ht, htC⟩ := bound (y / s) C (by
    rw [abs_div, abs_of_pos hs, div_le_iff₀ hs]; linarith) hC
  rw [ht]
  simp only [Arith.mul]
  intro h
  have := hA.mono (t * t) (C * C) (by
    have h0 := abs_nonneg t
    have : t * t = |t| * |t| := (abs_mul_abs_self t).symm
    rw [this]
    exact mul_le_mul htC htC h0 (h0.trans htC))
  rw [h, hM] at this
  exact this

/-- A converter for the examples: every pose with positive `x` sees the wall (0,1) at 4 cm, the next one at 13 cm. -/
noncomputable def demoConvert : Pose → Option WallInfo := fun p =>
  open Classical in if 0 < p.x then some ⟨⟨0, 1⟩, .fin (4 / 100), .fin (13 / 100)⟩ else none

theorem demoConvert_good (W : Nat) (hW : Supported W) : GoodConverter demoConvert W := by
  intro pose i h
  unfold demoConvert at h
  split at h
  · cases h
    have := hW.pos
    exact ⟨⟨by simp only; omega, by simp only; omega, by simp⟩, _, _, rfl, rfl⟩
  · cases h

example : Rounding exact ∧ GoodConverter demoConvert 32 ∧
    ¬ SquareOverflows exact (.fin (4 / 100)) (5 / 100) (1 / 1000) :=
  ⟨rounding_exact, demoConvert_good 32 ⟨5, by decide⟩,
    C36_no_overflow exact rounding_exact _ _ _ 1 1000 (1000 * 1000) (by norm_num) rfl rfl rfl (by norm_num) (by norm_num)⟩

/-! ## Exact arithmetic -/

theorem score_exact (a m s : ℝ) (hs : 0 < s) :
    score exact (.fin a) (.fin m) (.fin s) = .fin (-((m - a) / s) ^ 2 / 2) := by
  have e : exact.sub (.fin a) (.fin m) = .fin (a - m) := by rw [sub_eq_add_neg]; rfl
  unfold score
  rw [e]
  simp only [Arith.div, if_neg hs.ne', exact, F.neg, Arith.mul, if_neg (two_ne_zero (α := ℝ))]
  congr 1
  field_simp
  ring

/-- Bayes' rule. -/
noncomputable def bayes (p l n : ℝ) : ℝ := p * l / (p * l + (1 - p) * n)

theorem posterior_exact (p u v : ℝ) (hp0 : 0 < p) (hp1 : p < 1) :
    posterior exact (.fin p) (.fin u) (.fin v) = .ok (.fin (bayes p (Real.exp u) (Real.exp v))) := by
  have hrev : reverse exact (.fin p) = .fin (1 - p) := by
    unfold reverse; rw [sub_eq_add_neg]; rfl
  have key : ∀ m : ℝ, (unwrap (probability (exact.div (exact.mul (exact.exp (exact.sub (.fin u) (.fin m))) (.fin p))
      (exact.add (exact.mul (exact.exp (exact.sub (.fin u) (.fin m))) (.fin p))
        (exact.mul (exact.exp (exact.sub (.fin v) (.fin m))) (.fin (1 - p)))))) : R F)
      = .ok (.fin (bayes p (Real.exp u) (Real.exp v))) := by
    intro m
    have hm : ∀ w t : ℝ, exact.mul (exact.exp (exact.sub (.fin w) (.fin m))) (.fin t) = .fin (Real.exp (w - m) * t) := by
      intro w t; rw [sub_eq_add_neg w m]; rfl
    rw [hm, hm]
    have hu := Real.exp_pos (u - m)
    have hv := Real.exp_pos (v - m)
    have hU := Real.exp_pos u
    have hV := Real.exp_pos v
    have h1p : 0 < 1 - p := by linarith
    have hpos : 0 < Real.exp (u - m) * p + Real.exp (v - m) * (1 - p) := by positivity
    have e : exact.div (.fin (Real.exp (u - m) * p))
        (exact.add (.fin (Real.exp (u - m) * p)) (.fin (Real.exp (v - m) * (1 - p)))) =
        .fin (Real.exp (u - m) * p / (Real.exp (u - m) * p + Real.exp (v - m) * (1 - p))) := by
      simp only [Arith.add, exact, Arith.div, if_neg hpos.ne']
    rw [e]
    have hval : Real.exp (u - m) * p / (Real.exp (u - m) * p + Real.exp (v - m) * (1 - p))
        = bayes p (Real.exp u) (Real.exp v) := by
      unfold bayes
      rw [Real.exp_sub, Real.exp_sub]
      have hM := Real.exp_pos m
      field_simp
    rw [← hval]
    apply probability_ok
    · positivity
    · rw [div_le_one hpos]
      have : 0 < Real.exp (v - m) * (1 - p) := by positivity
      linarith
  have hfin : ∀ m w t : ℝ, ¬ (exact.mul (exact.exp (exact.sub (.fin w) (.fin m))) (.fin t)).isInfinite :=
    fun m w t h => h
  unfold posterior
  rw [if_neg (show ¬ (F.fin u).isNan from id), if_neg (show ¬ (F.fin v).isNan from id), hrev]
  by_cases hlt : (F.fin u).lt (.fin v)
  · rw [if_pos hlt]
    simp only
    rw [if_neg (hfin u u p), if_neg (hfin u v (1 - p))]
    exact key u
  · rw [if_neg hlt]
    simp only
    rw [if_neg (hfin v u p), if_neg (hfin v v (1 - p))]
    exact key v

/-- Not settled: at least `EPSILON` away from 0 and 1. -/
def Open (p : ℝ) : Prop := EPSILON ≤ p ∧ p ≤ 1 - EPSILON

theorem eps_pos : 0 < EPSILON := by unfold EPSILON; positivity
theorem eps_small : EPSILON < 1 / 10 := by unfold EPSILON; norm_num

theorem open_iff (p : ℝ) (h0 : 0 ≤ p) (h1 : p ≤ 1) : ¬ (isZero (.fin p) ∨ isOne exact (.fin p)) ↔ Open p := by
  have e : exact.sub (.fin p) (.fin 1) = .fin (p - 1) := by rw [sub_eq_add_neg]; rfl
  unfold isZero isOne Open
  rw [e]
  simp only [F.abs, F.lt, not_or, not_lt]
  rw [abs_of_nonneg h0, abs_of_nonpos (by linarith)]
  constructor <;> rintro ⟨h, h'⟩ <;> constructor <;> linarith

theorem Open.pos {p : ℝ} (h : Open p) : 0 < p := lt_of_lt_of_le eps_pos h.1
theorem Open.lt_one {p : ℝ} (h : Open p) : p < 1 := by have := eps_pos; have := h.2; linarith

theorem likelihood_pos (a m s : ℝ) : 0 < likelihood a m s := Real.exp_pos _

/-- One call in exact arithmetic on a wall that is not settled. -/
theorem detect_open {convert : Pose → Option WallInfo} {W : Nat} (hW : Supported W) {d : Detector} {o : Obs} {c : Coord}
    {a b p : ℝ} (hc : convert o.pose = some ⟨c, .fin a, .fin b⟩) (hv : Valid W c) (hs : 0 < o.stddev)
    (hd : d (c.asIndex W) = .fin p) (hp : Open p) :
    detectAndUpdate exact convert W d (.fin o.mean) (.fin o.stddev) o.pose =
      .ok (fun j => if j = c.asIndex W then
          .fin (bayes p (likelihood a o.mean o.stddev) (likelihood b o.mean o.stddev)) else d j,
        some (c, report exact (.fin (bayes p (likelihood a o.mean o.stddev) (likelihood b o.mean o.stddev))))) := by
  have hlt : c.asIndex W < LEN := asIndex_lt_que hW hv
  unfold detectAndUpdate
  rw [hc]
  simp only [arrGet, if_pos hlt, bind, Except.bind, hd]
  rw [if_neg ((open_iff p hp.pos.le hp.lt_one.le).mpr hp), score_exact _ _ _ hs, score_exact _ _ _ hs,
    posterior_exact _ _ _ hp.pos hp.lt_one]
  simp only [arrSet, if_pos hlt, pure, Except.pure]
  rfl

/-- One call on a settled wall, whatever the arithmetic. -/
theorem detect_settled (A : Arith) {convert : Pose → Option WallInfo} {W : Nat} (hW : Supported W) {d : Detector}
    (m s : F) (pose : Pose) {i : WallInfo} (hc : convert pose = some i) (hv : Valid W i.coord)
    (hz : isZero (d (i.coord.asIndex W)) ∨ isOne A (d (i.coord.asIndex W))) :
    detectAndUpdate A convert W d m s pose = .ok (d, none) := by
  have hlt : i.coord.asIndex W < LEN := asIndex_lt_que hW hv
  unfold detectAndUpdate
  rw [hc]
  simp only [arrGet, if_pos hlt, bind, Except.bind]
  rw [if_pos hz]
  rfl

theorem bayes_mem {p l n : ℝ} (h0 : 0 < p) (h1 : p < 1) (hl : 0 < l) (hn : 0 < n) :
    0 < bayes p l n ∧ bayes p l n < 1 ∧ odds (bayes p l n) = odds p * (l / n) := by
  have h1p : 0 < 1 - p := by linarith
  have hpl : 0 < p * l := by positivity
  have hpn : 0 < (1 - p) * n := by positivity
  have hs : 0 < p * l + (1 - p) * n := by linarith
  have hlt : bayes p l n < 1 := by
    unfold bayes
    rw [div_lt_one hs]; linarith
  refine ⟨by unfold bayes; positivity, hlt, ?_⟩
  have e : 1 - bayes p l n = (1 - p) * n / (p * l + (1 - p) * n) := by
    unfold bayes
    rw [eq_div_iff hs.ne', sub_mul, div_mul_cancel₀ _ hs.ne']
    ring
  unfold odds
  rw [e]
  unfold bayes
  field_simp

theorem odds_inj {p q : ℝ} (hp : p < 1) (hq : q < 1) (h : odds p = odds q) : p = q := by
  unfold odds at h
  have h1 : (1 - p) ≠ 0 := by linarith
  have h2 : (1 - q) ≠ 0 := by linarith
  rw [div_eq_div_iff h1 h2] at h
  nlinarith

/-! ## C37 -/

/-- The evidence an observation gives about the wall with slot `j`: the ratio of the likelihoods, and 1 if the
observation concerns another wall or none. -/
noncomputable def evidence (convert : Pose → Option WallInfo) (W j : Nat) (o : Obs) : ℝ :=
  match convert o.pose with
  | some ⟨c, .fin a, .fin b⟩ =>
    if c.asIndex W = j then likelihood a o.mean o.stddev / likelihood b o.mean o.stddev else 1
  | _ => 1

/-- All beliefs are numbers between 0 and 1. -/
def Beliefs (d : Detector) : Prop := ∀ i, ∃ p, d i = .fin p ∧ 0 ≤ p ∧ p ≤ 1

/-- What one call does in exact arithmetic when it returns a report. -/
theorem detect_some {convert : Pose → Option WallInfo} {W : Nat} (hW : Supported W) (hc : GoodConverter convert W)
    {d d' : Detector} (hd : Beliefs d) {o : Obs} (hs : 0 < o.stddev) {r : Coord × WallState}
    (h : detectAndUpdate exact convert W d (.fin o.mean) (.fin o.stddev) o.pose = .ok (d', some r)) :
    Beliefs d' ∧ ∀ j p, d j = .fin p → 0 < p → p < 1 →
      ∃ p', d' j = .fin p' ∧ 0 < p' ∧ p' < 1 ∧ odds p' = odds p * evidence convert W j o := by
  cases hcv : convert o.pose with
  | none => unfold detectAndUpdate at h; rw [hcv] at h; cases h
  | some i =>
    obtain ⟨hv, a, b, ha, hb⟩ := hc _ _ hcv
    obtain ⟨c, e, n⟩ := i
    simp only at hv ha hb
    subst ha hb
    obtain ⟨q, hq, hq0, hq1⟩ := hd (c.asIndex W)
    by_cases hz : isZero (d (c.asIndex W)) ∨ isOne exact (d (c.asIndex W))
    · rw [detect_settled exact hW _ _ _ hcv hv hz] at h; cases h
    · rw [hq] at hz
      have hop := (open_iff q hq0 hq1).mp hz
      have hb := bayes_mem hop.pos hop.lt_one (likelihood_pos a o.mean o.stddev) (likelihood_pos b o.mean o.stddev)
      rw [detect_open hW hcv hv hs hq hop] at h
      cases h
      refine ⟨?_, ?_⟩
      · intro j
        by_cases hj : j = c.asIndex W
        · simp only [if_pos hj]; exact ⟨_, rfl, hb.1.le, hb.2.1.le⟩
        · simp only [if_neg hj]; exact hd j
      · intro j p hp h0 h1
        by_cases hj : j = c.asIndex W
        · subst hj
          rw [hq] at hp
          cases hp
          simp only [if_true]
          refine ⟨_, rfl, hb.1, hb.2.1, ?_⟩
          rw [hb.2.2]
          simp only [evidence, hcv, if_true]
        · simp only [if_neg hj]
          refine ⟨p, hp, h0, h1, ?_⟩
          simp only [evidence, hcv, if_neg (Ne.symm hj), mul_one]

/-- **C37.** Over exact arithmetic: after any list of observations that were all used (each call returned a report),
the odds of every wall are the prior odds times the product of the likelihood ratios of the observations of that
wall. -/
theorem C37_bayes (W : Nat) (hW : Supported W) (convert : Pose → Option WallInfo) (hc : GoodConverter convert W)
    (l : List Obs) (hl : ∀ o ∈ l, 0 < o.stddev) (d d' : Detector) (hd : Beliefs d)
    (rs : List (Option (Coord × WallState))) (h : observe exact convert W l d = .ok (d', rs))
    (hrs : ∀ r ∈ rs, r.isSome) (j : Nat) (p : ℝ) (hp : d j = .fin p) (h0 : 0 < p) (h1 : p < 1) :
    ∃ p', d' j = .fin p' ∧ 0 < p' ∧ p' < 1 ∧ odds p' = odds p * (l.map (evidence convert W j)).prod := by
  induction l generalizing d p rs with
  | nil => cases h; exact ⟨p, hp, h0, h1, by simp⟩
  | cons o l ih =>
    unfold observe at h
    cases h1' : detectAndUpdate exact convert W d (.fin o.mean) (.fin o.stddev) o.pose with
    | error e => simp only [h1', bind, Except.bind] at h; cases h
    | ok x =>
      obtain ⟨d1, r⟩ := x
      cases h2 : observe exact convert W l d1 with
      | error e => simp only [h1', h2, bind, Except.bind] at h; cases h
      | ok y =>
        obtain ⟨d2, rs'⟩ := y
        simp only [h1', h2, bind, Except.bind, pure, Except.pure, Except.ok.injEq, Prod.mk.injEq] at h
        obtain ⟨rfl, rfl⟩ := h
        have hr := hrs r (by simp)
        obtain ⟨x, rfl⟩ := Option.isSome_iff_exists.mp hr
        obtain ⟨q1, q2⟩ := detect_some hW hc hd (hl o (by simp)) h1'
        obtain ⟨p1, e1, e2, e3, e4⟩ := q2 j p hp h0 h1
        obtain ⟨p', f1, f2, f3, f4⟩ := ih (fun x hx => hl x (by simp [hx])) d1 q1 rs' h2 (fun r hr => hrs r (by simp [hr]))
          p1 e1 e2 e3
        refine ⟨p', f1, f2, f3, ?_⟩
        rw [f4, e4, List.map_cons, List.prod_cons]
        ring

/-- A call that returns no report changes nothing. -/
theorem detect_none {A : Arith} {convert : Pose → Option WallInfo} {W : Nat} {d d' : Detector} {m s : F} {pose : Pose}
    (h : detectAndUpdate A convert W d m s pose = .ok (d', none)) : d' = d := by
  unfold detectAndUpdate at h
  cases hcv : convert pose with
  | none => rw [hcv] at h; cases h; rfl
  | some i =>
    rw [hcv] at h
    simp only [bind, Except.bind] at h
    split at h
    · cases h
    · split at h
      · cases h; rfl
      · split at h
        · cases h
        · split at h <;> cases h

/-- The observations that were used: those answered by a report. -/
def used : List Obs → List (Option (Coord × WallState)) → List Obs
  | o :: l, some _ :: rs => o :: used l rs
  | _ :: l, none :: rs => used l rs
  | _, _ => []

/-- **C37, in full.** Over exact arithmetic: after any list of observations the odds of every undecided wall are its
prior odds times the product of the likelihood ratios of the observations that were used. -/
theorem C37_used (W : Nat) (hW : Supported W) (convert : Pose → Option WallInfo) (hc : GoodConverter convert W)
    (l : List Obs) (hl : ∀ o ∈ l, 0 < o.stddev) (d d' : Detector) (hd : Beliefs d)
    (rs : List (Option (Coord × WallState))) (h : observe exact convert W l d = .ok (d', rs))
    (j : Nat) (p : ℝ) (hp : d j = .fin p) (h0 : 0 < p) (h1 : p < 1) :
    ∃ p', d' j = .fin p' ∧ 0 < p' ∧ p' < 1 ∧ odds p' = odds p * ((used l rs).map (evidence convert W j)).prod := by
  induction l generalizing d p rs with
  | nil => cases h; exact ⟨p, hp, h0, h1, by simp [used]⟩
  | cons o l ih =>
    unfold observe at h
    cases h1' : detectAndUpdate exact convert W d (.fin o.mean) (.fin o.stddev) o.pose with
    | error e => simp only [h1', bind, Except.bind] at h; cases h
    | ok x =>
      obtain ⟨d1, r⟩ := x
      cases h2 : observe exact convert W l d1 with
      | error e => simp only [h1', h2, bind, Except.bind] at h; cases h
      | ok y =>
        obtain ⟨d2, rs'⟩ := y
        simp only [h1', h2, bind, Except.bind, pure, Except.pure, Except.ok.injEq, Prod.mk.injEq] at h
        obtain ⟨rfl, rfl⟩ := h
        cases r with
        | none =>
          rw [detect_none h1'] at h2
          exact ih (fun x hx => hl x (by simp [hx])) d hd rs' h2 p hp h0 h1
        | some x =>
          obtain ⟨q1, q2⟩ := detect_some hW hc hd (hl o (by simp)) h1'
          obtain ⟨p1, e1, e2, e3, e4⟩ := q2 j p hp h0 h1
          obtain ⟨p', f1, f2, f3, f4⟩ := ih (fun x hx => hl x (by simp [hx])) d1 q1 rs' h2 p1 e1 e2 e3
          refine ⟨p', f1, f2, f3, ?_⟩
          rw [f4, e4, used, List.map_cons, List.prod_cons]
          ring

/-- **C37, fresh.** In a fresh detector nothing is preferred: the odds of every wall are the product of the likelihood ratios
of the observations that were used. -/
theorem C37_fresh (W : Nat) (hW : Supported W) (convert : Pose → Option WallInfo) (hc : GoodConverter convert W)
    (l : List Obs) (hl : ∀ o ∈ l, 0 < o.stddev) (d' : Detector)
    (rs : List (Option (Coord × WallState))) (h : observe exact convert W l Detect.new = .ok (d', rs)) (j : Nat) :
    ∃ p', d' j = .fin p' ∧ 0 < p' ∧ p' < 1 ∧ odds p' = ((used l rs).map (evidence convert W j)).prod := by
  obtain ⟨p', a, b, c, e⟩ := C37_used W hW convert hc l hl _ d' (fun i => ⟨1 / 2, rfl, by norm_num, by norm_num⟩) rs h j (1 / 2) rfl
    (by norm_num) (by norm_num)
  refine ⟨p', a, b, c, ?_⟩
  rw [e, show odds (1 / 2) = 1 by norm_num [odds], one_mul]

/-- **C37, order.** The order of the observations does not matter. -/
theorem C37_order (W : Nat) (hW : Supported W) (convert : Pose → Option WallInfo) (hc : GoodConverter convert W)
    (l l' : List Obs) (hperm : l.Perm l') (hl : ∀ o ∈ l, 0 < o.stddev) (d d1 d2 : Detector) (hd : Beliefs d)
    (rs rs' : List (Option (Coord × WallState))) (h : observe exact convert W l d = .ok (d1, rs))
    (hrs : ∀ r ∈ rs, r.isSome) (h' : observe exact convert W l' d = .ok (d2, rs')) (hrs' : ∀ r ∈ rs', r.isSome)
    (j : Nat) (p : ℝ) (hp : d j = .fin p) (h0 : 0 < p) (h1 : p < 1) : d1 j = d2 j := by
  obtain ⟨p1, e1, -, e3, e4⟩ := C37_bayes W hW convert hc l hl d d1 hd rs h hrs j p hp h0 h1
  obtain ⟨p2, f1, -, f3, f4⟩ := C37_bayes W hW convert hc l' (fun o ho => hl o (hperm.mem_iff.mpr ho)) d d2 hd rs' h' hrs'
    j p hp h0 h1
  rw [e1, f1, odds_inj e3 f3]
  rw [e4, f4, (hperm.map _).prod_eq]

/-! ## C38 -/

/-- **C38.** For every arithmetic: a wall whose belief is 0 or 1 (within `EPSILON`) is never changed by any history of
observations that does not panic, and a call that concerns it returns nothing and changes nothing. -/
theorem C38_settled (A : Arith) (W : Nat) (hW : Supported W) (convert : Pose → Option WallInfo)
    (hc : GoodConverter convert W) (d : Detector) (c : Coord) (hv : Valid W c)
    (hz : isZero (d (c.asIndex W)) ∨ isOne A (d (c.asIndex W))) :
    (∀ (o : Obs) a b, convert o.pose = some ⟨c, a, b⟩ →
      detectAndUpdate A convert W d (.fin o.mean) (.fin o.stddev) o.pose = .ok (d, none)) ∧
    ∀ (l : List Obs) d' rs, observe A convert W l d = .ok (d', rs) →
      d' (c.asIndex W) = d (c.asIndex W) ∧ ∀ st, some (c, st) ∉ rs := by
  refine ⟨fun o a b h => detect_settled A hW _ _ _ h hv hz, ?_⟩
  intro l
  induction l generalizing d with
  | nil => intro d' rs h; cases h; exact ⟨rfl, by simp⟩
  | cons o l ih =>
    intro d' rs h
    unfold observe at h
    cases h1 : detectAndUpdate A convert W d (.fin o.mean) (.fin o.stddev) o.pose with
    | error e => simp only [h1, bind, Except.bind] at h; cases h
    | ok x =>
      obtain ⟨d1, r⟩ := x
      have hsame : d1 (c.asIndex W) = d (c.asIndex W) ∧ ∀ st, r ≠ some (c, st) := by
        cases hcv : convert o.pose with
        | none =>
          unfold detectAndUpdate at h1
          rw [hcv] at h1
          cases h1; exact ⟨rfl, by simp⟩
        | some i =>
          obtain ⟨hvi, -⟩ := hc _ _ hcv
          by_cases he : i.coord.asIndex W = c.asIndex W
          · rw [detect_settled A hW _ _ _ hcv hvi (by rw [he]; exact hz)] at h1
            cases h1; exact ⟨rfl, by simp⟩
          · have hlt : i.coord.asIndex W < LEN := asIndex_lt_que hW hvi
            unfold detectAndUpdate at h1
            rw [hcv] at h1
            simp only [arrGet, if_pos hlt, bind, Except.bind] at h1
            split at h1
            · cases h1; exact ⟨rfl, by simp⟩
            · split at h1
              · cases h1
              · simp only [arrSet, if_pos hlt, pure, Except.pure, Except.ok.injEq, Prod.mk.injEq] at h1
                rw [← h1.1, ← h1.2]
                simp only [if_neg (Ne.symm he), true_and]
                rintro st ⟨⟩
                exact he rfl
      cases h2 : observe A convert W l d1 with
      | error e => simp only [h1, h2, bind, Except.bind] at h; cases h
      | ok y =>
        simp only [h1, h2, bind, Except.bind, pure, Except.pure, Except.ok.injEq, Prod.mk.injEq] at h
        obtain ⟨i1, i2⟩ := ih d1 (by rw [hsame.1]; exact hz) y.1 y.2 h2
        rw [← h.1, ← h.2, ← hsame.1]
        refine ⟨i1, fun st hm => ?_⟩
        rcases List.mem_cons.1 hm with hm | hm
        · exact hsame.2 st hm.symm
        · exact i2 st hm

theorem report_true {p : ℝ} (h : 9 / 10 < p) : report exact (.fin p) = .checked true := by
  have e : reverse exact (TH exact) = .fin (9 / 10) := by
    show F.fin (1 + -(1 / 10)) = _
    congr 1; norm_num
  unfold report
  rw [e, if_neg (show ¬ (F.fin p).lt (TH exact) by simp only [TH, F.lt, exact]; linarith), if_pos (show (F.fin (9 / 10)).lt (.fin p) from h)]

theorem report_false {p : ℝ} (h : p < 1 / 10) : report exact (.fin p) = .checked false := by
  unfold report
  rw [if_pos (show (F.fin p).lt (TH exact) from h)]

theorem lt_of_odds {p k : ℝ} (hp : p < 1) (hk : 0 < k) : (k < odds p ↔ k / (k + 1) < p) ∧ (odds p < k ↔ p < k / (k + 1)) := by
  have h1 : 0 < 1 - p := by linarith
  have h2 : 0 < k + 1 := by linarith
  unfold odds
  rw [lt_div_iff₀ h1, div_lt_iff₀ h1, div_lt_iff₀ h2, lt_div_iff₀ h2]
  constructor <;> constructor <;> intro h <;> nlinarith

/-- The likelihood ratio takes every positive value. -/
theorem ratio_onto (a b s k : ℝ) (hab : a ≠ b) (hs : 0 < s) (hk : 0 < k) : ∃ m, likelihood a m s / likelihood b m s = k := by
  have hd : b - a ≠ 0 := sub_ne_zero.mpr (Ne.symm hab)
  refine ⟨(a + b) / 2 - s ^ 2 * Real.log k / (b - a), ?_⟩
  unfold likelihood
  rw [← Real.exp_sub]
  rw [show k = Real.exp (Real.log k) from (Real.exp_log hk).symm]
  congr 1
  rw [Real.log_exp]
  field_simp
  ring

/-- **C38, revision.** As long as a wall is not settled, whatever has been reported before, there is a next observation
(at any pose where it is seen) that makes the detector report the wall, and one that makes it report an opening. -/
theorem C38_revisable (W : Nat) (hW : Supported W) (convert : Pose → Option WallInfo) (d : Detector) (c : Coord)
    (hv : Valid W c) (pose : Pose) (a b : ℝ) (hc : convert pose = some ⟨c, .fin a, .fin b⟩) (hab : a ≠ b) (s : ℝ)
    (hs : 0 < s) (p : ℝ) (hd : d (c.asIndex W) = .fin p) (hp : EPSILON ≤ p ∧ p ≤ 1 - EPSILON) :
    (∃ m d', detectAndUpdate exact convert W d (.fin m) (.fin s) pose = .ok (d', some (c, .checked true))) ∧
    (∃ m d', detectAndUpdate exact convert W d (.fin m) (.fin s) pose = .ok (d', some (c, .checked false))) := by
  have hp' : Open p := hp
  have ho : 0 < odds p := div_pos hp'.pos (by have := hp'.lt_one; linarith)
  constructor
  · obtain ⟨m, hm⟩ := ratio_onto a b s (10 / odds p) hab hs (by positivity)
    have hb := bayes_mem hp'.pos hp'.lt_one (likelihood_pos a m s) (likelihood_pos b m s)
    rw [hm, mul_div_cancel₀ _ ho.ne'] at hb
    have h := detect_open (o := ⟨m, s, pose⟩) hW hc hv hs hd hp'
    have := (lt_of_odds hb.2.1 (show (0 : ℝ) < 9 by norm_num)).1.mp (by rw [hb.2.2]; norm_num)
    norm_num at this
    rw [report_true this] at h
    exact ⟨m, _, h⟩
  · obtain ⟨m, hm⟩ := ratio_onto a b s (1 / 10 / odds p) hab hs (by positivity)
    have hb := bayes_mem hp'.pos hp'.lt_one (likelihood_pos a m s) (likelihood_pos b m s)
    rw [hm, mul_div_cancel₀ _ ho.ne'] at hb
    have h := detect_open (o := ⟨m, s, pose⟩) hW hc hv hs hd hp'
    have := (lt_of_odds hb.2.1 (show (0 : ℝ) < 1 / 9 by norm_num)).2.mp (by rw [hb.2.2]; norm_num)
    norm_num at this
    rw [report_false (by simp only; linarith)] at h
    exact ⟨m, _, h⟩

example : ∃ p, Open p ∧ p < 1 / 10 := ⟨1 / 20, ⟨by unfold EPSILON; norm_num, by unfold EPSILON; norm_num⟩, by norm_num⟩

/-! ## C39 -/

theorem likelihood_self (a s : ℝ) : likelihood a a s = 1 := by simp [likelihood]

theorem likelihood_le (a m s : ℝ) : likelihood a m s ≤ 1 := by
  unfold likelihood
  rw [Real.exp_le_one_iff]
  have := sq_nonneg ((m - a) / s)
  linarith

theorem likelihood_lt {a m s : ℝ} (h : m ≠ a) (hs : 0 < s) : likelihood a m s < 1 := by
  unfold likelihood
  rw [Real.exp_lt_one_iff]
  have : (m - a) / s ≠ 0 := div_ne_zero (sub_ne_zero.mpr h) hs.ne'
  have := sq_pos_of_ne_zero this
  linarith

/-- **C39, monotone.** An observation that equals the distance expected for a wall never lowers the belief in it; one that
equals the distance expected without the wall never raises it. -/
theorem C39_monotone (W : Nat) (hW : Supported W) (convert : Pose → Option WallInfo) (d d' : Detector) (c : Coord)
    (hv : Valid W c) (pose : Pose) (a b s p : ℝ) (hc : convert pose = some ⟨c, .fin a, .fin b⟩) (hs : 0 < s)
    (hd : d (c.asIndex W) = .fin p) (h0 : 0 ≤ p) (h1 : p ≤ 1) (r : Option (Coord × WallState)) :
    (detectAndUpdate exact convert W d (.fin a) (.fin s) pose = .ok (d', r) → ∃ p', d' (c.asIndex W) = .fin p' ∧ p ≤ p') ∧
    (detectAndUpdate exact convert W d (.fin b) (.fin s) pose = .ok (d', r) → ∃ p', d' (c.asIndex W) = .fin p' ∧ p' ≤ p) := by
  by_cases hz : isZero (d (c.asIndex W)) ∨ isOne exact (d (c.asIndex W))
  · constructor <;> intro h <;> rw [detect_settled exact hW _ _ _ hc hv hz] at h <;> cases h <;> exact ⟨p, hd, le_rfl⟩
  · rw [hd] at hz
    have hp := (open_iff p h0 h1).mp hz
    have h1p : 0 < 1 - p := by have := hp.lt_one; linarith
    have hp0 := hp.pos
    constructor <;> intro h
    · rw [detect_open (o := ⟨a, s, pose⟩) hW hc hv hs hd hp] at h
      cases h
      simp only [if_true]
      refine ⟨_, rfl, ?_⟩
      rw [likelihood_self]
      have hl := likelihood_pos b a s
      have hl' := likelihood_le b a s
      unfold bayes
      rw [le_div_iff₀ (by positivity)]
      nlinarith [mul_nonneg hp0.le h1p.le, mul_nonneg (mul_nonneg hp0.le h1p.le) (sub_nonneg.mpr hl')]
    · rw [detect_open (o := ⟨b, s, pose⟩) hW hc hv hs hd hp] at h
      cases h
      simp only [if_true]
      refine ⟨_, rfl, ?_⟩
      rw [likelihood_self]
      have hl := likelihood_pos a b s
      have hl' := likelihood_le a b s
      unfold bayes
      rw [div_le_iff₀ (by positivity)]
      nlinarith [mul_nonneg hp0.le h1p.le, mul_nonneg (mul_nonneg hp0.le h1p.le) (sub_nonneg.mpr hl')]

theorem observe_cons {A : Arith} {convert : Pose → Option WallInfo} {W : Nat} {o : Obs} {l : List Obs} {d d1 d2 : Detector}
    {r : Option (Coord × WallState)} {rs : List (Option (Coord × WallState))}
    (h1 : detectAndUpdate A convert W d (.fin o.mean) (.fin o.stddev) o.pose = .ok (d1, r))
    (h2 : observe A convert W l d1 = .ok (d2, rs)) : observe A convert W (o :: l) d = .ok (d2, r :: rs) := by
  simp only [observe, h1, h2, bind, Except.bind, pure, Except.pure]

/-- Repeating an observation with likelihood ratio `K > 1`. -/
theorem settle_true {W : Nat} (hW : Supported W) {convert : Pose → Option WallInfo} {c : Coord} (hv : Valid W c) {o : Obs}
    {a b : ℝ} (hc : convert o.pose = some ⟨c, .fin a, .fin b⟩) (hs : 0 < o.stddev)
    (hK : 1 ≤ likelihood a o.mean o.stddev / likelihood b o.mean o.stddev) :
    ∀ (n : Nat) (d : Detector) (p : ℝ), d (c.asIndex W) = .fin p → Open p →
      9 < odds p * (likelihood a o.mean o.stddev / likelihood b o.mean o.stddev) ^ (n + 1) →
      ∃ m d' rs, observe exact convert W (List.replicate (m + 1) o) d = .ok (d', rs) ∧
        rs.getLast? = some (some (c, .checked true)) ∧ ∀ r ∈ rs, r.isSome := by
  intro n
  induction n with
  | zero =>
    intro d p hd hp h
    have hb := bayes_mem hp.pos hp.lt_one (likelihood_pos a o.mean o.stddev) (likelihood_pos b o.mean o.stddev)
    have h1 := detect_open hW hc hv hs hd hp
    rw [pow_one, ← hb.2.2] at h
    have := (lt_of_odds hb.2.1 (show (0 : ℝ) < 9 by norm_num)).1.mp h
    norm_num at this
    rw [report_true this] at h1
    exact ⟨0, _, _, observe_cons h1 rfl, rfl, by simp⟩
  | succ n ih =>
    intro d p hd hp h
    have hb := bayes_mem hp.pos hp.lt_one (likelihood_pos a o.mean o.stddev) (likelihood_pos b o.mean o.stddev)
    have h1 := detect_open hW hc hv hs hd hp
    by_cases h9 : 9 < odds (bayes p (likelihood a o.mean o.stddev) (likelihood b o.mean o.stddev))
    · have := (lt_of_odds hb.2.1 (show (0 : ℝ) < 9 by norm_num)).1.mp h9
      norm_num at this
      rw [report_true this] at h1
      exact ⟨0, _, _, observe_cons h1 rfl, rfl, by simp⟩
    · have hle : bayes p (likelihood a o.mean o.stddev) (likelihood b o.mean o.stddev) ≤ 9 / 10 := by
        by_contra hlt
        push Not at hlt
        apply h9
        apply (lt_of_odds hb.2.1 (show (0 : ℝ) < 9 by norm_num)).1.mpr
        norm_num
        exact hlt
      have hge : p ≤ bayes p (likelihood a o.mean o.stddev) (likelihood b o.mean o.stddev) := by
        have hln := likelihood_pos b o.mean o.stddev
        have hll := likelihood_pos a o.mean o.stddev
        rw [le_div_iff₀ hln, one_mul] at hK
        have h1p : 0 < 1 - p := by have := hp.lt_one; linarith
        have hp0 := hp.pos
        unfold bayes
        rw [le_div_iff₀ (by positivity)]
        nlinarith [mul_nonneg (mul_nonneg hp0.le h1p.le) (sub_nonneg.mpr hK)]
      obtain ⟨m, d', rs, e1, e2, e3⟩ := ih (fun j => if j = c.asIndex W then
          .fin (bayes p (likelihood a o.mean o.stddev) (likelihood b o.mean o.stddev)) else d j)
        (bayes p (likelihood a o.mean o.stddev) (likelihood b o.mean o.stddev))
        (if_pos rfl) ⟨hp.1.trans hge, by have := eps_small; linarith⟩ (by
          rw [hb.2.2, mul_assoc, ← pow_succ']
          exact h)
      refine ⟨m + 1, d', _ :: rs, observe_cons h1 e1, ?_, ?_⟩
      · cases rs with
        | nil => cases e2
        | cons x xs => rw [List.getLast?_cons_cons]; exact e2
      · intro r hr
        rcases List.mem_cons.mp hr with rfl | hr
        · rfl
        · exact e3 r hr

/-- Repeating an observation with likelihood ratio `K < 1`. -/
theorem settle_false {W : Nat} (hW : Supported W) {convert : Pose → Option WallInfo} {c : Coord} (hv : Valid W c) {o : Obs}
    {a b : ℝ} (hc : convert o.pose = some ⟨c, .fin a, .fin b⟩) (hs : 0 < o.stddev)
    (hK : likelihood a o.mean o.stddev / likelihood b o.mean o.stddev ≤ 1) :
    ∀ (n : Nat) (d : Detector) (p : ℝ), d (c.asIndex W) = .fin p → Open p →
      odds p * (likelihood a o.mean o.stddev / likelihood b o.mean o.stddev) ^ (n + 1) < 1 / 9 →
      ∃ m d' rs, observe exact convert W (List.replicate (m + 1) o) d = .ok (d', rs) ∧
        rs.getLast? = some (some (c, .checked false)) ∧ ∀ r ∈ rs, r.isSome := by
  intro n
  induction n with
  | zero =>
    intro d p hd hp h
    have hb := bayes_mem hp.pos hp.lt_one (likelihood_pos a o.mean o.stddev) (likelihood_pos b o.mean o.stddev)
    have h1 := detect_open hW hc hv hs hd hp
    rw [pow_one, ← hb.2.2] at h
    have := (lt_of_odds hb.2.1 (show (0 : ℝ) < 1 / 9 by norm_num)).2.mp h
    norm_num at this
    rw [report_false (by linarith)] at h1
    exact ⟨0, _, _, observe_cons h1 rfl, rfl, by simp⟩
  | succ n ih =>
    intro d p hd hp h
    have hb := bayes_mem hp.pos hp.lt_one (likelihood_pos a o.mean o.stddev) (likelihood_pos b o.mean o.stddev)
    have h1 := detect_open hW hc hv hs hd hp
    by_cases h9 : odds (bayes p (likelihood a o.mean o.stddev) (likelihood b o.mean o.stddev)) < 1 / 9
    · have := (lt_of_odds hb.2.1 (show (0 : ℝ) < 1 / 9 by norm_num)).2.mp h9
      norm_num at this
      rw [report_false (by linarith)] at h1
      exact ⟨0, _, _, observe_cons h1 rfl, rfl, by simp⟩
    · have hle : 1 / 10 ≤ bayes p (likelihood a o.mean o.stddev) (likelihood b o.mean o.stddev) := by
        by_contra hlt
        push Not at hlt
        apply h9
        apply (lt_of_odds hb.2.1 (show (0 : ℝ) < 1 / 9 by norm_num)).2.mpr
        norm_num
        exact hlt
      have hge : bayes p (likelihood a o.mean o.stddev) (likelihood b o.mean o.stddev) ≤ p := by
        have hln := likelihood_pos b o.mean o.stddev
        have hll := likelihood_pos a o.mean o.stddev
        rw [div_le_iff₀ hln, one_mul] at hK
        have h1p : 0 < 1 - p := by have := hp.lt_one; linarith
        have hp0 := hp.pos
        unfold bayes
        rw [div_le_iff₀ (by positivity)]
        nlinarith [mul_nonneg (mul_nonneg hp0.le h1p.le) (sub_nonneg.mpr hK)]
      obtain ⟨m, d', rs, e1, e2, e3⟩ := ih (fun j => if j = c.asIndex W then
          .fin (bayes p (likelihood a o.mean o.stddev) (likelihood b o.mean o.stddev)) else d j)
        (bayes p (likelihood a o.mean o.stddev) (likelihood b o.mean o.stddev))
        (if_pos rfl) ⟨by have := eps_small; linarith, hge.trans hp.2⟩ (by
          rw [hb.2.2, mul_assoc, ← pow_succ']
          exact h)
      refine ⟨m + 1, d', _ :: rs, observe_cons h1 e1, ?_, ?_⟩
      · cases rs with
        | nil => cases e2
        | cons x xs => rw [List.getLast?_cons_cons]; exact e2
      · intro r hr
        rcases List.mem_cons.mp hr with rfl | hr
        · rfl
        · exact e3 r hr

/-- **C39.** Whatever unsettled belief a wall starts from: repeating a perfect measurement finally makes the detector
report the true state, each call until then returning a report for this wall. -/
theorem C39_settles (W : Nat) (hW : Supported W) (convert : Pose → Option WallInfo) (d : Detector) (c : Coord)
    (hv : Valid W c) (pose : Pose) (a b s p : ℝ) (hc : convert pose = some ⟨c, .fin a, .fin b⟩) (hab : a ≠ b) (hs : 0 < s)
    (hd : d (c.asIndex W) = .fin p) (hp : EPSILON ≤ p ∧ p ≤ 1 - EPSILON) (truth : Bool) :
    ∃ n d' rs, observe exact convert W (List.replicate (n + 1) ⟨if truth then a else b, s, pose⟩) d = .ok (d', rs) ∧
      rs.getLast? = some (some (c, .checked truth)) ∧ ∀ r ∈ rs, r.isSome := by
  have hp' : Open p := hp
  have ho : 0 < odds p := div_pos hp'.pos (by have := hp'.lt_one; linarith)
  cases truth with
  | true =>
    simp only [if_true]
    have hl := likelihood_pos b a s
    have hl' : likelihood b a s < 1 := likelihood_lt hab hs
    have hK : 1 < likelihood a a s / likelihood b a s := by
      rw [likelihood_self, lt_div_iff₀ hl]; linarith
    obtain ⟨n, hn⟩ := pow_unbounded_of_one_lt (9 / odds p) hK
    have : 9 / odds p < (likelihood a a s / likelihood b a s) ^ (n + 1) :=
      hn.trans (pow_lt_pow_right₀ hK (Nat.lt_succ_self n))
    rw [div_lt_iff₀ ho] at this
    obtain ⟨m, d', rs, h⟩ := settle_true (o := ⟨a, s, pose⟩) hW hv hc hs hK.le n d p hd hp' (by
      rw [mul_comm]; exact this)
    exact ⟨m, d', rs, h⟩
  | false =>
    simp only [Bool.false_eq_true, if_false]
    have hl := likelihood_pos a b s
    have hl' : likelihood a b s < 1 := likelihood_lt (Ne.symm hab) hs
    have hK : likelihood a b s / likelihood b b s < 1 := by
      rw [likelihood_self, div_one]; exact hl'
    have hK0 : 0 < likelihood a b s / likelihood b b s := div_pos hl (likelihood_pos _ _ _)
    obtain ⟨n, hn⟩ := exists_pow_lt_of_lt_one (show 0 < 1 / 9 / odds p by positivity) hK
    have : (likelihood a b s / likelihood b b s) ^ (n + 1) < 1 / 9 / odds p :=
      lt_of_le_of_lt (pow_le_pow_of_le_one hK0.le hK.le (Nat.le_succ n)) hn
    rw [lt_div_iff₀ ho] at this
    obtain ⟨m, d', rs, h⟩ := settle_false (o := ⟨b, s, pose⟩) hW hv hc hs hK.le n d p hd hp' (by
      rw [mul_comm]; exact this)
    exact ⟨m, d', rs, h⟩

example : demoConvert ⟨1, 0, 0⟩ = some ⟨⟨0, 1⟩, .fin (4 / 100), .fin (13 / 100)⟩ ∧ Valid 32 ⟨0, 1⟩ ∧
    EPSILON ≤ 1 / 2 ∧ (1 / 2 : ℝ) ≤ 1 - EPSILON := by
  refine ⟨by simp [demoConvert], by decide, ?_, ?_⟩ <;> unfold EPSILON <;> norm_num

end Verif.Props
