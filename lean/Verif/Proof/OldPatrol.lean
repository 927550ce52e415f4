import Verif.Proof.OldDetect
/-!
# Searches with the former detector
-/
namespace Verif.Proof.OldE
open Verif Verif.Spec Verif.Proof Verif.Proof.OldM Verif.Old Verif.Old.Manager Verif.Old.Detect Verif.Old.Search
open Verif.Detect (Pose)

variable {W : Nat} {real : Wall → Bool} {see : Pose → Option Seen} {conv : FPose → R (Except ConvError Info)}

/-! ## Bayes' rule -/

theorem odds_updated {p : ℝ} (h0 : 0 < p) (h1 : p < 1) (e : Seen) {z s : ℝ} (hs : 0 < s) :
    odds (updated p e z s) = odds p * Real.exp (((z - e.far) ^ 2 - (z - e.near) ^ 2) / (2 * s ^ 2)) := by
  have hq : 0 < 1 - p := by linarith
  have hn := lik_pos e.near z s
  have hf := lik_pos e.far z s
  have hd : 0 < p * likelihood e.near z s + (1 - p) * likelihood e.far z s := by positivity
  have h2 : 1 - updated p e z s = (1 - p) * likelihood e.far z s / (p * likelihood e.near z s + (1 - p) * likelihood e.far z s) := by
    unfold updated
    field_simp
    ring
  have h3 : likelihood e.near z s = likelihood e.far z s * Real.exp (((z - e.far) ^ 2 - (z - e.near) ^ 2) / (2 * s ^ 2)) := by
    unfold likelihood
    rw [← Real.exp_add]
    congr 1
    field_simp
    ring
  unfold odds
  rw [h2]
  unfold updated
  rw [div_div_div_cancel_right₀ hd.ne', h3]
  field_simp

theorem odds_mono {p q : ℝ} (hp : p < 1) (hq : q < 1) : odds p ≤ odds q ↔ p ≤ q := by
  unfold odds
  rw [div_le_div_iff₀ (by linarith) (by linarith)]
  constructor <;> intro h <;> linarith

theorem updated_ge {p : ℝ} (h0 : 0 < p) (h1 : p < 1) (e : Seen) {z s : ℝ} (hs : 0 < s) :
    p ≤ updated p e z s ↔ |z - e.near| ≤ |z - e.far| := by
  have ho : 0 < odds p := div_pos h0 (by linarith)
  rw [← odds_mono h1 (updated_mem h0 h1 e z s).2, odds_updated h0 h1 e hs, ← sq_le_sq]
  rw [le_mul_iff_one_le_right ho, Real.one_le_exp_iff, le_div_iff₀ (by positivity), zero_mul, sub_nonneg]

theorem updated_le {p : ℝ} (h0 : 0 < p) (h1 : p < 1) (e : Seen) {z s : ℝ} (hs : 0 < s) :
    updated p e z s ≤ p ↔ |z - e.far| ≤ |z - e.near| := by
  have ho : 0 < odds p := div_pos h0 (by linarith)
  rw [← odds_mono (updated_mem h0 h1 e z s).2 h1, odds_updated h0 h1 e hs, ← sq_le_sq]
  rw [mul_le_iff_le_one_right ho, Real.exp_le_one_iff, div_le_iff₀ (by positivity), zero_mul, sub_nonpos]

/-! ## Truthful measurements -/

/-- The probabilities are on the right side of 1/2. -/
def Sided (W : Nat) (real : Wall → Bool) (g : Guess) : Prop :=
  ∀ w, InMaze W w → if real w then 1 / 2 ≤ g.prob w ∧ g.prob w ≤ 1 else 0 ≤ g.prob w ∧ g.prob w ≤ 1 / 2

theorem Sided.chances {g : Guess} (h : Sided W real g) : Chances W g := by
  intro w hw
  have := h w hw
  split at this
  · exact ⟨by linarith [this.1], this.2⟩
  · exact ⟨this.1, by linarith [this.2]⟩

theorem target_pos {here : Pose} {i : Nat} {l : Look} {g : Guess} (hl : l.Fair W) {e : Seen} {z s : ℝ}
    (ht : g.target see here i l = some (e, z, s)) : 0 < s := by
  unfold Guess.target at ht
  split at ht
  · rename_i z' s' e' hr _
    split at ht
    · cases ht
    · cases ht
      exact hl.positive _ _ hr
  · cases ht

theorem after_prob (here : Pose) (i : Nat) (l : Look) (g : Guess) : (g.after see here i l).prob = g.prob ∨
    ∃ e z s, g.target see here i l = some (e, z, s) ∧ ¬ Nil (g.prob e.wall) ∧ ¬ Sure (g.prob e.wall) ∧
      (g.after see here i l).prob = fun w => if w = e.wall then updated (g.prob w) e z s else g.prob w := by
  unfold Guess.after
  dsimp only
  cases ht : g.target see here i l with
  | none => exact Or.inl rfl
  | some r =>
    obtain ⟨e, z, s⟩ := r
    dsimp only
    split_ifs with h1 h2 h3
    · exact Or.inl rfl
    · exact Or.inl rfl
    · exact Or.inl rfl
    · exact Or.inr ⟨e, z, s, rfl, h1, h2, rfl⟩

theorem after_sided {here : Pose} {i : Nat} {l : Look} {g : Guess} (hl : l.Fair W) (h : Sided W real g) (ht : Truthful real see here i l g) :
    Sided W real (g.after see here i l) := by
  intro w hw
  have hw' := h w hw
  rcases after_prob (see := see) here i l g with he | ⟨e, z, s, htar, h1, h2, he⟩
  · rw [he]; exact hw'
  · rw [he]
    dsimp only
    by_cases hwe : w = e.wall
    · simp only [if_pos hwe]
      subst hwe
      have := ht e z s htar
      have hm := updated_mem (not_nil h1) (not_sure h2) e z s
      have hpos := target_pos hl htar
      cases hr : real e.wall
      · rw [hr, if_neg (by simp)] at hw' this
        rw [if_neg (by simp)]
        exact ⟨hm.1.le, le_trans ((updated_le (not_nil h1) (not_sure h2) e hpos).mpr this) hw'.2⟩
      · rw [hr, if_pos rfl] at hw' this
        rw [if_pos rfl]
        exact ⟨le_trans hw'.1 ((updated_ge (not_nil h1) (not_sure h2) e hpos).mpr this), hm.2.le⟩
    · simp only [if_neg hwe]
      exact hw'

/-- What is written into the memory is a true value. -/
theorem written_true (hW : Supported W) {t : F} (hg : GoodThreshold exact t) {m : Manager} (hm : m.threshold = t) {w : Wall} (hw : InMaze W w)
    {p v : ℝ} (hp : val W m w = .fin p) (hv : if real w then 1 / 2 ≤ p ∧ p ≤ v else v ≤ p ∧ p ≤ 1 / 2) :
    TrueValue exact t (real w) ((belief exact W (held W []) m).checked w) (.fin v) := by
  obtain ⟨r, q, rfl, hr0, hr1, hq, hq0, hq1⟩ := opposite rounding_exact hg
  unfold TrueValue
  rw [checked_iff hW, hp, hm, hq]
  show (v < r → _) ∧ (q < v → _) ∧ (_ ∧ (p < r ∨ q < p) → v < r ∨ q < v)
  split at hv
  · rename_i hreal
    refine ⟨fun h => absurd h (by linarith [hv.1, hv.2]), fun _ => hreal, ?_⟩
    rintro ⟨-, h | h⟩
    · linarith [hv.1]
    · exact Or.inr (by linarith [hv.2])
  · rename_i hreal
    refine ⟨fun _ => by simpa using hreal, fun h => absurd h (by linarith [hv.1, hv.2]), ?_⟩
    rintro ⟨-, h | h⟩
    · exact Or.inl (by linarith [hv.1])
    · linarith [hv.2]

/-- What survives every update of a memory with a true value. -/
def Kept (W : Nat) (t : F) (real : Wall → Bool) (Q : Manager → Prop) : Prop := ∀ (m m' : Manager) (ws : List Wall) (w : Wall) (p : F), Q m → InMaze W w → m.threshold = t →
  TrueValue exact t (real w) ((belief exact W (held W []) m).checked w) p → tryUpdate W (held W ws) m w p = .ok (some m') → Q m'

theorem step_kept (hW : Supported W) {t : F} (hg : GoodThreshold exact t) (hs : Sees W conv see) {Q : Manager → Prop} (hQ : Kept W t real Q) {here : Pose} {i : Nat}
    (hi : i < SENSORS) {l : Look} (hl : l.Fair W) {a : Acc} {g : Guess} (h : Holds W t a g) (hv : 0 ≤ g.var) (hsd : Sided W real g)
    (ht : Truthful real see here i l g) (hses : Q a.memory) :
    ∃ a', step exact conv W (lift here) i (l.input W) a = .ok a' ∧ Holds W t a' (g.after see here i l) ∧ Q a'.memory := by
  obtain ⟨a', h1, h2, h3⟩ := step_eq hW hs hi hl h hsd.chances hv
  refine ⟨a', h1, h2, ?_⟩
  rcases h3 with h3 | ⟨e, z, s, htar, hin, hn, hsu, hu⟩
  · rw [h3]; exact hses
  · refine hQ _ _ _ _ _ hses hin h.threshold (written_true hW hg h.threshold hin (h.memory _ hin) ?_) hu
    have h4 := hsd _ hin
    have h5 := ht e z s htar
    have hpos := target_pos hl htar
    split at h4
    · rename_i hr
      rw [if_pos hr] at h5 ⊢
      exact ⟨h4.1, (updated_ge (not_nil hn) (not_sure hsu) e hpos).mpr h5⟩
    · rename_i hr
      rw [if_neg hr] at h5 ⊢
      exact ⟨(updated_le (not_nil hn) (not_sure hsu) e hpos).mpr h5, h4.2⟩

theorem loop_kept (hW : Supported W) {t : F} (hg : GoodThreshold exact t) (hs : Sees W conv see) {Q : Manager → Prop} (hQ : Kept W t real Q) {here : Pose} :
    ∀ (ls : List Look) (i : Nat) (a : Acc) (g : Guess), i + ls.length ≤ SENSORS → (∀ l ∈ ls, l.Fair W) →
    Holds W t a g → 0 ≤ g.var → Sided W real g → AllTruthful real see here i ls g → Q a.memory →
    ∃ a', loop exact conv W (lift here) i (ls.map (Look.input W)) a = .ok a' ∧ Sided W real (g.afterAll see here i ls) ∧ Q a'.memory
  | [], _, a, _, _, _, _, _, hsd, _, hses => ⟨a, rfl, hsd, hses⟩
  | l :: ls, i, a, g, hi, hl, h, hv, hsd, ht, hses => by
    have hf := hl l (List.mem_cons_self ..)
    rw [List.length_cons] at hi
    obtain ⟨a1, h1, h2, h3⟩ := step_kept hW hg hs hQ (here := here) (i := i) (by omega) hf h hv hsd ht.1 hses
    obtain ⟨a2, h4, h5, h6⟩ := loop_kept hW hg hs hQ ls (i + 1) a1 _ (by omega) (fun l' hl' => hl l' (List.mem_cons_of_mem _ hl')) h2
      (after_var hf hv) (after_sided hf hsd ht.1) ht.2 h3
    refine ⟨a2, ?_, h5, h6⟩
    show (step exact conv W (lift here) i (l.input W) a >>= fun a => loop exact conv W (lift here) (i + 1) _ a) = _
    rw [h1]
    exact h4

theorem remembers_prob (hW : Supported W) {d : Detector} {g g' : Guess} (h : Remembers W d g) (h' : Remembers W d g') {w : Wall} (hw : InMaze W w) :
    g.prob w = g'.prob w := by
  have h1 := h.memory w hw
  rw [h'.memory w hw] at h1
  simp only [Except.ok.injEq, Option.some.injEq, F.fin.injEq] at h1
  exact h1.symm

/-- A call of the detector with truthful measurements. -/
theorem detect_kept (hW : Supported W) {t : F} (hg : GoodThreshold exact t) (hs : Sees W conv see) {Q : Manager → Prop} (hQ : Kept W t real Q) {d d' : Detector} {p : Pose} {sx sy : ℝ}
    {ls : List Look} {s' : State} {g : Guess} (hn : ls.length ≤ 6) (hl : ∀ l ∈ ls, l.Fair W) (hd : Remembers W d g) (hsd : Sided W real g)
    (htr : AllTruthful real see p 0 ls (g.begin sx sy)) (hcall : detectAndUpdate exact conv W d (ls.map (Look.input W)) (stateAt p sx sy) = .ok (d', s'))
    (ht : d.memory.threshold = t) (hq : Q d.memory) :
    Q d'.memory ∧ d'.memory.threshold = t ∧ (∃ g, Remembers W d' g) ∧ ∀ g, Remembers W d' g → Sided W real g := by
  obtain ⟨d2, e1, e2, e3⟩ := call_eq hW hs hd hsd.chances hn hl p sx sy
  have hd' := e1
  rw [hcall] at hd'
  simp only [Except.ok.injEq, Prod.mk.injEq] at hd'
  obtain ⟨rfl, -⟩ := hd'
  have hav : exact.div (exact.add (.fin sx) (.fin sy)) (.fin 2) = .fin ((sx + sy) / 2) := by
    simp only [exact, Arith.add, Arith.div, if_neg (two_ne_zero (α := ℝ))]
  have h0 : Holds W t ⟨d.past, d.memory, .fin 0, .fin 0, exact.mul (.fin ((sx + sy) / 2)) (.fin ((sx + sy) / 2))⟩ (g.begin sx sy) :=
    ⟨(recalls_iff hW).mp hd.memory, ht, hd.past, rfl, rfl, by
      show F.fin ((sx + sy) / 2 * ((sx + sy) / 2)) = .fin (((sx + sy) / 2) ^ 2)
      rw [pow_two]⟩
  obtain ⟨a', l1, l2, l3⟩ := loop_kept hW hg hs hQ ls 0 _ _ (by simpa [SENSORS] using hn) hl h0 (sq_nonneg _) (fun w hw => hsd w hw) htr hq
  have hmem : a'.memory = d'.memory := by
    unfold detectAndUpdate at hcall
    dsimp only [stateAt] at hcall
    rw [hav, show (⟨.fin p.x, .fin p.y, p.theta⟩ : FPose) = lift p from rfl, l1] at hcall
    simp only [bind, Except.bind, pure, Except.pure, Except.ok.injEq, Prod.mk.injEq] at hcall
    rw [← hcall.1]
  rw [hmem] at l3
  exact ⟨l3, e3.trans ht, ⟨_, e2⟩, fun g' hg' w hw => by
    have := l2 w hw
    rw [remembers_prob hW e2 hg' hw] at this
    exact this⟩

/-- At the beginning the probabilities are on the right side. -/
theorem new_sided (hW : Supported W) (hr : Regular W real) {t : F} {m : Manager} (hm : new W t = .ok m) {g : Guess}
    (h : Recalls W m fun w => .fin (g.prob w)) : Sided W real g := by
  obtain ⟨m', h1, h3, h4⟩ := new_eq hW t
  rw [hm] at h1
  cases h1
  intro w hw
  have hv := (recalls_iff hW).mp h w hw
  rw [h4 w hw] at hv
  unfold atFirst at hv
  split_ifs at hv with h5 h6
  · rw [F.fin.injEq] at hv
    rw [← hv, h5, hr.ahead]
    norm_num
  · rw [F.fin.injEq] at hv
    have : real w = true := by
      obtain ⟨x, y, b⟩ := w
      rcases h6 with h6 | ⟨h6, h7⟩ | ⟨h6, h7⟩
      · rw [h6]; exact hr.right
      · simp only at h6 h7
        rw [h6, h7]
        exact (hr.closed x hw.1).1
      · simp only at h6 h7
        rw [h6, h7]
        exact (hr.closed y hw.2).2
    rw [← hv, this]
    norm_num
  · rw [F.fin.injEq] at hv
    rw [← hv]
    split <;> norm_num

theorem new_remembers (hW : Supported W) {t : F} {m : Manager} (hm : new W t = .ok m) : ∃ g, Remembers W (Detector.new m) g := by
  obtain ⟨m', h1, h3, h4⟩ := new_eq hW t
  rw [hm] at h1
  cases h1
  refine ⟨⟨fun _ => none, fun w => if w = ⟨0, 0, true⟩ then 0
    else if w = ⟨0, 0, false⟩ ∨ (w.top = true ∧ w.y = W - 1) ∨ (w.top = false ∧ w.x = W - 1) then 1 else 1 / 2, 0, 0, 0⟩,
    ⟨(recalls_iff hW).mpr fun w hw => ?_, fun i _ => rfl⟩⟩
  rw [show (Detector.new m).memory = m from rfl, h4 w hw]
  unfold atFirst
  dsimp only
  split_ifs <;> rfl

theorem patrol_inv {P : Config} (hW : Supported P.W) {t : F} (hg : GoodThreshold exact t) (hr : Regular P.W real) (hs : Sees P.W conv see)
    {d : Detector} {c : Commander} {rs : List Reply} (h : Patrol P t real conv see d c rs) :
    Session P exact t real d.memory c rs ∧ d.memory.threshold = t ∧ (∃ g, Remembers P.W d g) ∧ ∀ g, Remembers P.W d g → Sided P.W real g := by
  induction h with
  | start m hm =>
    refine ⟨.start m hm, ?_, new_remembers hW hm, fun g hd => new_sided hW hr hm hd.memory⟩
    obtain ⟨m', h1, h3, h4⟩ := new_eq hW t
    rw [hm] at h1
    cases h1
    exact h3
  | detect d d' c rs p sx sy ls s' g _ hn hl hd htr hcall ih =>
    obtain ⟨i1, i2, -, i4⟩ := ih
    exact detect_kept hW hg hs (Q := fun m => Session P exact t real m c rs) (fun m m' ws w p h1 h2 _ h3 h4 => .sense _ _ _ _ _ _ _ h1 h2 h3 h4) hn hl hd (i4 g hd) htr hcall i2 i1
  | call d c c' r rs ws _ hc ih =>
    obtain ⟨i1, i2, i3, i4⟩ := ih
    exact ⟨.call _ _ _ _ _ ws i1 hc, i2, i3, i4⟩

/-! ## Waiting sensors -/

theorem step_past {A : Arith} {cur : FPose} {i : Nat} {inp : Input} {a a' : Acc} (h : step A conv W cur i inp a = .ok a') (j : Nat) :
    a'.past j = if j = i then (if inp.reading.isSome then none else some ((a.past i).getD cur)) else a.past j := by
  unfold step arrGet arrSet at h
  by_cases hi : i < SENSORS
  · rw [if_pos hi, if_pos hi, if_pos hi] at h
    cases hr : inp.reading with
    | none =>
      rw [hr] at h
      simp only [bind, Except.bind] at h
      show _ = if j = i then (some ((a.past i).getD cur)) else _
      cases hp : a.past i with
      | none =>
        rw [hp] at h
        cases h
        rfl
      | some q =>
        rw [hp] at h
        cases h
        by_cases e : j = i
        · rw [if_pos e, e, hp]; rfl
        · rw [if_neg e]
    | some zs =>
      obtain ⟨z, s⟩ := zs
      rw [hr] at h
      simp only [bind, Except.bind] at h
      rw [Option.isSome_some, if_pos rfl]
      split at h
      · cases h
      · split at h
        · cases h
        · split at h
          · cases h; rfl
          · split at h
            · cases h
            · split at h
              · cases h; rfl
              · split at h
                · cases h; rfl
                · split at h
                  · cases h; rfl
                  · split at h
                    · cases h
                    · split at h
                      · cases h
                      · split at h
                        · cases h; rfl
                        · cases h; rfl
  · rw [if_neg hi] at h
    cases h

theorem loop_past {A : Arith} {cur : FPose} : ∀ (inps : List Input) (i : Nat) (a a' : Acc), loop A conv W cur i inps a = .ok a' →
    ∀ j, a'.past j = if i ≤ j then
      (match inps[j - i]? with
      | some inp => if inp.reading.isSome then none else some ((a.past j).getD cur)
      | none => a.past j) else a.past j
  | [], i, a, a', h, j => by
    cases h
    simp
  | inp :: rest, i, a, a', h, j => by
    unfold Detect.loop at h
    cases h1 : step A conv W cur i inp a with
    | error e => rw [h1] at h; cases h
    | ok a1 =>
      rw [h1] at h
      rw [loop_past rest (i + 1) a1 a' h j, step_past h1 j]
      by_cases hj : j = i
      · subst hj
        rw [if_neg (by omega), if_pos rfl, if_pos (le_refl _), Nat.sub_self]
        rfl
      · rw [if_neg hj]
        by_cases hle : i ≤ j
        · obtain ⟨k, rfl⟩ : ∃ k, j = i + 1 + k := ⟨j - (i + 1), by omega⟩
          rw [if_pos (by omega), if_pos hle, show i + 1 + k - (i + 1) = k by omega, show i + 1 + k - i = k + 1 by omega]
          rfl
        · rw [if_neg (by omega), if_neg hle]

end Verif.Proof.OldE
