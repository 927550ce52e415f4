import Verif.Spec.SingleLook
import Verif.Proof.SingleLook
import Verif.Props.Detect
import Verif.Props.SingleGap
import Verif.Props.SingleSensors
/-!
# C130: one look settles a wall, in single precision
-/
namespace Verif.Props
open Verif Verif.Spec Verif.Convert Verif.Single Verif.Binary32 Verif.Search Verif.Detect Verif.Proof

variable {exp : F → F}

open Classical in
/-- The belief after a distance that fits a wall. -/
theorem posterior_up (hg : GoodExp exp) (he : Steep exp) {p r r' x : ℝ} (hp : 1 / 10 ≤ p) (hp1 : p ≤ 1) (hr : r' < r)
    (hx : rnd (r - r') = .fin x) (h6 : 6 ≤ x) :
    ∃ p', posterior (arith exp) (.fin p) (.fin r) (.fin r') = .ok (.fin p') ∧ 96 / 100 ≤ p' ∧ p' ≤ 1 := by
  obtain ⟨v, ev, v0, bv⟩ := rnd_rel0 (z := 1 - p) (by linarith) (by norm_num; linarith)
  have bv' := abs_le.1 bv
  norm_num at bv'
  obtain ⟨n, en, n0, bn⟩ := rnd_rel0 (z := 1 * v) (by linarith) (by norm_num; linarith)
  have bn' := abs_le.1 bn
  norm_num at bn'
  have e1 : (arith exp).sub (.fin r) (.fin r') = .fin x := by
    show rnd (r + -r') = _
    rw [← sub_eq_add_neg]; exact hx
  have e2 : (arith exp).sub (.fin r') (.fin r') = .fin 0 := by
    show rnd (r' + -r') = _
    rw [add_neg_cancel]; exact (C74_laws exp hg).zero
  have e3 : reverse (arith exp) (.fin p) = .fin v := by
    show rnd (1 + -p) = _
    rw [← sub_eq_add_neg]; exact ev
  have e4 : (arith exp).mul ((arith exp).exp (.fin 0)) (.fin v) = .fin n := by
    show (arith exp).mul (exp (.fin 0)) (.fin v) = _
    rw [hg.zero]; exact en
  unfold posterior
  rw [if_neg (show ¬ (F.fin r).isNan from fun h => h), if_neg (show ¬ (F.fin r').isNan from fun h => h)]
  dsimp only
  rw [if_neg (show ¬ (F.fin r).lt (.fin r') from not_lt.2 hr.le), e1, e2, e3, e4]
  have one : ∃ p', (Except.ok (F.fin 1) : R F) = .ok (.fin p') ∧ 96 / 100 ≤ p' ∧ p' ≤ 1 := ⟨1, rfl, by norm_num, le_rfl⟩
  show ∃ p', (if ((arith exp).mul (exp (.fin x)) (.fin p)).isInfinite then _ else if (F.fin n).isInfinite then _ else
    unwrap (probability ((arith exp).div ((arith exp).mul (exp (.fin x)) (.fin p))
      ((arith exp).add ((arith exp).mul (exp (.fin x)) (.fin p)) (.fin n))))) = _ ∧ _
  rcases he x h6 with hi | ⟨y, hy, ey⟩
  · have : (arith exp).mul (exp (.fin x)) (.fin p) = .pinf := by
      rw [hi]
      show F.infOf p = _
      unfold F.infOf
      rw [if_pos (by linarith)]
    rw [this, if_pos (show F.pinf.isInfinite from trivial)]
    exact one
  · have em : (arith exp).mul (exp (.fin x)) (.fin p) = rnd (y * p) := by rw [ey]; rfl
    rw [em]
    have hyp : 30 ≤ y * p := by
      have := mul_le_mul hy hp (by norm_num) (by linarith)
      linarith
    have h30 : round24 (30 : ℝ) = 30 := by
      have := nat_fix (m := 30) (by norm_num)
      exact_mod_cast this
    have hge : 30 ≤ round24 (y * p) := by
      have := round24_mono hyp
      rwa [h30] at this
    by_cases hlt : round24 (y * p) < 2 ^ 128
    · have ee : rnd (y * p) = .fin (round24 (y * p)) := rnd_of_lt (by rw [abs_of_nonneg (by linarith)]; exact hlt)
      rw [ee, if_neg (show ¬ (F.fin (round24 (y * p))).isInfinite from fun h => h), if_neg (show ¬ (F.fin n).isInfinite from fun h => h)]
      obtain ⟨e, hE⟩ : ∃ e, e = round24 (y * p) := ⟨_, rfl⟩
      rw [← hE] at hge hlt ⊢
      obtain ⟨σ, eσ, σ1, σ2⟩ := add_small (e := e) (n := n) (by rw [hE]; exact round24_idem _) hlt (by linarith) n0 (by linarith)
      have e5 : (arith exp).add (.fin e) (.fin n) = .fin σ := eσ
      have hσ : 0 < σ := by linarith
      rw [e5, div_rnd hσ.ne']
      have q1 : e / σ ≤ 1 := (div_le_one hσ).2 σ1
      have q2 : 965 / 1000 ≤ e / σ := by
        rw [le_div_iff₀ hσ]
        norm_num at σ2
        linarith
      obtain ⟨p', ep, bp⟩ := rnd_rel (z := e / σ) (by rw [abs_of_nonneg (by linarith)]; norm_num; linarith)
      rw [abs_of_nonneg (show 0 ≤ e / σ by linarith)] at bp
      have bp' := abs_le.1 bp
      norm_num at bp'
      have p1 : p' ≤ 1 := rnd_le_fix (by have := nat_fix (m := 1) (by norm_num); exact_mod_cast this) q1 ep
      rw [ep]
      unfold probability
      rw [if_neg]
      · exact ⟨p', rfl, by linarith, p1⟩
      · rintro (h | h | h)
        · exact h
        · exact absurd (show p' < 0 from h) (by linarith)
        · exact absurd (show 1 < p' from h) (by linarith)
    · have ee : rnd (y * p) = .pinf := by
        unfold rnd
        rw [if_pos (not_lt.1 hlt)]
      rw [ee, if_pos (show F.pinf.isInfinite from trivial)]
      exact one

open Classical in
/-- The belief after a distance that fits a gap. -/
theorem posterior_down (hg : GoodExp exp) (he : Steep exp) {p r r' x : ℝ} (hp : 0 ≤ p) (hp1 : p ≤ 9 / 10) (hr : r < r')
    (hx : rnd (r' - r) = .fin x) (h6 : 6 ≤ x) :
    ∃ p', posterior (arith exp) (.fin p) (.fin r) (.fin r') = .ok (.fin p') ∧ 0 ≤ p' ∧ p' ≤ 4 / 100 := by
  obtain ⟨v, ev, v0, bv⟩ := rnd_rel0 (z := 1 - p) (by linarith) (by norm_num; linarith)
  have bv' := abs_le.1 bv
  norm_num at bv'
  obtain ⟨e, ee, e0, be⟩ := rnd_rel0 (z := 1 * p) (by linarith) (by norm_num; linarith)
  have be' := abs_le.1 be
  norm_num at be'
  have e1 : (arith exp).sub (.fin r') (.fin r) = .fin x := by
    show rnd (r' + -r) = _
    rw [← sub_eq_add_neg]; exact hx
  have e2 : (arith exp).sub (.fin r) (.fin r) = .fin 0 := by
    show rnd (r + -r) = _
    rw [add_neg_cancel]; exact (C74_laws exp hg).zero
  have e3 : reverse (arith exp) (.fin p) = .fin v := by
    show rnd (1 + -p) = _
    rw [← sub_eq_add_neg]; exact ev
  have e4 : (arith exp).mul ((arith exp).exp (.fin 0)) (.fin p) = .fin e := by
    show (arith exp).mul (exp (.fin 0)) (.fin p) = _
    rw [hg.zero]; exact ee
  unfold posterior
  rw [if_neg (show ¬ (F.fin r).isNan from fun h => h), if_neg (show ¬ (F.fin r').isNan from fun h => h)]
  dsimp only
  rw [if_pos (show (F.fin r).lt (.fin r') from hr), e1, e2, e3, e4, if_neg (show ¬ (F.fin e).isInfinite from fun h => h)]
  have zero : ∃ p', (Except.ok (F.fin 0) : R F) = .ok (.fin p') ∧ 0 ≤ p' ∧ p' ≤ 4 / 100 := ⟨0, rfl, le_rfl, by norm_num⟩
  show ∃ p', (if ((arith exp).mul (exp (.fin x)) (.fin v)).isInfinite then _ else
    unwrap (probability ((arith exp).div (.fin e) ((arith exp).add (.fin e) ((arith exp).mul (exp (.fin x)) (.fin v)))))) = _ ∧ _
  rcases he x h6 with hi | ⟨y, hy, ey⟩
  · have : (arith exp).mul (exp (.fin x)) (.fin v) = .pinf := by
      rw [hi]
      show F.infOf v = _
      unfold F.infOf
      rw [if_pos (by linarith)]
    rw [this, if_pos (show F.pinf.isInfinite from trivial)]
    exact zero
  · have em : (arith exp).mul (exp (.fin x)) (.fin v) = rnd (y * v) := by rw [ey]; rfl
    rw [em]
    have hyv : 29 ≤ y * v := by
      have := mul_le_mul hy (show 29 / 300 ≤ v by linarith) (by norm_num) (by linarith)
      linarith
    have h29 : round24 (29 : ℝ) = 29 := by
      have := nat_fix (m := 29) (by norm_num)
      exact_mod_cast this
    have hge : 29 ≤ round24 (y * v) := by
      have := round24_mono hyv
      rwa [h29] at this
    by_cases hlt : round24 (y * v) < 2 ^ 128
    · have en : rnd (y * v) = .fin (round24 (y * v)) := rnd_of_lt (by rw [abs_of_nonneg (by linarith)]; exact hlt)
      rw [en, if_neg (show ¬ (F.fin (round24 (y * v))).isInfinite from fun h => h)]
      obtain ⟨n, hN⟩ : ∃ n, n = round24 (y * v) := ⟨_, rfl⟩
      rw [← hN] at hge hlt ⊢
      obtain ⟨σ, eσ, σ1, -⟩ := add_small (e := n) (n := e) (by rw [hN]; exact round24_idem _) hlt hge e0 (by linarith)
      have e5 : (arith exp).add (.fin e) (.fin n) = .fin σ := by
        show rnd (e + n) = _
        rw [add_comm]; exact eσ
      have hσ : 0 < σ := by linarith
      rw [e5, div_rnd hσ.ne']
      have q0 : 0 ≤ e / σ := div_nonneg e0 hσ.le
      have q1 : e / σ ≤ 35 / 1000 := by
        rw [div_le_iff₀ hσ]
        linarith
      obtain ⟨p', ep, p0, bp⟩ := rnd_rel0 (z := e / σ) q0 (by norm_num; linarith)
      have bp' := abs_le.1 bp
      norm_num at bp'
      rw [ep]
      unfold probability
      rw [if_neg]
      · exact ⟨p', rfl, p0, by linarith⟩
      · rintro (h | h | h)
        · exact h
        · exact absurd (show p' < 0 from h) (by linarith)
        · exact absurd (show 1 < p' from h) (by linarith)
    · have en : rnd (y * v) = .pinf := by
        unfold rnd
        rw [if_pos (not_lt.1 hlt)]
      rw [en, if_pos (show F.pinf.isInfinite from trivial)]
      exact zero

/-- The reports for beliefs near 0 and 1. -/
theorem report_right {truth : Bool} {p : ℝ} (h : SettledRight truth p) : report (arith exp) (.fin p) = .checked truth := by
  obtain ⟨t, et, bt⟩ := rnd_rel (z := 1 / 10) (by norm_num)
  have bt' := abs_le.1 bt
  norm_num at bt'
  obtain ⟨u, eu, bu⟩ := rnd_within (z := 1 + -t) (c := 1) (by rw [abs_le]; constructor <;> linarith) (by norm_num)
  have bu' := abs_le.1 bu
  norm_num at bu'
  have e1 : TH (arith exp) = .fin t := et
  have e2 : reverse (arith exp) (.fin t) = .fin u := eu
  unfold report
  rw [e1, e2]
  cases truth with
  | true =>
    obtain ⟨h1, h2⟩ : 96 / 100 ≤ p ∧ p ≤ 1 := by simpa [SettledRight] using h
    rw [if_neg (show ¬ (F.fin p).lt (.fin t) from not_lt.2 (by linarith)), if_pos (show (F.fin u).lt (.fin p) from (by linarith : u < p))]
  | false =>
    obtain ⟨h1, h2⟩ : 0 ≤ p ∧ p ≤ 4 / 100 := by simpa [SettledRight] using h
    rw [if_pos (show (F.fin p).lt (.fin t) from (by linarith : p < t))]

/-- **C130.** One observation in single precision: a distance that is right up to 7 mm, with a deviation of at most 2.01 mm, settles
the wall that the converter returns, whatever was believed before unless that was settled for the wrong state; the report is right. If
the belief is 0 or 1 already (within machine epsilon), there is no report and it is kept. -/
theorem C130_look (hg : GoodExp exp) (he : Steep exp) {L : Lib} {ε : ℝ} (hε : ε ≤ 1 / 1000) {W : Nat} (hW : Supported W)
    {sort : List (Dir × F) → List (Dir × F)} (hs : Sorts sort) (truth : Coord → Bool) (o : Obs) (ho : FairLook L ε o) (info : WallInfo)
    (h : lookAt (arith exp) L W sort o.pose = some info) (hh : TrueReading truth info o.mean) (d : Detector) (p : ℝ)
    (hd : d (info.coord.asIndex W) = .fin p) (hp : NotWrong (truth info.coord) p) :
    ∃ p', SettledRight (truth info.coord) p' ∧
      (detectAndUpdate (arith exp) (lookAt (arith exp) L W sort) W d (.fin o.mean) (.fin o.stddev) o.pose =
        .ok (Function.update d (info.coord.asIndex W) (.fin p'), some (info.coord, .checked (truth info.coord))) ∨
      p' = p ∧ detectAndUpdate (arith exp) (lookAt (arith exp) L W sort) W d (.fin o.mean) (.fin o.stddev) o.pose = .ok (d, none)) := by
  obtain ⟨hx, hy, hθ, ht, s0, s1⟩ := ho
  obtain ⟨hv, a, b, ea, eb, a0, hab, hb⟩ := C130_gap (exp := exp) hx hy hθ ht hε hW hs info h
  have hlt : info.coord.asIndex W < LEN := Grid.asIndex_lt_que hW hv
  by_cases hz : isZero (d (info.coord.asIndex W)) ∨ isOne (arith exp) (d (info.coord.asIndex W))
  · refine ⟨p, ?_, .inr ⟨rfl, detect_settled _ hW _ _ _ h hv hz⟩⟩
    rw [hd] at hz
    have hE : EPSILON < 1 / 1000 := by unfold EPSILON; norm_num
    rcases hz with hz | hz
    · have hz : |p| < EPSILON := hz
      have := abs_lt.1 hz
      cases ht' : truth info.coord <;> rw [ht'] at hp <;> simp [NotWrong, SettledRight] at hp ⊢
      · constructor <;> linarith [hp.1]
      · exfalso; linarith [hp.1]
    · unfold isOne at hz
      have hp01 : 0 ≤ p ∧ p ≤ 1 := by
        cases ht' : truth info.coord <;> rw [ht'] at hp <;> simp [NotWrong] at hp <;> constructor <;> linarith [hp.1, hp.2]
      obtain ⟨q, eq, bq⟩ := rnd_within (z := p + -1) (c := 1) (by rw [abs_le]; constructor <;> linarith [hp01.1, hp01.2]) (by norm_num)
      have e : (arith exp).sub (.fin p) (.fin 1) = .fin q := eq
      rw [e] at hz
      have hz : |q| < EPSILON := hz
      have := abs_lt.1 hz
      have bq' := abs_le.1 bq
      norm_num at bq'
      cases ht' : truth info.coord <;> rw [ht'] at hp <;> simp [NotWrong, SettledRight] at hp ⊢
      · exfalso; linarith [hp.2]
      · constructor <;> linarith [hp.1, hp.2]
  · have key : ∃ p', posterior (arith exp) (.fin p) (score (arith exp) info.existing (.fin o.mean) (.fin o.stddev))
        (score (arith exp) info.notExisting (.fin o.mean) (.fin o.stddev)) = .ok (.fin p') ∧ SettledRight (truth info.coord) p' := by
      obtain ⟨v, ev, hm⟩ := hh
      have hm' := abs_le.1 hm
      rw [ea, eb] at ev ⊢
      cases ht' : truth info.coord with
      | true =>
        rw [ht'] at ev hp
        simp only [if_true, F.fin.injEq] at ev
        subst ev
        obtain ⟨g1, g2⟩ : 1 / 10 ≤ p ∧ p ≤ 1 := by simpa [NotWrong] using hp
        obtain ⟨r, r', x, e1, e2, hr, ex, h6⟩ := score_gap (exp := exp) (u := a) (v := b) (m := o.mean) s0 s1 (by rw [abs_sub_comm]; exact hm)
          (by rw [abs_of_nonneg (by linarith)]; linarith) (by rw [abs_of_nonneg (by linarith)]; linarith)
        rw [e1, e2]
        obtain ⟨p', e, k1, k2⟩ := posterior_up hg he g1 g2 hr ex h6
        exact ⟨p', e, by simpa [SettledRight] using ⟨k1, k2⟩⟩
      | false =>
        rw [ht'] at ev hp
        simp only [Bool.false_eq_true, if_false, F.fin.injEq] at ev
        subst ev
        obtain ⟨g1, g2⟩ : 0 ≤ p ∧ p ≤ 9 / 10 := by simpa [NotWrong] using hp
        obtain ⟨r, r', x, e1, e2, hr, ex, h6⟩ := score_gap (exp := exp) (u := b) (v := a) (m := o.mean) s0 s1 (by rw [abs_sub_comm]; exact hm)
          (by rw [abs_of_nonpos (by linarith)]; linarith) (by rw [abs_of_nonpos (by linarith)]; linarith)
        rw [e1, e2]
        obtain ⟨p', e, k1, k2⟩ := posterior_down hg he g1 g2 hr ex h6
        exact ⟨p', e, by simpa [SettledRight] using ⟨k1, k2⟩⟩
    obtain ⟨p', ep, hr⟩ := key
    refine ⟨p', hr, .inl ?_⟩
    unfold detectAndUpdate
    rw [h]
    simp only [arrGet, arrSet, if_pos hlt, bind, Except.bind, pure, Except.pure]
    rw [if_neg hz, hd, ep]
    dsimp only
    rw [report_right hr]
    congr 2
    funext k
    unfold Function.update
    split_ifs <;> simp_all

theorem right_notWrong {t : Bool} {p : ℝ} (h : SettledRight t p) : NotWrong t p := by
  cases t <;> simp [SettledRight, NotWrong] at h ⊢ <;> constructor <;> linarith [h.1, h.2]

/-- **C130**, histories: with readings that are right up to 7 mm, in any order and number, from anywhere in any maze, no call panics,
every report is conclusive and true, no belief is ever settled against the truth, and every wall that was seen is settled for it. -/
theorem C130_history (hg : GoodExp exp) (he : Steep exp) {L : Lib} {ε : ℝ} (hε : ε ≤ 1 / 1000) {W : Nat} (hW : Supported W)
    {sort : List (Dir × F) → List (Dir × F)} (hs : Sorts sort) (truth : Coord → Bool) (l : List Obs)
    (hl : ∀ o ∈ l, FairLook L ε o ∧ ∀ info, lookAt (arith exp) L W sort o.pose = some info → TrueReading truth info o.mean) (d : Detector)
    (hd : NoError W truth d) :
    ∃ d' rs, observe (arith exp) (lookAt (arith exp) L W sort) W l d = .ok (d', rs) ∧ rs.length = l.length ∧ NoError W truth d' ∧
      (∀ c st, some (c, st) ∈ rs → Valid W c ∧ st = .checked (truth c)) ∧
      (∀ c, Valid W c → ((∃ p, d (c.asIndex W) = .fin p ∧ SettledRight (truth c) p) ∨
        ∃ o ∈ l, ∃ info, lookAt (arith exp) L W sort o.pose = some info ∧ info.coord = c) →
        ∃ p, d' (c.asIndex W) = .fin p ∧ SettledRight (truth c) p) := by
  induction l generalizing d with
  | nil =>
    refine ⟨d, [], rfl, rfl, hd, by simp, fun c _ h => ?_⟩
    rcases h with h | ⟨o, ho, -⟩
    · exact h
    · cases ho
  | cons o l ih =>
    obtain ⟨ho, hon⟩ := hl o (by simp)
    have step : ∃ d1 r, detectAndUpdate (arith exp) (lookAt (arith exp) L W sort) W d (.fin o.mean) (.fin o.stddev) o.pose = .ok (d1, r) ∧
        NoError W truth d1 ∧ (∀ c st, r = some (c, st) → Valid W c ∧ st = .checked (truth c)) ∧
        (∀ c, Valid W c → ((∃ p, d (c.asIndex W) = .fin p ∧ SettledRight (truth c) p) ∨
          ∃ info, lookAt (arith exp) L W sort o.pose = some info ∧ info.coord = c) →
          ∃ p, d1 (c.asIndex W) = .fin p ∧ SettledRight (truth c) p) := by
      cases h : lookAt (arith exp) L W sort o.pose with
      | none =>
        refine ⟨d, none, ?_, hd, by simp, fun c _ g => ?_⟩
        · unfold detectAndUpdate
          rw [h]; rfl
        · rcases g with g | ⟨info, g, -⟩
          · exact g
          · cases g
      | some info =>
        have hv : Valid W info.coord :=
          (C129_total (arith exp) L (Finder.default (arith exp)) hW (sort := sort) (.fin o.pose.x) (.fin o.pose.y) (.fin o.pose.theta)).2 info h
        obtain ⟨p, ep, hp⟩ := hd _ hv
        obtain ⟨p', hr, g | ⟨rfl, g⟩⟩ := C130_look hg he hε hW hs truth o ho info h (hon info h) d p ep hp
        · have at' : ∀ c, Valid W c → (c = info.coord ∧ Function.update d (info.coord.asIndex W) (.fin p') (c.asIndex W) = .fin p') ∨
              (c ≠ info.coord ∧ Function.update d (info.coord.asIndex W) (.fin p') (c.asIndex W) = d (c.asIndex W)) := by
            intro c hc
            by_cases hcc : c = info.coord
            · left; rw [hcc]; exact ⟨rfl, Function.update_self ..⟩
            · right; exact ⟨hcc, Function.update_of_ne (fun hx => hcc (Grid.asIndex_inj hW hc hv hx)) _ _⟩
          refine ⟨_, _, g, ?_, ?_, ?_⟩
          · intro c hc
            rcases at' c hc with ⟨rfl, e⟩ | ⟨-, e⟩
            · exact ⟨p', e, right_notWrong hr⟩
            · rw [e]; exact hd c hc
          · intro c st hst
            cases hst
            exact ⟨hv, rfl⟩
          · intro c hc hor
            rcases at' c hc with ⟨rfl, e⟩ | ⟨hne, e⟩
            · exact ⟨p', e, hr⟩
            · rw [e]
              rcases hor with k | ⟨info', k, k'⟩
              · exact k
              · cases k; exact absurd k'.symm hne
        · refine ⟨d, none, g, hd, by simp, ?_⟩
          intro c hc hor
          rcases hor with k | ⟨info', k, k'⟩
          · exact k
          · cases k; subst k'; exact ⟨p', ep, hr⟩
    obtain ⟨d1, r, e1, s1, r1, k1⟩ := step
    obtain ⟨d2, rs, e2, e3, s2, r2, k2⟩ := ih (fun x hx => hl x (by simp [hx])) d1 s1
    refine ⟨d2, r :: rs, ?_, by simp [e3], s2, ?_, ?_⟩
    · simp only [observe, e1, bind, Except.bind, e2, pure, Except.pure]
    · intro c st hm
      rcases List.mem_cons.1 hm with g | g
      · exact r1 c st g.symm
      · exact r2 c st g
    · intro c hc hor
      rcases hor with k | ⟨o', ho', info, k, k'⟩
      · exact k2 c hc (.inl (k1 c hc (.inl k)))
      · rcases List.mem_cons.1 ho' with rfl | g
        · exact k2 c hc (.inl (k1 c hc (.inr ⟨info, k, k'⟩)))
        · exact k2 c hc (.inr ⟨o', g, info, k, k'⟩)

end Verif.Props
