import Verif.Proof.Lasting
import Verif.Spec.SingleRun
/-!
# Which speed a trajectory from rest reaches at least, in single precision
-/
namespace Verif.Proof
open Verif Verif.Single Verif.Spec Verif.Binary32

variable {exp : F → F} {L : Lib} {v a j : ℝ} {g : Gen}

/-- A bisection that goes up below `η` ends hardly below `η`. -/
theorem bisect_close {up : F → Prop} {η ε : ℝ} (n : ℕ) : ∀ {l h w : ℝ}, round24 l = l → round24 h = h → 0 ≤ l → l ≤ h → h ≤ 2 ^ 90 →
    h / 2 ^ 22 + 1 / 2 ^ 140 ≤ ε → (∀ m, round24 m = m → 0 ≤ m → m ≤ η → up (.fin m)) → η ≤ h → h - l ≤ w →
    ∃ r, (bisect (arith exp) up n (.fin l) (.fin h)).1 = .fin r ∧ η - (w / 2 ^ n + 2 * ε * (1 - 1 / 2 ^ n)) ≤ r := by
  induction n with
  | zero =>
    intro l h w hl hh l0 lh hb hε hup h1 h2
    refine ⟨l, rfl, ?_⟩
    simp only [pow_zero, div_one, sub_self, mul_zero, add_zero]
    linarith
  | succ n ih =>
    intro l h w hl hh l0 lh hb hε hup h1 h2
    obtain ⟨m, em, hm, m1, m2, -⟩ := mid_ok (exp := exp) hl hh l0 lh hb
    have close : |m - (l + h) / 2| ≤ ε := by
      have big : (2:ℝ) * 2 ^ 90 ≤ 2 ^ 100 := by norm_num
      obtain ⟨s, es, bs⟩ := rnd_err (z := l + h) (by rw [abs_of_nonneg (by linarith)]; linarith)
      have s1 : 2 * l ≤ s := le_rnd_fix (fix_double hl) (by linarith) es
      have s2 : s ≤ 2 * h := rnd_le_fix (fix_double hh) (by linarith) es
      obtain ⟨m', em', bm⟩ := rnd_err (z := s / 2) (by rw [abs_of_nonneg (by linarith)]; linarith)
      have e : m = m' := by
        have : (arith exp).div (rnd (l + h)) (.fin 2) = .fin m := em
        rw [es, div_rnd (by norm_num), em'] at this
        injection this with this
        exact this.symm
      subst e
      rw [abs_of_nonneg (show 0 ≤ l + h by linarith)] at bs
      rw [abs_of_nonneg (show 0 ≤ s / 2 by linarith)] at bm
      have a1 := abs_le.1 bs
      have a2 := abs_le.1 bm
      have n150 : (1:ℝ) / 2 ^ 150 * 4 ≤ 1 / 2 ^ 140 := by norm_num
      have n24 : (2:ℝ) ^ 24 = 16777216 := by norm_num
      have n22 : (2:ℝ) ^ 22 = 4194304 := by norm_num
      rw [n24] at a1 a2
      rw [n22] at hε
      rw [abs_le]
      constructor <;> linarith
    obtain ⟨c1, c2⟩ := abs_le.1 close
    have final : η - ((w / 2 + ε) / 2 ^ n + 2 * ε * (1 - 1 / 2 ^ n)) = η - (w / 2 ^ (n + 1) + 2 * ε * (1 - 1 / 2 ^ (n + 1))) := by
      rw [pow_succ]
      field_simp
      ring
    unfold bisect
    dsimp only
    rw [em]
    split_ifs with hu
    · obtain ⟨r, e, hr⟩ := ih (w := w / 2 + ε) hm hh (l0.trans m1) m2 hb hε hup h1 (by linarith)
      exact ⟨r, e, final ▸ hr⟩
    · have hm2 : η ≤ m := by
        by_contra hc
        exact hu (hup m hm (l0.trans m1) (le_of_not_ge hc))
      have : h / 2 ^ 22 ≥ m / 2 ^ 22 := div_le_div_of_nonneg_right m2 (by positivity)
      obtain ⟨r, e, hr⟩ := ih (w := w / 2 + ε) hl hm l0 m1 (m2.trans hb) (by linarith) hup hm2 (by linarith)
      exact ⟨r, e, final ▸ hr⟩

/-- The length that an acceleration from rest is expected to take. -/
theorem rise_dist (hL : Rooted L) (G : Fit v a j g) {D η m : ℝ} (R : Rises a j D η) (hη : 1 / 2 ^ 10 ≤ η) (hm : round24 m = m) (m0 : 0 ≤ m) (m1 : m ≤ η) (hv : η ≤ v) :
    (g.accDist (arith exp) L (.fin 0) (.fin m)).lt (.fin D) := by
  obtain ⟨v1, v2⟩ := G.vel
  obtain ⟨a1, a2⟩ := G.acc
  obtain ⟨j1, j2⟩ := G.jerk
  obtain ⟨tc, vd, e1, e2, tc0, tc1, tc2, -⟩ := tc_ok (exp := exp) G
  norm_num at v1 v2 a2 j2 hη
  have ha : 0 < a := by linarith
  have hj : 0 < j := by linarith
  have η0 : 0 < η := by linarith
  have fin : ∀ {z : ℝ}, round24 z = z → |z| ≤ 2 ^ 100 → rnd z = .fin z := by
    intro z hz hb
    obtain ⟨x, e, -⟩ := rnd_err hb
    rw [e, (rnd_fin e).1, hz]
  have mb : |m| ≤ 2 ^ 100 := by
    rw [abs_of_nonneg m0]
    have : (256:ℝ) ≤ 2 ^ 100 := by norm_num
    linarith
  have e3 : ((arith exp).sub (.fin m) (.fin 0)).abs = .fin m := by
    show (rnd (m + -0)).abs = _
    rw [neg_zero, add_zero, fin hm mb]
    show F.fin |m| = _
    rw [abs_of_nonneg m0]
  have e4 : (arith exp).add (.fin 0) (.fin m) = .fin m := by
    show rnd (0 + m) = _
    rw [zero_add, fin hm mb]
  have n140 : (1:ℝ) / 2 ^ 140 ≤ 1 / 10 ^ 30 := by norm_num
  have n20 : (2:ℝ) ^ 20 = 1048576 := by norm_num
  have n24 : (2:ℝ) ^ 24 = 16777216 := by norm_num
  have n23 : (2:ℝ) ^ 23 = 8388608 := by norm_num
  have b100 : (1000000:ℝ) ≤ 2 ^ 100 := by norm_num
  -- the time
  have ht : ∃ t, (open Classical in if (F.fin vd).le (.fin m) then (arith exp).add ((arith exp).div (.fin m) (.fin a)) (.fin tc)
      else (arith exp).mul (.fin 2) (L.sqrt ((arith exp).div (.fin m) (.fin j)))) = .fin t ∧ 0 ≤ t ∧ t ≤ 5 ∧ 0.51 * (η * t) < D := by
    split_ifs with h
    · have h' : vd ≤ m := h
      obtain ⟨tc3, tc4⟩ := abs_le.1 tc1
      have q0 : 0 ≤ a / j := by positivity
      have hma : m / a ≤ η / a := div_le_div_of_nonneg_right m1 ha.le
      have hηa : η / a ≤ 2 := by rw [div_le_iff₀ ha]; linarith
      have hηa' : 1 / 16777216 ≤ η / a := by rw [le_div_iff₀ ha]; linarith
      have hs : a * a ≤ 1.01 * (j * η) := by
        have k1 : a * tc ≤ η * (1 + 1 / 2 ^ 23) := tc2.trans (mul_le_mul_of_nonneg_right (h'.trans m1) (by positivity))
        have k2 : a / j * (1 - 1 / 2 ^ 24) ≤ tc := by linarith
        have k3 : a * (a / j * (1 - 1 / 2 ^ 24)) ≤ a * tc := mul_le_mul_of_nonneg_left k2 ha.le
        have k4 : a * (a / j) ≤ 1.01 * η := by
          have : a * (a / j * (1 - 1 / 2 ^ 24)) = a * (a / j) * (1 - 1 / 2 ^ 24) := by ring
          rw [n24] at this k3
          rw [n23] at k1
          have hp : 0 ≤ a * (a / j) := by positivity
          linarith
        have k5 : a * (a / j) * j = a * a := by field_simp
        have k6 := mul_le_mul_of_nonneg_right k4 hj.le
        linarith
      have hD := R.full hs
      have hq : a / j ≤ 2.5 := by
        rw [div_le_iff₀ hj]
        have : a * a ≤ a * (2.5 * j) := by
          have : j * η ≤ j * (2 * a) := mul_le_mul_of_nonneg_left (by linarith) hj.le
          have hp : 0 ≤ a * j := by positivity
          linarith
        exact le_of_mul_le_mul_left this ha
      obtain ⟨q, eq, q0', bq⟩ := rnd_rel0 (z := m / a) (by positivity) (by linarith)
      have bq' := (abs_le.1 bq).2
      have htc : tc ≤ 1.000001 * (a / j) := by rw [n24] at tc4; linarith
      obtain ⟨t, et, t0, bt⟩ := rnd_rel0 (z := q + tc) (by linarith) (by norm_num at bq'; linarith)
      have bt' := (abs_le.1 bt).2
      have η40 : (1:ℝ) / 10 ^ 40 ≤ 1 / 10 ^ 20 := by norm_num
      have t2 : t ≤ 1.00001 * (η / a + a / j) := by
        norm_num at bq' bt' η40 ⊢
        linarith
      refine ⟨t, ?_, t0, by linarith, ?_⟩
      · rw [div_rnd ha.ne', eq]; exact et
      · have hp : 0 < η * (η / a + a / j) := by positivity
        have := mul_le_mul_of_nonneg_left t2 η0.le
        rw [show η * (1.00001 * (η / a + a / j)) = 1.00001 * (η * (η / a + a / j)) by ring] at this
        linarith
    · have hmj : m / j ≤ η / j := div_le_div_of_nonneg_right m1 hj.le
      have hηj : 1 / 2 ^ 28 ≤ η / j := by rw [le_div_iff₀ hj]; norm_num; linarith
      have hηj' : η / j ≤ 1 / 2 := by rw [div_le_iff₀ hj]; linarith
      obtain ⟨q, eq, q0', bq⟩ := rnd_rel0 (z := m / j) (by positivity) (by linarith)
      have bq' := (abs_le.1 bq).2
      obtain ⟨r, er, r0, r1⟩ := hL q q0'
      have hq : q ≤ 1.00001 * (η / j) := by
        have : (1:ℝ) / 10 ^ 40 ≤ 1 / 10 ^ 30 := by norm_num
        norm_num at this bq' hηj ⊢
        linarith
      have hsq : √q ≤ 1.00001 * √(η / j) := by
        rw [show (1.00001:ℝ) * √(η / j) = √(1.00001 ^ 2 * (η / j)) by rw [Real.sqrt_mul (by norm_num), Real.sqrt_sq (by norm_num)]]
        refine Real.sqrt_le_sqrt (hq.trans (mul_le_mul_of_nonneg_right (by norm_num) (by positivity)))
      have hlow : 1 / 2 ^ 14 ≤ √(η / j) := by
        rw [show (1:ℝ) / 2 ^ 14 = √(1 / 2 ^ 28) by rw [show (1:ℝ) / 2 ^ 28 = (1 / 2 ^ 14) ^ 2 by norm_num, Real.sqrt_sq (by norm_num)]]
        exact Real.sqrt_le_sqrt hηj
      have hhigh : √(η / j) ≤ 1 := Real.sqrt_le_one.2 (by linarith)
      have hr : r ≤ 1.2001 * √(η / j) := by
        norm_num at r1 hlow ⊢
        linarith
      obtain ⟨t, et, t0, bt⟩ := rnd_rel0 (z := 2 * r) (by linarith) (by linarith)
      have bt' := (abs_le.1 bt).2
      have t2 : t ≤ 2.401 * √(η / j) := by
        have : (1:ℝ) / 10 ^ 40 ≤ 1 / 10 ^ 20 := by norm_num
        norm_num at this bt' hlow ⊢
        linarith
      refine ⟨t, ?_, t0, by linarith, ?_⟩
      · rw [div_rnd hj.ne', eq, er]; exact et
      · have hp : 0 < η * √(η / j) := mul_pos η0 (lt_of_lt_of_le (by positivity) hlow)
        have := mul_le_mul_of_nonneg_left t2 η0.le
        have hD := R.gentle
        rw [show η * (2.401 * √(η / j)) = 2.401 * (η * √(η / j)) by ring] at this
        linarith
  obtain ⟨t, et, t0, t1, t2⟩ := ht
  have mt : m * t ≤ η * t := mul_le_mul_of_nonneg_right m1 t0
  have ηt : η * t ≤ 1280 := by
    have := mul_le_mul (hv.trans v2) t1 t0 (by norm_num)
    linarith
  obtain ⟨p, ep, p0, bp⟩ := rnd_rel0 (z := m * t) (mul_nonneg m0 t0) (by linarith)
  have bp' := (abs_le.1 bp).2
  have η40 : (1:ℝ) / 10 ^ 40 ≤ 1 / 10 ^ 6 := by norm_num
  obtain ⟨x, ex, x0, bx⟩ := rnd_rel0 (z := p / 2) (by linarith) (by norm_num at bp' η40; linarith)
  have bx' := (abs_le.1 bx).2
  have e : g.accDist (arith exp) L (.fin 0) (.fin m) = .fin x := by
    unfold Gen.accDist
    dsimp only
    rw [e1, e2, e3, e4, G.aMax, G.jMax, et]
    show (arith exp).div (rnd (m * t)) _ = _
    rw [ep, div_rnd (by norm_num), ex]
  rw [e]
  show x < D
  -- lengths are not tiny
  have hD : 1 / 10 ^ 10 ≤ D := by
    have hlow : 1 / 2 ^ 14 ≤ √(η / j) := by
      rw [show (1:ℝ) / 2 ^ 14 = √(1 / 2 ^ 28) by rw [show (1:ℝ) / 2 ^ 28 = (1 / 2 ^ 14) ^ 2 by norm_num, Real.sqrt_sq (by norm_num)]]
      refine Real.sqrt_le_sqrt ?_
      rw [le_div_iff₀ hj]; norm_num; linarith
    have := mul_le_mul hη hlow (by positivity) η0.le
    have := R.gentle
    norm_num at this ⊢
    linarith
  have n40 : (1:ℝ) / 10 ^ 40 ≤ 1 / 10 ^ 10 / 10 ^ 10 := by norm_num
  norm_num at n40 bx' bp' hD
  have : 0 ≤ η * t := mul_nonneg η0.le t0
  linarith

/-- From rest, the speed at the end is the requested one, or a speed that the length suffices for. -/
theorem rise_end (hL : Rooted L) (G : Fit v a j g) {D η y : ℝ} (R : Rises a j D η) (hη : 1 / 2 ^ 10 ≤ η) (hv : η ≤ v) (hy : Pace v y) (y0 : 0 < y) (short : v / 2 ^ 14 ≤ D) :
    ∃ u, (g.generate (arith exp) L (.fin 0) (.fin D) (.fin 0) (.fin y)).2.2 = .fin u ∧ min y (η - v / 2 ^ 20) ≤ u := by
  have hb := fit_small G
  obtain ⟨v1, v2⟩ := G.vel
  norm_num at v1 v2
  have h0 : Pace v 0 := ⟨round24_zero, le_rfl, by linarith⟩
  have D0 : 0 ≤ D := le_trans (by positivity) short
  obtain ⟨r, er, hr⟩ : ∃ r, g.reachable (arith exp) L (.fin 0) (.fin y) (.fin D) = .fin r ∧ η - v / 2 ^ 20 ≤ r := by
    unfold Gen.reachable
    rw [if_pos (show (F.fin 0).lt (.fin y) from y0), G.vMax]
    obtain ⟨r, e, hr⟩ := bisect_close (exp := exp) (up := fun mid => (g.accDist (arith exp) L (.fin 0) mid).lt (.fin D)) (η := η) (ε := 0.26 * v / 2 ^ 20)
      25 (w := v) round24_zero G.f32 le_rfl (by linarith) hb (by norm_num; linarith) (fun m hm m0 m1 => rise_dist hL G R hη hm m0 m1 hv) hv (by linarith)
    refine ⟨r, e, le_trans ?_ hr⟩
    norm_num
    linarith
  obtain ⟨w, ew, hw, w1⟩ : ∃ w, g.aim (arith exp) L (.fin 0) (.fin y) (.fin D) = .fin w ∧ Pace v w ∧ min y (η - v / 2 ^ 20) ≤ w := by
    obtain ⟨w, ew, hw, -⟩ := aim_ok (exp := exp) (L := L) G h0 hy (.fin D)
    refine ⟨w, ew, hw, ?_⟩
    unfold Gen.aim at ew
    dsimp only at ew
    rw [er, if_pos (show (F.fin 0).lt (.fin y) from y0)] at ew
    split_ifs at ew with h
    · injection ew with ew
      subst ew
      exact min_le_of_right_le hr
    · injection ew with ew
      subst ew
      exact min_le_left _ _
  obtain ⟨q, eq, hq, -, wq, -⟩ := peak_ok (exp := exp) hL G h0 hw short
  refine ⟨w, ?_, w1⟩
  unfold Gen.generate
  dsimp only
  rw [if_neg (show ¬ (F.fin D).lt (.fin 0) from not_lt.2 D0)]
  dsimp only
  rw [ew, eq]
  split_ifs with h
  · rfl
  · rw [le_antisymm (not_lt.1 h) wq]

end Verif.Proof
