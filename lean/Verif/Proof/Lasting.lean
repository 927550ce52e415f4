import Verif.Proof.Journey
/-!
# How long a trajectory lasts at least, in single precision
-/
namespace Verif.Proof
open Verif Verif.Single Verif.Spec Verif.Binary32

variable {exp : F → F} {L : Lib} {v a j : ℝ} {g : Gen}

theorem rnd_rel {z : ℝ} (h : |z| ≤ 2 ^ 100) : ∃ x, rnd z = .fin x ∧ |x - z| ≤ |z| / 10000000 + 1 / 10 ^ 40 := by
  obtain ⟨x, e, b⟩ := rnd_err h
  refine ⟨x, e, b.trans ?_⟩
  have h1 : |z| / 2 ^ 24 ≤ |z| / 10000000 := div_le_div_of_nonneg_left (abs_nonneg z) (by norm_num) (by norm_num)
  have h2 : (1:ℝ) / 2 ^ 150 ≤ 1 / 10 ^ 40 := by norm_num
  linarith

theorem rnd_rel0 {z : ℝ} (h0 : 0 ≤ z) (h : z ≤ 2 ^ 100) : ∃ x, rnd z = .fin x ∧ 0 ≤ x ∧ |x - z| ≤ z / 10000000 + 1 / 10 ^ 40 := by
  obtain ⟨x, e, b⟩ := rnd_rel (by rwa [abs_of_nonneg h0])
  rw [abs_of_nonneg h0] at b
  exact ⟨x, e, by rw [(rnd_fin e).1]; exact round24_nonneg h0, b⟩

/-- The length that an acceleration is expected to take is not more than the larger velocity allows in its time. -/
theorem dist_time (hL : Rooted L) (G : Fit v a j g) {m x y : ℝ} (hm' : m ≤ v) (hx : 0 ≤ x ∧ x ≤ m) (hy : 0 ≤ y ∧ y ≤ m) {X : ℝ} {xs : F}
    (hX : Bd X xs) (hX' : X ≤ 2 ^ 40) :
    ∃ t d, (g.acceleration (arith exp) L xs (.fin x) (.fin y)).2 = .fin t ∧ g.accDist (arith exp) L (.fin x) (.fin y) = .fin d ∧ 0 ≤ t ∧ t ≤ 5 ∧ 0 ≤ d ∧
      d ≤ 1.00001 * (m * t) + 1 / 10 ^ 30 := by
  have hxv : 0 ≤ x ∧ x ≤ v := ⟨hx.1, hx.2.trans hm'⟩
  have hyv : 0 ≤ y ∧ y ≤ v := ⟨hy.1, hy.2.trans hm'⟩
  obtain ⟨-, -, t3, -, -, -, eT, -, -, -, -, t30, t31, -⟩ := (acc_ok (exp := exp) hL G hX hX' hxv hyv).times
  obtain ⟨v1, v2⟩ := G.vel
  obtain ⟨a1, a2⟩ := G.acc
  obtain ⟨j1, j2⟩ := G.jerk
  obtain ⟨tc, vd, e1, e2, tc0, tc1, tc2, -⟩ := tc_ok (exp := exp) G
  obtain ⟨d, e3, d0, d1⟩ := diff_ok (exp := exp) G.f32 v2 hxv hyv
  norm_num at v1 v2 a2 j2
  have ha : 0 < a := by linarith
  have hj : 0 < j := by linarith
  have b100 : (1000000:ℝ) ≤ 2 ^ 100 := by norm_num
  have η40 : (0:ℝ) < 1 / 10 ^ 40 := by positivity
  have η1 : (1:ℝ) / 10 ^ 40 ≤ 1 / 1000000 := by norm_num
  have ht : ∃ t, (open Classical in if (F.fin vd).le (.fin d) then (arith exp).add ((arith exp).div (.fin d) (.fin a)) (.fin tc)
      else (arith exp).mul (.fin 2) (L.sqrt ((arith exp).div (.fin d) (.fin j)))) = .fin t ∧ 0 ≤ t ∧ t ≤ 6 ∧ t ≤ 1.000001 * t3 + 10 * (1 / 10 ^ 40) := by
    unfold Gen.acceleration at eT
    dsimp only at eT
    rw [e1, e2, e3, G.aMax, G.jMax] at eT
    split_ifs at eT ⊢ with h
    · have h' : vd ≤ d := h
      obtain ⟨q, eq, q0, q1⟩ := quot_ok (exp := exp) d0 ha fix_two (by norm_num) (show d ≤ 2 * a by linarith)
      have htc : tc ≤ 2.01 := by
        have k1 : a * tc ≤ d * (1 + 1 / 2 ^ 23) := tc2.trans (mul_le_mul_of_nonneg_right h' (by positivity))
        have k2 : d * (1 + 1 / 2 ^ 23) ≤ 2 * a * (1 + 1 / 2 ^ 23) := mul_le_mul_of_nonneg_right (by linarith) (by positivity)
        have k3 : a * tc ≤ a * (2 * (1 + 1 / 2 ^ 23)) := by linarith
        have := le_of_mul_le_mul_left k3 ha
        norm_num at this ⊢
        linarith
      obtain ⟨t, et, t0, bt⟩ := rnd_rel0 (z := q + tc) (by linarith) (by linarith)
      have hab : |q + -tc| ≤ q + tc := by rw [abs_le]; constructor <;> linarith
      obtain ⟨tm, em, bm⟩ := rnd_rel (z := q + -tc) (by linarith)
      obtain ⟨w, ew, w0, bw⟩ := rnd_rel0 (z := 2 * tc) (by linarith) (by linarith)
      have hm1 := abs_le.1 (bm.trans (b := |q + -tc| / 10000000 + 1 / 10 ^ 40) le_rfl)
      have hw1 := abs_le.1 bw
      have hsum : |w + tm| ≤ 1.1 * (q + tc) + 2 * (1 / 10 ^ 40) := by rw [abs_le]; constructor <;> linarith
      obtain ⟨u, eu, bu⟩ := rnd_rel (z := w + tm) (by linarith)
      have hu1 := abs_le.1 bu
      have ht1 := abs_le.1 bt
      have k1 : (arith exp).sub (.fin q) (.fin tc) = .fin tm := em
      have k2 : (arith exp).mul (.fin 2) (.fin tc) = .fin w := ew
      have k3 : (arith exp).add (.fin w) (.fin tm) = .fin u := eu
      rw [eq, k1, k2, k3] at eT
      injection eT with eT
      subst eT
      refine ⟨t, by rw [eq]; exact et, t0, by linarith, by linarith⟩
    · exact ⟨t3, eT, t30, by linarith, by linarith⟩
  obtain ⟨t, et, t0, t1, t2⟩ := ht
  have m0 : 0 ≤ m := hx.1.trans hx.2
  have hmt : m * t ≤ 1.000001 * (m * t3) + 2560 * (1 / 10 ^ 40) := by
    have h1 := mul_le_mul_of_nonneg_left t2 m0
    have h2 : m * (10 * (1 / 10 ^ 40)) ≤ 256 * (10 * (1 / 10 ^ 40)) := mul_le_mul_of_nonneg_right (by linarith) (by positivity)
    linarith
  have hmt3 : 0 ≤ m * t3 := mul_nonneg m0 t30
  have hmt0 : 0 ≤ m * t := mul_nonneg m0 t0
  have hmtb : m * t ≤ 256 * 6 := mul_le_mul (by linarith) t1 t0 (by norm_num)
  obtain ⟨s, es, s0, bs⟩ := rnd_rel0 (z := x + y) (by linarith) (by linarith)
  have hs : s ≤ 2.0000002 * m + 1 / 10 ^ 40 := by have := (abs_le.1 bs).2; linarith
  have hst : s * t ≤ 2.0000002 * (m * t) + 6 * (1 / 10 ^ 40) := by
    have h1 := mul_le_mul_of_nonneg_right hs t0
    have h2 : 1 / 10 ^ 40 * t ≤ 1 / 10 ^ 40 * 6 := mul_le_mul_of_nonneg_left t1 η40.le
    linarith
  obtain ⟨p, ep, p0, bp⟩ := rnd_rel0 (z := s * t) (mul_nonneg s0 t0) (by linarith)
  have hp := (abs_le.1 bp).2
  obtain ⟨r, er, r0, br⟩ := rnd_rel0 (z := p / 2) (by linarith) (by linarith)
  have hr := (abs_le.1 br).2
  have η30 : 10000 * ((1:ℝ) / 10 ^ 40) ≤ 1 / 10 ^ 30 := by norm_num
  refine ⟨t3, r, eT, ?_, t30, t31, r0, by linarith⟩
  unfold Gen.accDist
  dsimp only
  rw [e1, e2, e3, G.aMax, G.jMax, et]
  show (arith exp).div ((arith exp).mul (rnd (x + y)) _) _ = _
  rw [es]
  show (arith exp).div (rnd (s * t)) _ = _
  rw [ep, div_rnd (by norm_num), er]

set_option maxHeartbeats 1000000 in
/-- A trajectory lasts at least as long as its length takes with the largest velocity. -/
theorem gen_lasts (hL : Rooted L) (G : Fit v a j g) {x y D D' : ℝ} (hx : Pace v x) (hy : Pace v y) (hD' : |D'| = D) (h1 : v / 2 ^ 14 ≤ D) (h2 : D ≤ 2 ^ 30) :
    ∃ T : ℝ, (g.generate (arith exp) L (.fin 0) (.fin D') (.fin x) (.fin y)).2.1 = .fin T ∧ 0.9999 * D ≤ v * T := by
  obtain ⟨v1, v2⟩ := G.vel
  norm_num at v1 v2 h1 h2
  have D0 : 0 < D := by linarith
  obtain ⟨σ, eσ⟩ : ∃ σ : ℝ, (open Classical in if (F.fin D').lt (.fin 0) then ((F.fin D').neg, F.fin (-1)) else (F.fin D', F.fin 1)) = (F.fin D, F.fin σ) := by
    split_ifs with h
    · have h' : D' < 0 := h
      refine ⟨-1, ?_⟩
      show (F.fin (-D'), _) = _
      rw [← hD', abs_of_neg h']
    · have h' : 0 ≤ D' := not_lt.1 h
      refine ⟨1, ?_⟩
      rw [← hD', abs_of_nonneg h']
  obtain ⟨w, ew, hw, -⟩ := aim_ok (exp := exp) (L := L) G hx hy (.fin D)
  obtain ⟨r, er, hr, xr, wr, fr⟩ := peak_ok (exp := exp) hL G hx hw (show v / 2 ^ 14 ≤ D by norm_num; exact h1)
  obtain ⟨u, eu, hu, ur⟩ : ∃ u, (open Classical in if (F.fin w).lt (.fin r) then F.fin w else F.fin r) = F.fin u ∧ Pace v u ∧ u ≤ r := by
    split_ifs with h
    · exact ⟨w, rfl, hw, wr⟩
    · exact ⟨r, rfl, hr, le_rfl⟩
  have r0 : 0 < r := lt_of_lt_of_le (lt_min (by linarith) (by linarith)) fr
  have r1 := hr.high
  have b100 : (10000000000:ℝ) ≤ 2 ^ 100 := by norm_num
  have η40 : (0:ℝ) < 1 / 10 ^ 40 := by positivity
  have η30 : (0:ℝ) < 1 / 10 ^ 30 := by positivity
  have η0 : (1:ℝ) / 10 ^ 40 ≤ 1 / 10 ^ 30 := by norm_num
  have η1 : (1:ℝ) / 10 ^ 30 ≤ 1 / 10 ^ 20 := by norm_num
  have η2 : (1:ℝ) / 10 ^ 20 ≤ 1 / 1000000 := by norm_num
  obtain ⟨tA, d1, eA, ed1, tA0, tA1, d10, d11⟩ := dist_time (exp := exp) hL G hr.high ⟨hx.low, xr⟩ ⟨hr.low, le_rfl⟩ (X := 0) (xs := .fin 0) (bd_fin (by simp)) (by norm_num)
  obtain ⟨d3, ed3, -⟩ := dist_ok (exp := exp) hL G (le_trans (by norm_num) v1) le_rfl ⟨hr.low, hr.high⟩ ⟨hu.low, hu.high⟩
  have hxs3 : Bd (2 ^ 40) ((arith exp).sub ((arith exp).add (.fin 0) (.fin D)) (.fin d3)) := by
    obtain ⟨d3', ed3', d30', d31'⟩ := dist_ok (exp := exp) hL G (le_trans (by norm_num) v1) le_rfl ⟨hr.low, hr.high⟩ ⟨hu.low, hu.high⟩
    rw [ed3] at ed3'
    injection ed3' with e
    subst e
    have hend : Bd (1.01 * D + 0.001) ((arith exp).add (.fin 0) (.fin D)) := add' (c := 0) (d := D) _ (bd_fin (by simp))
      (bd_fin (by rw [abs_of_pos D0])) (by linarith) (le_trans (b := 4000000000) (by linarith) (by norm_num))
    exact bd_weaken (sub' (1.03 * D + 6.1 * v + 0.1) hend (bd_fin (c := 6 * v) (by rw [abs_of_nonneg d30']; exact d31')) (by linarith)
      (le_trans (b := 4000000000) (by linarith) (by norm_num))) (by norm_num; linarith)
  obtain ⟨tB, d3', eB, ed3', tB0, tB1, d30, d31⟩ := dist_time (exp := exp) hL G hr.high ⟨hr.low, le_rfl⟩ ⟨hu.low, ur⟩ hxs3 le_rfl
  rw [ed3] at ed3'
  injection ed3' with e
  subst e
  have hA0 : 0 ≤ r * tA := mul_nonneg r0.le tA0
  have hB0 : 0 ≤ r * tB := mul_nonneg r0.le tB0
  have hA1 : r * tA ≤ 256 * 5 := mul_le_mul (by linarith) tA1 tA0 (by norm_num)
  have hB1 : r * tB ≤ 256 * 5 := mul_le_mul (by linarith) tB1 tB0 (by norm_num)
  obtain ⟨e, ee, be⟩ := rnd_rel (z := D + -d1) (by
    have : |D + -d1| ≤ D + d1 := by rw [abs_le]; constructor <;> linarith
    linarith)
  have ha1 : |D + -d1| ≤ D + d1 := by rw [abs_le]; constructor <;> linarith
  have be' := abs_le.1 be
  have ha2 : |e + -d3| ≤ 1.1 * D + 1.1 * d1 + d3 + 1 / 10 ^ 40 := by rw [abs_le]; constructor <;> linarith
  obtain ⟨f, ef, bf⟩ := rnd_rel (z := e + -d3) (by linarith)
  have bf' := abs_le.1 bf
  have hfr : |f / r| ≤ 2 ^ 80 := by
    rw [abs_div, abs_of_pos r0, div_le_iff₀ r0]
    have : 1 / 2 ^ 40 ≤ r := le_trans (le_min (by norm_num; linarith) (by norm_num; linarith)) fr
    have h2 : (2:ℝ) ^ 80 * (1 / 2 ^ 40) ≤ 2 ^ 80 * r := mul_le_mul_of_nonneg_left this (by positivity)
    have h3 : |f| ≤ 10000000000 := by rw [abs_le]; constructor <;> linarith
    norm_num at h2 ⊢
    linarith
  obtain ⟨q, eq, bq⟩ := rnd_rel (hfr.trans (by norm_num))
  -- the time at constant speed
  obtain ⟨b, eb, b0, b1, b2⟩ : ∃ b, (open Classical in if (F.fin q).lt (.fin 0) then F.fin 0 else F.fin q) = F.fin b ∧ 0 ≤ b ∧ b ≤ 2 ^ 81 ∧
      0.9999998 * f ≤ r * b + 256 * (1 / 10 ^ 40) := by
    split_ifs with h
    · refine ⟨0, rfl, le_rfl, by norm_num, ?_⟩
      have hq : q < 0 := h
      by_contra hc
      rw [not_le, mul_zero, zero_add] at hc
      have hf : 0 < f := by
        have : (0:ℝ) < 256 * (1 / 10 ^ 40) := by positivity
        linarith
      have : 0 ≤ q := by rw [(rnd_fin eq).1]; exact round24_nonneg (div_nonneg hf.le r0.le)
      linarith
    · have q0 : 0 ≤ q := not_lt.1 h
      refine ⟨q, rfl, q0, ?_, ?_⟩
      · have h1 := (abs_le.1 bq).2
        have h2 := le_abs_self (f / r)
        have : (2:ℝ) ^ 81 = 2 ^ 80 + 2 ^ 80 := by norm_num
        have h3 : |f / r| / 10000000 ≤ 2 ^ 80 / 10000000 := div_le_div_of_nonneg_right hfr (by norm_num)
        have h4 : (2:ℝ) ^ 80 / 10000000 + 1 ≤ 2 ^ 80 := by norm_num
        linarith
      · by_cases hf : 0 ≤ f
        · have h1 := (abs_le.1 bq).1
          rw [abs_of_nonneg (div_nonneg hf r0.le)] at h1
          have h2 : 0.9999998 * (f / r) - 1 / 10 ^ 40 ≤ q := by
            have : 0 ≤ f / r := div_nonneg hf r0.le
            linarith
          have h3 := mul_le_mul_of_nonneg_left h2 r0.le
          have h4 : r * (0.9999998 * (f / r) - 1 / 10 ^ 40) = 0.9999998 * f - r * (1 / 10 ^ 40) := by field_simp
          have h5 : r * (1 / 10 ^ 40) ≤ 256 * (1 / 10 ^ 40) := mul_le_mul_of_nonneg_right (by linarith) η40.le
          linarith
        · have := mul_nonneg r0.le q0
          have : (0:ℝ) < 256 * (1 / 10 ^ 40) := by positivity
          linarith
  have c81 : (2:ℝ) ^ 81 + 5 ≤ 2 ^ 90 := by norm_num
  obtain ⟨s2, es2, s20, bs2⟩ := rnd_rel0 (z := tA + b) (by linarith) (le_trans (by linarith) (show (2:ℝ) ^ 90 ≤ 2 ^ 100 by norm_num))
  have bs2' := abs_le.1 bs2
  have c91 : (2:ℝ) ^ 90 + 2 ^ 90 + 6 ≤ 2 ^ 100 := by norm_num
  obtain ⟨s3, es3, s30, bs3⟩ := rnd_rel0 (z := s2 + tB) (by linarith) (by linarith)
  have bs3' := abs_le.1 bs3
  refine ⟨s3, ?_, ?_⟩
  · unfold Gen.generate
    rw [eσ]
    dsimp only
    rw [ew, er, eu, ed1, ed3]
    unfold constant
    dsimp only
    have q1 : (arith exp).sub (.fin D) (.fin d1) = .fin e := ee
    have q2 : (arith exp).sub (.fin e) (.fin d3) = .fin f := ef
    have q3 : (arith exp).div (.fin f) (.fin r) = .fin q := by rw [div_rnd r0.ne', eq]
    rw [q1, q2, q3, eb, eA, eB]
    have q4 : (arith exp).add (.fin tA) (.fin b) = .fin s2 := es2
    have q5 : (arith exp).add (.fin s2) (.fin tB) = .fin s3 := es3
    rw [q4, q5]
  · have h3 : 0.9999996 * (tA + b + tB) - 3 * (1 / 10 ^ 40) ≤ s3 := by linarith
    have h4 := mul_le_mul_of_nonneg_left h3 r0.le
    have h5 : r * (3 * (1 / 10 ^ 40)) ≤ 256 * (3 * (1 / 10 ^ 40)) := mul_le_mul_of_nonneg_right (by linarith) (by positivity)
    have h6 : r * (0.9999996 * (tA + b + tB) - 3 * (1 / 10 ^ 40)) = 0.9999996 * (r * tA + r * b + r * tB) - r * (3 * (1 / 10 ^ 40)) := by ring
    have h7 : r * s3 ≤ v * s3 := mul_le_mul_of_nonneg_right hr.high s30
    have hb0 : 0 ≤ r * b := mul_nonneg r0.le b0
    have c1 : 2000 * ((1:ℝ) / 10 ^ 40) ≤ 1 / 10 ^ 30 := by norm_num
    have c2 : 100 * ((1:ℝ) / 10 ^ 30) ≤ 1 / 10 ^ 20 := by norm_num
    have c3 : (1:ℝ) / 10 ^ 20 ≤ 1 / 4194304 / 1000000 := by norm_num
    linarith

end Verif.Proof
