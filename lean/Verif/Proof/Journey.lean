import Verif.Spec.Journey
import Verif.Proof.Drift
/-!
# Straight trajectories in binary32
-/
namespace Verif.Proof
open Verif Verif.Spec Verif.Binary32 Verif.Props Verif.Single

variable {exp : F → F} {L : Lib}

/-! ## Sizes -/

theorem rnd_bd {z c : ℝ} (h : |z| ≤ c) (hc : c ≤ 2 ^ 100) : ∃ x, rnd z = .fin x ∧ |x| ≤ c + c / 2 ^ 20 + 1 / 2 ^ 140 := by
  obtain ⟨x, e, b⟩ := rnd_err (h.trans hc)
  refine ⟨x, e, ?_⟩
  have h0 := (abs_nonneg z).trans h
  have h1 := abs_sub_abs_le_abs_sub x z
  have h2 : |z| / 2 ^ 24 ≤ c / 2 ^ 20 := div_le_div₀ h0 h (by positivity) (by norm_num)
  have h3 : (1:ℝ) / 2 ^ 150 ≤ 1 / 2 ^ 140 := by norm_num
  linarith

theorem rnd_nn {z c : ℝ} (h0 : 0 ≤ z) (h : z ≤ c) (hc : c ≤ 2 ^ 100) : ∃ x, rnd z = .fin x ∧ 0 ≤ x ∧ x ≤ c + c / 2 ^ 20 + 1 / 2 ^ 140 := by
  obtain ⟨x, e, b⟩ := rnd_bd (by rwa [abs_of_nonneg h0]) hc
  obtain ⟨e1, -⟩ := rnd_fin e
  refine ⟨x, e, ?_, (le_abs_self x).trans b⟩
  rw [e1]
  exact round24_nonneg h0

theorem bd_neg {c : ℝ} {x : F} (h : Bd c x) : Bd c x.neg := by
  obtain ⟨r, rfl, hr⟩ := h
  exact ⟨-r, rfl, by rwa [abs_neg]⟩

theorem bd_weaken {c d : ℝ} {x : F} (h : Bd c x) (hd : c ≤ d) : Bd d x := by
  obtain ⟨r, rfl, hr⟩ := h
  exact ⟨r, rfl, hr.trans hd⟩

theorem bd_add {c d : ℝ} (e : ℝ) {x y : F} (hx : Bd c x) (hy : Bd d y) (h : c + d + (c + d) / 2 ^ 20 + 1 / 2 ^ 140 ≤ e) (hc : c + d ≤ 2 ^ 100) :
    Bd e ((arith exp).add x y) := by
  obtain ⟨r, rfl, hr⟩ := hx
  obtain ⟨s, rfl, hs⟩ := hy
  obtain ⟨z, ez, bz⟩ := rnd_bd ((abs_add_le r s).trans (add_le_add hr hs)) hc
  exact ⟨z, ez, bz.trans h⟩

theorem bd_sub {c d : ℝ} (e : ℝ) {x y : F} (hx : Bd c x) (hy : Bd d y) (h : c + d + (c + d) / 2 ^ 20 + 1 / 2 ^ 140 ≤ e) (hc : c + d ≤ 2 ^ 100) :
    Bd e ((arith exp).sub x y) := bd_add e hx (bd_neg hy) h hc

theorem bd_mul {c d : ℝ} (e : ℝ) {x y : F} (hx : Bd c x) (hy : Bd d y) (h : c * d + c * d / 2 ^ 20 + 1 / 2 ^ 140 ≤ e) (hc : c * d ≤ 2 ^ 100) :
    Bd e ((arith exp).mul x y) := by
  obtain ⟨r, rfl, hr⟩ := hx
  obtain ⟨s, rfl, hs⟩ := hy
  obtain ⟨z, ez, bz⟩ := rnd_bd (z := r * s) (by rw [abs_mul]; exact mul_le_mul hr hs (abs_nonneg _) ((abs_nonneg _).trans hr)) hc
  exact ⟨z, ez, bz.trans h⟩

theorem bd_div {c k : ℝ} (e : ℝ) {x : F} (hx : Bd c x) (hk : 0 < k) (h : c / k + c / k / 2 ^ 20 + 1 / 2 ^ 140 ≤ e) (hc : c / k ≤ 2 ^ 100) :
    Bd e ((arith exp).div x (.fin k)) := by
  obtain ⟨r, rfl, hr⟩ := hx
  obtain ⟨z, ez, bz⟩ := rnd_bd (z := r / k) (by rw [abs_div, abs_of_pos hk]; exact div_le_div_of_nonneg_right hr hk.le) hc
  refine ⟨z, ?_, bz.trans h⟩
  show (if k = 0 then _ else rnd (r / k)) = _
  rw [if_neg hk.ne', ez]

theorem div_rnd {r k : ℝ} (hk : k ≠ 0) : (arith exp).div (.fin r) (.fin k) = rnd (r / k) := by
  show (if k = 0 then _ else rnd (r / k)) = _
  rw [if_neg hk]

theorem rnd_le_fix {z c x : ℝ} (hc : round24 c = c) (h : z ≤ c) (e : rnd z = .fin x) : x ≤ c := by
  rw [(rnd_fin e).1, ← hc]
  exact round24_mono h

theorem le_rnd_fix {z c x : ℝ} (hc : round24 c = c) (h : c ≤ z) (e : rnd z = .fin x) : c ≤ x := by
  rw [(rnd_fin e).1, ← hc]
  exact round24_mono h

/-! ## Times and distances of an acceleration -/

/-- The time of constant jerk, and the velocity that it changes. -/
theorem tc_ok {v a j : ℝ} {g : Gen} (G : Fit v a j g) : ∃ tc vd, (arith exp).div g.aMax g.jMax = .fin tc ∧ (arith exp).mul g.aMax (.fin tc) = .fin vd ∧
    0 ≤ tc ∧ |tc - a / j| ≤ a / j / 2 ^ 24 ∧ a * tc ≤ vd * (1 + 1 / 2 ^ 23) ∧ vd ≤ a * tc * (1 + 1 / 2 ^ 24) := by
  obtain ⟨v1, v2⟩ := G.vel
  obtain ⟨a1, a2⟩ := G.acc
  obtain ⟨j1, j2⟩ := G.jerk
  norm_num at v1 v2 a2 j2
  have ha : 0 < a := by linarith
  have hj : 0 < j := by linarith
  have q1 : 1 / 2 ^ 40 ≤ a / j := by
    rw [le_div_iff₀ hj]; norm_num; linarith
  have q2 : a / j ≤ 2 ^ 40 := by
    rw [div_le_iff₀ hj]; norm_num; linarith
  rw [G.aMax, G.jMax, div_rnd hj.ne']
  rcases rnd_pos (z := a / j) (le_trans (by norm_num) q1) with ⟨-, h⟩ | ⟨tc, e1, b1⟩
  · exfalso
    have : (2:ℝ) ^ 40 < 2 ^ 127 := by norm_num
    linarith
  have t0 : 1 / 2 ^ 41 ≤ tc := by
    have := neg_abs_le (tc - a / j)
    have h1 : a / j / 2 ^ 24 ≤ a / j / 2 := div_le_div_of_nonneg_left (by positivity) (by norm_num) (by norm_num)
    have h2 : (1:ℝ) / 2 ^ 41 = 1 / 2 ^ 40 / 2 := by norm_num
    linarith
  have t1 : tc ≤ 2 ^ 41 := by
    have := le_abs_self (tc - a / j)
    have h1 : a / j / 2 ^ 24 ≤ a / j := div_le_self (by positivity) (by norm_num)
    have h2 : (2:ℝ) ^ 41 = 2 ^ 40 + 2 ^ 40 := by norm_num
    linarith
  have tp : 0 < tc := lt_of_lt_of_le (by positivity) t0
  rcases rnd_pos (z := a * tc) (by
    have : (1:ℝ) / 2 ^ 10 * (1 / 2 ^ 41) ≤ a * tc := mul_le_mul (by norm_num; linarith) t0 (by positivity) ha.le
    exact le_trans (by norm_num) this) with ⟨-, h⟩ | ⟨vd, e2, b2⟩
  · exfalso
    have h1 : a * tc ≤ 2 ^ 14 * 2 ^ 41 := mul_le_mul (by norm_num; linarith) t1 tp.le (by positivity)
    have : (2:ℝ) ^ 14 * 2 ^ 41 < 2 ^ 127 := by norm_num
    linarith
  refine ⟨tc, vd, e1, e2, tp.le, b1, ?_, by have := le_abs_self (vd - a * tc); linarith⟩
  have := neg_abs_le (vd - a * tc)
  have hz : 0 < a * tc := mul_pos ha tp
  have h1 : a * tc * (1 - 1 / 2 ^ 24) ≤ vd := by linarith
  have h2 := mul_le_mul_of_nonneg_right h1 (show (0:ℝ) ≤ 1 + 1 / 2 ^ 23 by positivity)
  have h3 : (1:ℝ) ≤ (1 - 1 / 2 ^ 24) * (1 + 1 / 2 ^ 23) := by norm_num
  have h4 := mul_le_mul_of_nonneg_left h3 hz.le
  linarith

/-- The distance of two velocities. -/
theorem diff_ok {v x y : ℝ} (hv : round24 v = v) (hv' : v ≤ 2 ^ 8) (hx : 0 ≤ x ∧ x ≤ v) (hy : 0 ≤ y ∧ y ≤ v) :
    ∃ d, ((arith exp).sub (.fin y) (.fin x)).abs = .fin d ∧ 0 ≤ d ∧ d ≤ v := by
  have h : |y + -x| ≤ v := by rw [abs_le]; constructor <;> linarith
  obtain ⟨z, ez, bz⟩ := rnd_bd h (by have : (2:ℝ) ^ 8 ≤ 2 ^ 100 := by norm_num
                                     linarith)
  refine ⟨|z|, ?_, abs_nonneg _, ?_⟩
  · show F.abs (rnd (y + -x)) = _
    rw [ez]; rfl
  · rw [(rnd_fin ez).1]
    exact round24_abs_le hv h

theorem quot_ok {d k c : ℝ} (hd : 0 ≤ d) (hk : 0 < k) (hc : round24 c = c) (hc' : c ≤ 2 ^ 100) (h : d ≤ c * k) :
    ∃ q, (arith exp).div (.fin d) (.fin k) = .fin q ∧ 0 ≤ q ∧ q ≤ c := by
  have hq : d / k ≤ c := by rw [div_le_iff₀ hk]; exact h
  obtain ⟨q, e, b, -⟩ := rnd_nn (div_nonneg hd hk.le) hq hc'
  exact ⟨q, by rw [div_rnd hk.ne', e], b, rnd_le_fix hc hq e⟩

theorem fix_two : round24 2 = 2 := by have := round24_two (k := 1) (by norm_num); norm_num at this; exact this
theorem fix_half : round24 (1 / 2) = 1 / 2 := by have := round24_two (k := -1) (by norm_num); norm_num at this ⊢; exact this

/-- The root of a quotient that is at most one half. -/
theorem root_ok (hL : Rooted L) {r : ℝ} (h0 : 0 ≤ r) (h1 : r ≤ 1 / 2) : ∃ s, L.sqrt (.fin r) = .fin s ∧ 0 ≤ s ∧ s ≤ 3 / 2 ∧ s * s ≤ 1.5 * r + 1 / 2 ^ 30 := by
  obtain ⟨s, e, s0, s1⟩ := hL r h0
  have hr := Real.sqrt_nonneg r
  have hq := Real.mul_self_sqrt h0
  have hb : √r ≤ 0.7072 := by
    rw [Real.sqrt_le_iff]; norm_num; linarith
  refine ⟨s, e, s0, ?_, ?_⟩
  · norm_num at s1; linarith
  · have : s * s ≤ (1.2 * √r + 1 / 2 ^ 40) * (1.2 * √r + 1 / 2 ^ 40) := mul_le_mul s1 s1 s0 (by positivity)
    have e1 : (1.2 * √r + 1 / 2 ^ 40) * (1.2 * √r + 1 / 2 ^ 40) = 1.44 * (√r * √r) + √r * (2.4 / 2 ^ 40) + 1 / 2 ^ 80 := by ring
    rw [e1, hq] at this
    have h2 : √r * (2.4 / 2 ^ 40) ≤ 0.7072 * (2.4 / 2 ^ 40) := mul_le_mul_of_nonneg_right hb (by positivity)
    have h3 : (0.7072:ℝ) * (4 / 2 ^ 40) + 1 / 2 ^ 80 ≤ 1 / 2 ^ 30 := by norm_num
    linarith

/-- `calculate_acceleration_distance`: the time is at most 5 s. -/
theorem dist_ok (hL : Rooted L) {v a j : ℝ} {g : Gen} (G : Fit v a j g) {m x y : ℝ} (hm : 1 / 2 ^ 40 ≤ m) (hm' : m ≤ v) (hx : 0 ≤ x ∧ x ≤ m) (hy : 0 ≤ y ∧ y ≤ m) :
    ∃ d, g.accDist (arith exp) L (.fin x) (.fin y) = .fin d ∧ 0 ≤ d ∧ d ≤ 6 * m := by
  obtain ⟨v1, v2⟩ := G.vel
  obtain ⟨a1, a2⟩ := G.acc
  obtain ⟨j1, j2⟩ := G.jerk
  obtain ⟨tc, vd, e1, e2, tc0, tc1, tc2, -⟩ := tc_ok (exp := exp) G
  obtain ⟨d, e3, d0, d1⟩ := diff_ok (exp := exp) G.f32 v2 ⟨hx.1, hx.2.trans hm'⟩ ⟨hy.1, hy.2.trans hm'⟩
  norm_num at v1 v2 a2 j2
  have ha : 0 < a := by linarith
  have hj : 0 < j := by linarith
  have big : (2:ℝ) ^ 20 ≤ 2 ^ 100 := by norm_num
  have n20 : (2:ℝ) ^ 20 = 1048576 := by norm_num
  -- the time
  have ht : ∃ t, (open Classical in if (F.fin vd).le (.fin d) then (arith exp).add ((arith exp).div (.fin d) (.fin a)) (.fin tc)
      else (arith exp).mul (.fin 2) (L.sqrt ((arith exp).div (.fin d) (.fin j)))) = .fin t ∧ 0 ≤ t ∧ t ≤ 5 := by
    split_ifs with h
    · have h' : vd ≤ d := h
      obtain ⟨q, eq, q0, q1⟩ := quot_ok (exp := exp) d0 ha fix_two (by norm_num) (show d ≤ 2 * a by linarith)
      have htc : tc ≤ 2.01 := by
        have k1 : a * tc ≤ d * (1 + 1 / 2 ^ 23) := tc2.trans (mul_le_mul_of_nonneg_right h' (by positivity))
        have k2 : d * (1 + 1 / 2 ^ 23) ≤ 2 * a * (1 + 1 / 2 ^ 23) := mul_le_mul_of_nonneg_right (by linarith) (by positivity)
        have k3 : a * tc ≤ a * (2 * (1 + 1 / 2 ^ 23)) := by linarith
        have := le_of_mul_le_mul_left k3 ha
        norm_num at this ⊢
        linarith
      obtain ⟨t, et, t0, t1⟩ := rnd_nn (z := q + tc) (c := 4.01) (by linarith) (by linarith) (by norm_num)
      refine ⟨t, ?_, t0, t1.trans (by norm_num)⟩
      rw [eq]; exact et
    · obtain ⟨q, eq, q0, q1⟩ := quot_ok (exp := exp) d0 hj fix_half (by norm_num) (show d ≤ 1 / 2 * j by linarith)
      obtain ⟨s, es, s0, s1, -⟩ := root_ok hL q0 q1
      obtain ⟨t, et, t0, t1⟩ := rnd_nn (z := 2 * s) (c := 3) (by linarith) (by linarith) (by norm_num)
      refine ⟨t, ?_, t0, t1.trans (by norm_num)⟩
      rw [eq, es]; exact et
  obtain ⟨t, et, t0, t1⟩ := ht
  have m0 : 0 < m := lt_of_lt_of_le (by positivity) hm
  have hη : (1:ℝ) / 2 ^ 140 ≤ m / 2 ^ 20 := by
    have : (1:ℝ) / 2 ^ 140 ≤ 1 / 2 ^ 40 / 2 ^ 20 := by norm_num
    have h2 : (1:ℝ) / 2 ^ 40 / 2 ^ 20 ≤ m / 2 ^ 20 := div_le_div_of_nonneg_right hm (by positivity)
    linarith
  obtain ⟨s, es, s0, s1⟩ := rnd_nn (z := x + y) (c := 2 * m) (by linarith) (by linarith) (by linarith)
  have s2 : s ≤ 2.01 * m := by
    rw [n20] at s1 hη
    linarith
  obtain ⟨p, ep, p0, p1⟩ := rnd_nn (z := s * t) (c := 10.05 * m) (mul_nonneg s0 t0) (by
    have : s * t ≤ 2.01 * m * 5 := mul_le_mul s2 t1 t0 (by linarith)
    linarith) (by linarith)
  have p2 : p ≤ 11 * m := by
    rw [n20] at p1 hη
    linarith
  obtain ⟨r, er, r0, r1⟩ := rnd_nn (z := p / 2) (c := 5.5 * m) (by linarith) (by linarith) (by linarith)
  refine ⟨r, ?_, r0, ?_⟩
  · unfold Gen.accDist
    dsimp only
    rw [e1, e2, e3, G.aMax, G.jMax, et]
    show (arith exp).div ((arith exp).mul (rnd (x + y)) _) _ = _
    rw [es]
    show (arith exp).div (rnd (s * t)) _ = _
    rw [ep, div_rnd (by norm_num), er]
  · rw [n20] at r1 hη
    linarith

/-! ## Bisection -/

theorem fix_double {x : ℝ} (h : round24 x = x) : round24 (2 * x) = 2 * x := by
  obtain ⟨m, e, hm, he, hx⟩ := round24_form x
  rw [h] at hx
  rw [hx, show (2:ℝ) * (m * 2 ^ e) = m * 2 ^ (e + 1) by rw [zpow_add_one₀ (by norm_num)]; ring]
  exact round24_fix hm (by omega)

/-- The middle of two velocities. -/
theorem mid_ok {l h : ℝ} (hl : round24 l = l) (hh : round24 h = h) (l0 : 0 ≤ l) (lh : l ≤ h) (hb : h ≤ 2 ^ 90) :
    ∃ m, (arith exp).div ((arith exp).add (.fin l) (.fin h)) (.fin 2) = .fin m ∧ round24 m = m ∧ l ≤ m ∧ m ≤ h ∧
      (1 / 2 ^ 60 ≤ h → h / 4 ≤ m ∧ m ≤ (l + h) / 2 * (1 + 1 / 2 ^ 22)) := by
  have big : (2:ℝ) * 2 ^ 90 ≤ 2 ^ 100 := by norm_num
  obtain ⟨s, es, bs⟩ := rnd_err (z := l + h) (by rw [abs_of_nonneg (by linarith)]; linarith)
  have s1 : 2 * l ≤ s := le_rnd_fix (fix_double hl) (by linarith) es
  have s2 : s ≤ 2 * h := rnd_le_fix (fix_double hh) (by linarith) es
  obtain ⟨m, em, bm⟩ := rnd_err (z := s / 2) (by rw [abs_of_nonneg (by linarith)]; linarith)
  have m1 : l ≤ m := le_rnd_fix hl (by linarith) em
  have m2 : m ≤ h := rnd_le_fix hh (by linarith) em
  refine ⟨m, ?_, ?_, m1, m2, fun hlow => ?_⟩
  · show (arith exp).div (rnd (l + h)) _ = _
    rw [es, div_rnd (by norm_num), em]
  · rw [(rnd_fin em).1]; exact round24_idem _
  · rw [abs_of_nonneg (show 0 ≤ l + h by linarith)] at bs
    rw [abs_of_nonneg (show 0 ≤ s / 2 by linarith)] at bm
    have a1 := abs_le.1 bs
    have a2 := abs_le.1 bm
    have n24 : (2:ℝ) ^ 24 = 16777216 := by norm_num
    have n22 : (2:ℝ) ^ 22 = 4194304 := by norm_num
    have hη : (1:ℝ) / 2 ^ 150 ≤ (l + h) / 2 / 16777216 / 4 := by
      have : (1:ℝ) / 2 ^ 150 ≤ 1 / 2 ^ 60 / 2 / 16777216 / 4 := by norm_num
      linarith
    rw [n24] at a1 a2
    rw [n22]
    constructor <;> linarith

theorem bisect_range {up : F → Prop} (n : ℕ) : ∀ {l h : ℝ}, round24 l = l → round24 h = h → 0 ≤ l → l ≤ h → h ≤ 2 ^ 90 →
    ∃ r, (bisect (arith exp) up n (.fin l) (.fin h)).1 = .fin r ∧ round24 r = r ∧ l ≤ r ∧ r ≤ h := by
  induction n with
  | zero => intro l h hl hh l0 lh hb; exact ⟨l, rfl, hl, le_rfl, lh⟩
  | succ n ih =>
    intro l h hl hh l0 lh hb
    obtain ⟨m, em, hm, m1, m2, -⟩ := mid_ok (exp := exp) hl hh l0 lh hb
    unfold bisect
    dsimp only
    rw [em]
    split_ifs
    · obtain ⟨r, e, hr, r1, r2⟩ := ih hm hh (l0.trans m1) m2 hb
      exact ⟨r, e, hr, m1.trans r1, r2⟩
    · obtain ⟨r, e, hr, r1, r2⟩ := ih hl hm l0 m1 (m2.trans hb)
      exact ⟨r, e, hr, r1, r2.trans m2⟩

/-- A bisection that goes up below `2 μ` does not end far below `μ`. -/
theorem bisect_floor {up : F → Prop} {μ : ℝ} (hμ : 1 / 2 ^ 59 ≤ μ) (n : ℕ) : ∀ (k : ℕ) {l h w : ℝ}, round24 l = l → round24 h = h → 0 ≤ l → l ≤ h → h ≤ 2 ^ 90 →
    (∀ m, round24 m = m → l ≤ m → m ≤ 2 * μ → up (.fin m)) → 2 * μ ≤ h → h ≤ (μ + w) * (1 + 1 / 2 ^ 22) ^ k →
    ∃ r, (bisect (arith exp) up n (.fin l) (.fin h)).1 = .fin r ∧ (μ / 2 ≤ r ∨ 2 * μ ≤ (μ + w / 2 ^ n) * (1 + 1 / 2 ^ 22) ^ (k + n)) := by
  have μ0 : 0 < μ := lt_of_lt_of_le (by positivity) hμ
  induction n with
  | zero =>
    intro k l h w hl hh l0 lh hb hup h1 h2
    refine ⟨l, rfl, .inr ?_⟩
    simp only [pow_zero, div_one, add_zero]
    linarith
  | succ n ih =>
    intro k l h w hl hh l0 lh hb hup h1 h2
    obtain ⟨m, em, hm, m1, m2, m3⟩ := mid_ok (exp := exp) hl hh l0 lh hb
    obtain ⟨m4, m5⟩ := m3 (by norm_num at hμ ⊢; linarith)
    by_cases hl' : μ / 2 ≤ l
    · obtain ⟨r, e, -, r1, -⟩ := bisect_range (exp := exp) (up := up) (n + 1) hl hh l0 lh hb
      exact ⟨r, e, .inl (hl'.trans r1)⟩
    unfold bisect
    dsimp only
    rw [em]
    split_ifs with hu
    · obtain ⟨r, e, -, r1, -⟩ := bisect_range (exp := exp) (up := up) n hm hh (l0.trans m1) m2 hb
      exact ⟨r, e, .inl (by linarith)⟩
    · have hm2 : 2 * μ ≤ m := by
        by_contra hc
        exact hu (hup m hm m1 (le_of_not_ge hc))
      have hq : (1:ℝ) ≤ (1 + 1 / 2 ^ 22) ^ k := one_le_pow₀ (by norm_num)
      have hμq : μ ≤ μ * (1 + 1 / 2 ^ 22) ^ k := le_mul_of_one_le_right μ0.le hq
      obtain ⟨r, e, hr⟩ := ih (k + 1) (w := w / 2) hl hm l0 m1 (m2.trans hb) hup hm2 (by
        refine m5.trans ?_
        rw [pow_succ (1 + 1 / (2:ℝ) ^ 22) k, ← mul_assoc]
        refine mul_le_mul_of_nonneg_right ?_ (by positivity)
        have : (μ + w) * (1 + 1 / 2 ^ 22) ^ k = μ * (1 + 1 / 2 ^ 22) ^ k + w * (1 + 1 / 2 ^ 22) ^ k := by ring
        have : (μ + w / 2) * (1 + 1 / 2 ^ 22) ^ k = μ * (1 + 1 / 2 ^ 22) ^ k + w * (1 + 1 / 2 ^ 22) ^ k / 2 := by ring
        linarith)
      refine ⟨r, e, hr.imp id fun h => ?_⟩
      rw [show w / 2 ^ (n + 1) = w / 2 / 2 ^ n by rw [pow_succ, div_div, mul_comm], show k + (n + 1) = k + 1 + n by ring]
      exact h

/-! ## The velocities of a trajectory -/

variable {v a j : ℝ} {g : Gen}

theorem fit_small (G : Fit v a j g) : v ≤ 2 ^ 90 := G.vel.2.trans (by norm_num)

theorem reach_ok (G : Fit v a j g) {x y : ℝ} (hx : Pace v x) (hy : Pace v y) (D : F) :
    ∃ r, g.reachable (arith exp) L (.fin x) (.fin y) D = .fin r ∧ round24 r = r ∧ 0 ≤ r ∧ r ≤ v ∧ (¬ x < y → r ≤ x) ∧ (x < y → x ≤ r) := by
  have hb := fit_small G
  unfold Gen.reachable
  split_ifs with h
  · rw [G.vMax]
    obtain ⟨r, e, hr, r1, r2⟩ := bisect_range (exp := exp) (up := fun mid => (g.accDist (arith exp) L (.fin x) mid).lt D) 25 hx.f32 G.f32 hx.low hx.high hb
    exact ⟨r, e, hr, hx.low.trans r1, r2, fun hc => absurd h hc, fun _ => r1⟩
  · obtain ⟨r, e, hr, r1, r2⟩ := bisect_range (exp := exp) (up := fun mid => ¬ (g.accDist (arith exp) L (.fin x) mid).lt D) 25 round24_zero hx.f32 le_rfl hx.low
      (hx.high.trans hb)
    exact ⟨r, e, hr, r1, r2.trans hx.high, fun _ => r2, fun hc => absurd hc h⟩

/-- The velocity aimed at. -/
theorem aim_ok (G : Fit v a j g) {x y : ℝ} (hx : Pace v x) (hy : Pace v y) (D : F) :
    ∃ r, g.aim (arith exp) L (.fin x) (.fin y) D = .fin r ∧ Pace v r ∧ min x y ≤ r ∧ r ≤ max x y := by
  obtain ⟨r, e, hr, r0, r1, r2, r3⟩ := reach_ok (exp := exp) (L := L) G hx hy D
  unfold Gen.aim
  dsimp only
  rw [e]
  split_ifs with h h' h'
  · exact ⟨r, rfl, ⟨hr, r0, r1⟩, min_le_of_left_le (r3 h), le_max_of_le_right (le_of_lt h')⟩
  · exact ⟨y, rfl, hy, min_le_right _ _, le_max_right _ _⟩
  · exact ⟨r, rfl, ⟨hr, r0, r1⟩, min_le_of_right_le (le_of_lt h'), le_max_of_le_left (r2 h)⟩
  · exact ⟨y, rfl, hy, min_le_right _ _, le_max_right _ _⟩

/-- The largest velocity is not much smaller than it must be. -/
theorem peak_ok (hL : Rooted L) (G : Fit v a j g) {x y : ℝ} (hx : Pace v x) (hy : Pace v y) {D : ℝ} (hD : v / 2 ^ 14 ≤ D) :
    ∃ r, g.peak (arith exp) L (.fin x) (.fin y) (.fin D) = .fin r ∧ Pace v r ∧ x ≤ r ∧ y ≤ r ∧ min (v / 4) (D / 64) ≤ r := by
  have hb := fit_small G
  obtain ⟨v1, v2⟩ := G.vel
  norm_num at v1 v2
  obtain ⟨l, hl⟩ : ∃ l, l = max x y := ⟨_, rfl⟩
  have el : (open Classical in if (F.fin x).lt (.fin y) then F.fin y else F.fin x) = .fin l := by
    split_ifs with h
    · rw [hl, max_eq_right (le_of_lt h)]
    · rw [hl, max_eq_left (not_lt.1 h)]
  have sl : Pace v l := by rw [hl]; rcases max_choice x y with h | h <;> rw [h] <;> assumption
  obtain ⟨μ, hμ⟩ : ∃ μ, μ = min (v / 2) (D / 32) := ⟨_, rfl⟩
  have μ1 : μ ≤ v / 2 := hμ ▸ min_le_left _ _
  have μ2 : μ ≤ D / 32 := hμ ▸ min_le_right _ _
  have μ3 : v / 2 ^ 19 ≤ μ := by rw [hμ]; refine le_min ?_ ?_ <;> norm_num at hD ⊢ <;> linarith
  have μ4 : (1:ℝ) / 2 ^ 27 ≤ μ := by
    refine le_trans ?_ μ3
    norm_num
    linarith
  have hup : ∀ m, round24 m = m → l ≤ m → m ≤ 2 * μ →
      ((arith exp).add (g.accDist (arith exp) L (.fin x) (.fin m)) (g.accDist (arith exp) L (.fin m) (.fin y))).le (.fin D) := by
    intro m hm m1 m2
    have xm : x ≤ m := (hl ▸ le_max_left x y).trans m1
    have ym : y ≤ m := (hl ▸ le_max_right x y).trans m1
    have mm : (1:ℝ) / 2 ^ 40 ≤ 2 * μ := by norm_num at μ4 ⊢; linarith
    obtain ⟨d1, e1, p1, q1⟩ := dist_ok (exp := exp) hL G mm (by linarith) ⟨hx.low, xm.trans m2⟩ ⟨hx.low.trans xm, m2⟩
    obtain ⟨d2, e2, p2, q2⟩ := dist_ok (exp := exp) hL G mm (by linarith) ⟨hx.low.trans xm, m2⟩ ⟨hy.low, ym.trans m2⟩
    obtain ⟨s, es, s0, s1⟩ := rnd_nn (z := d1 + d2) (c := 24 * μ) (by linarith) (by linarith) (by
      have : (24:ℝ) * 2 ^ 90 ≤ 2 ^ 100 := by norm_num
      linarith)
    rw [e1, e2]
    show (rnd (d1 + d2)).le _
    rw [es]
    show s ≤ D
    have : (1:ℝ) / 2 ^ 140 ≤ μ := le_trans (by norm_num) μ4
    norm_num at s1 this ⊢
    linarith
  unfold Gen.peak
  rw [el, G.vMax]
  obtain ⟨r, e, hr, r1, r2⟩ := bisect_range (exp := exp) (up := fun mid => ((arith exp).add (g.accDist (arith exp) L (.fin x) mid) (g.accDist (arith exp) L mid (.fin y))).le (.fin D))
    25 sl.f32 G.f32 sl.low sl.high hb
  obtain ⟨r', e', h⟩ := bisect_floor (exp := exp) (up := fun mid => ((arith exp).add (g.accDist (arith exp) L (.fin x) mid) (g.accDist (arith exp) L mid (.fin y))).le (.fin D))
    (μ := μ) (le_trans (by norm_num) μ4) 25 0 (w := v) sl.f32 G.f32 sl.low sl.high hb hup (by linarith) (by simp; linarith)
  obtain rfl : r = r' := by rw [e] at e'; injection e'
  refine ⟨r, e, ⟨hr, sl.low.trans r1, r2⟩, (hl ▸ le_max_left x y).trans r1, (hl ▸ le_max_right x y).trans r1, ?_⟩
  rcases h with h | h
  · refine le_trans (le_of_eq ?_) h
    rw [hμ]
    rcases min_choice (v / 2) (D / 32) with h' | h'
    · rw [h', min_eq_left]
      · ring
      · have := min_eq_left_iff.1 h'; linarith
    · rw [h', min_eq_right]
      · ring
      · have := min_eq_right_iff.1 h'; linarith
  · exfalso
    have hq : (1 + 1 / (2:ℝ) ^ 22) ^ (0 + 25) ≤ 1.1 := by norm_num
    have hw : μ + v / 2 ^ 25 ≤ 1.1 * μ := by
      have : v / 2 ^ 25 = v / 2 ^ 19 / 64 := by ring
      linarith
    have : (μ + v / 2 ^ 25) * (1 + 1 / (2:ℝ) ^ 22) ^ (0 + 25) ≤ 1.1 * μ * 1.1 :=
      mul_le_mul hw hq (by positivity) (by linarith)
    have μ0 : 0 < μ := lt_of_lt_of_le (by positivity) μ4
    linarith

/-! ## Phases of an acceleration -/

theorem sl {c e : ℝ} (h : 1.01 * c + 0.001 ≤ e) (hc : 0 ≤ c) : c + c / 2 ^ 20 + 1 / 2 ^ 140 ≤ e := by
  have : (1:ℝ) / 2 ^ 140 ≤ 0.001 := by norm_num
  have : c / 2 ^ 20 ≤ c / 100 := div_le_div_of_nonneg_left hc (by norm_num) (by norm_num)
  linarith

theorem bd_nonneg {c : ℝ} {x : F} (h : Bd c x) : 0 ≤ c := by
  obtain ⟨r, -, hr⟩ := h
  exact (abs_nonneg r).trans hr

theorem add' {c d : ℝ} (e : ℝ) {x y : F} (hx : Bd c x) (hy : Bd d y) (h : 1.01 * (c + d) + 0.001 ≤ e) (he : e ≤ 2 ^ 90) :
    Bd e ((arith exp).add x y) := by
  have h1 := bd_nonneg hx
  have h2 := bd_nonneg hy
  have : (2:ℝ) ^ 90 ≤ 2 ^ 100 := by norm_num
  exact bd_add e hx hy (sl h (by linarith)) (by linarith)

theorem sub' {c d : ℝ} (e : ℝ) {x y : F} (hx : Bd c x) (hy : Bd d y) (h : 1.01 * (c + d) + 0.001 ≤ e) (he : e ≤ 2 ^ 90) :
    Bd e ((arith exp).sub x y) := add' e hx (bd_neg hy) h he

theorem mul' {c d : ℝ} (e : ℝ) {x y : F} (hx : Bd c x) (hy : Bd d y) (h : 1.01 * (c * d) + 0.001 ≤ e) (he : e ≤ 2 ^ 90) :
    Bd e ((arith exp).mul x y) := by
  have h1 := mul_nonneg (bd_nonneg hx) (bd_nonneg hy)
  have : (2:ℝ) ^ 90 ≤ 2 ^ 100 := by norm_num
  exact bd_mul e hx hy (sl h h1) (by linarith)

theorem div' {c k : ℝ} (e : ℝ) {x : F} (hx : Bd c x) (hk : 0 < k) (h : 1.01 * (c / k) + 0.001 ≤ e) (he : e ≤ 2 ^ 90) :
    Bd e ((arith exp).div x (.fin k)) := by
  have h1 := div_nonneg (bd_nonneg hx) hk.le
  have : (2:ℝ) ^ 90 ≤ 2 ^ 100 := by norm_num
  exact bd_div e hx hk (sl h h1) (by linarith)

theorem bd_fin {c r : ℝ} (h : |r| ≤ c) : Bd c (.fin r) := ⟨r, rfl, h⟩

/-- Jerk times time, once and twice. -/
theorem jerk_ok {J t A B : ℝ} (t0 : 0 ≤ t) (t1 : t ≤ 8) (hA : |J| * t ≤ A) (hB : |J| * (t * t) ≤ B) (hA' : A ≤ 2 ^ 40) (hB' : B ≤ 2 ^ 40) :
    Bd (1.01 * A + 0.001) ((arith exp).mul (.fin J) (.fin t)) ∧
    Bd (1.05 * B + 0.01) ((arith exp).mul ((arith exp).mul (.fin J) (.fin t)) (.fin t)) := by
  have A0 : 0 ≤ A := le_trans (mul_nonneg (abs_nonneg _) t0) hA
  have B0 : 0 ≤ B := le_trans (mul_nonneg (abs_nonneg _) (mul_self_nonneg t)) hB
  have big : (2:ℝ) ^ 40 ≤ 2 ^ 100 := by norm_num
  have hz : |J * t| ≤ A := by rw [abs_mul, abs_of_nonneg t0]; exact hA
  obtain ⟨z, ez, bz⟩ := rnd_err (z := J * t) (by linarith)
  have hz1 : |z| ≤ |J| * t * 1.01 + 1 / 2 ^ 100 := by
    have h1 := abs_sub_abs_le_abs_sub z (J * t)
    rw [show |J * t| = |J| * t by rw [abs_mul, abs_of_nonneg t0]] at h1 bz
    have h2 : |J| * t / 2 ^ 24 ≤ |J| * t / 100 := div_le_div_of_nonneg_left (mul_nonneg (abs_nonneg _) t0) (by norm_num) (by norm_num)
    have h3 : (1:ℝ) / 2 ^ 150 ≤ 1 / 2 ^ 100 := by norm_num
    linarith
  have e1 : (arith exp).mul (.fin J) (.fin t) = .fin z := ez
  rw [e1]
  have n100 : (1:ℝ) / 2 ^ 100 ≤ 0.0001 := by norm_num
  refine ⟨⟨z, rfl, by linarith⟩, ?_⟩
  have hz2 : |z * t| ≤ 1.01 * B + 0.001 := by
    rw [abs_mul, abs_of_nonneg t0]
    have h1 := mul_le_mul_of_nonneg_right hz1 t0
    have h2 : (|J| * t * 1.01 + 1 / 2 ^ 100) * t = 1.01 * (|J| * (t * t)) + 1 / 2 ^ 100 * t := by ring
    have h3 : 1 / 2 ^ 100 * t ≤ 0.0001 * 8 := mul_le_mul n100 t1 t0 (by norm_num)
    linarith
  obtain ⟨y, ey, by'⟩ := rnd_bd hz2 (by linarith)
  refine ⟨y, ey, by'.trans (sl ?_ (by linarith))⟩
  linarith

/-- What `generate_acceleration` makes. -/
structure AccOk (v a j X x y : ℝ) (c : AccCalc) (T : F) : Prop where
  xStart : Bd X c.xStart
  vStart : c.vStart = .fin x
  xEnd : Bd (1.1 * X + 7 * v + 1) c.xEnd
  vEnd : c.vEnd = .fin y
  aM : ∃ A, c.aM = .fin A ∧ |A| = a
  jM : ∃ J, c.jM = .fin J ∧ |J| = j
  times : ∃ t1 t2 t3, c.t1 = .fin t1 ∧ c.t2 = .fin t2 ∧ c.t3 = .fin t3 ∧ T = .fin t3 ∧ 0 ≤ t1 ∧ t1 ≤ 2.1 ∧ 0 ≤ t2 ∧ t2 ≤ 2.1 ∧ 0 ≤ t3 ∧ t3 ≤ 5 ∧
    j * t1 ≤ 1.3 * a + 13 ∧ j * (t1 * t1) ≤ 1.7 * v + 0.01 ∧ (t2 ≤ t1 ∨ a * t1 ≤ 1.01 * v ∧ a * (t2 - t1) ≤ 1.01 * v + 0.11) ∧
    (t2 ≤ t3 → t3 - t2 ≤ 2.1 ∧ j * (t3 - t2) ≤ 1.3 * a + 13 ∧ j * ((t3 - t2) * (t3 - t2)) ≤ 1.7 * v + 0.01)

set_option maxHeartbeats 1000000 in
theorem acc_ok (hL : Rooted L) (G : Fit v a j g) {X x y : ℝ} {xs : F} (hX : Bd X xs) (hX' : X ≤ 2 ^ 40) (hx : 0 ≤ x ∧ x ≤ v) (hy : 0 ≤ y ∧ y ≤ v) :
    AccOk v a j X x y (g.acceleration (arith exp) L xs (.fin x) (.fin y)).1 (g.acceleration (arith exp) L xs (.fin x) (.fin y)).2 := by
  obtain ⟨v1, v2⟩ := G.vel
  obtain ⟨a1, a2⟩ := G.acc
  obtain ⟨j1, j2⟩ := G.jerk
  obtain ⟨tc, vd, e1, e2, tc0, tc1, tc2, tc3⟩ := tc_ok (exp := exp) G
  obtain ⟨d, e3, d0, d1⟩ := diff_ok (exp := exp) G.f32 v2 hx hy
  norm_num at v1 v2 a2 j2
  have ha : 0 < a := by linarith
  have hj : 0 < j := by linarith
  have hjtc : j * tc ≤ 1.001 * a := by
    have h1 := le_abs_self (tc - a / j)
    have h2 : a / j / 2 ^ 24 ≤ a / j / 1000 := div_le_div_of_nonneg_left (by positivity) (by norm_num) (by norm_num)
    have h3 : tc ≤ a / j * 1.001 := by linarith
    have h4 := mul_le_mul_of_nonneg_left h3 hj.le
    have h5 : j * (a / j * 1.001) = 1.001 * a := by field_simp
    linarith
  -- the three times
  obtain ⟨t1, t2, t3, et, k1, k2, k3, k4, k5, k6, k7, k8, k9, k10⟩ : ∃ t1 t2 t3 : ℝ,
      (open Classical in if (F.fin vd).le (.fin d) then
        ((F.fin tc), (arith exp).add (.fin tc) ((arith exp).sub ((arith exp).div (.fin d) (.fin a)) (.fin tc)),
          (arith exp).add ((arith exp).mul (.fin 2) (.fin tc)) ((arith exp).sub ((arith exp).div (.fin d) (.fin a)) (.fin tc)))
       else (L.sqrt ((arith exp).div (.fin d) (.fin j)), L.sqrt ((arith exp).div (.fin d) (.fin j)),
          (arith exp).mul (.fin 2) (L.sqrt ((arith exp).div (.fin d) (.fin j))))) = (F.fin t1, F.fin t2, F.fin t3) ∧
      0 ≤ t1 ∧ t1 ≤ 2.1 ∧ 0 ≤ t2 ∧ t2 ≤ 2.1 ∧ 0 ≤ t3 ∧ t3 ≤ 5 ∧
      j * t1 ≤ 1.3 * a + 13 ∧ j * (t1 * t1) ≤ 1.7 * v + 0.01 ∧ (t2 ≤ t1 ∨ a * t1 ≤ 1.01 * v ∧ a * (t2 - t1) ≤ 1.01 * v + 0.11) ∧
      (t2 ≤ t3 → t3 - t2 ≤ 2.1 ∧ j * (t3 - t2) ≤ 1.3 * a + 13 ∧ j * ((t3 - t2) * (t3 - t2)) ≤ 1.7 * v + 0.01) := by
    split_ifs with h
    · have h' : vd ≤ d := h
      obtain ⟨q, eq, q0, q1⟩ := quot_ok (exp := exp) d0 ha fix_two (by norm_num) (show d ≤ 2 * a by linarith)
      have haq : a * q ≤ 1.01 * d + 0.001 := by
        have hdq : d / a ≤ 2 := by rw [div_le_iff₀ ha]; linarith
        have hd0 : 0 ≤ d / a := div_nonneg d0 ha.le
        obtain ⟨q', eq', bq'⟩ := rnd_err (z := d / a) (by
          rw [abs_of_nonneg hd0]
          exact hdq.trans (by norm_num))
        rw [div_rnd ha.ne'] at eq
        obtain rfl : q = q' := by rw [eq] at eq'; injection eq'
        rw [abs_of_nonneg hd0] at bq'
        have w1 := le_abs_self (q - d / a)
        have w2 : d / a / 2 ^ 24 ≤ d / a / 100 := div_le_div_of_nonneg_left hd0 (by norm_num) (by norm_num)
        have w3 : (1:ℝ) / 2 ^ 150 ≤ 1 / 2 ^ 100 := by norm_num
        have w4 : q ≤ d / a * 1.01 + 1 / 2 ^ 100 := by linarith
        have w5 := mul_le_mul_of_nonneg_left w4 ha.le
        have w6 : a * (d / a * 1.01 + 1 / 2 ^ 100) = 1.01 * d + a * (1 / 2 ^ 100) := by field_simp
        have w7 : a * (1 / 2 ^ 100) ≤ 16384 * (1 / 2 ^ 100) := mul_le_mul_of_nonneg_right a2 (by positivity)
        have w8 : (16384:ℝ) * (1 / 2 ^ 100) ≤ 0.001 := by norm_num
        linarith
      have k1 : a * tc ≤ 1.001 * d := by
        have := tc2.trans (mul_le_mul_of_nonneg_right h' (show (0:ℝ) ≤ 1 + 1 / 2 ^ 23 by positivity))
        have h2 : d * (1 + 1 / 2 ^ 23) ≤ d * 1.001 := mul_le_mul_of_nonneg_left (by norm_num) d0
        linarith
      have htc : tc ≤ 2.01 := by
        have k3 : a * tc ≤ a * 2.01 := by linarith
        exact le_of_mul_le_mul_left k3 ha
      obtain ⟨tm, em, bm⟩ := apx (z := q + -tc) (z' := q - tc) (c := 2.01) (d := 0) (1 / 2 ^ 20) (by simp [sub_eq_add_neg])
        (by rw [abs_le]; constructor <;> linarith) (by norm_num) (by norm_num)
      have ftc : round24 tc = tc := by
        rw [G.aMax, G.jMax, div_rnd hj.ne'] at e1
        rw [(rnd_fin e1).1]; exact round24_idem _
      have ftcn : round24 (-tc) = -tc := by rw [round24_neg, ftc]
      have tm0 : -tc ≤ tm := le_rnd_fix ftcn (by linarith) em
      have bm' := abs_le.1 bm
      obtain ⟨u2, eu2, bu2⟩ := apx (z := tc + tm) (z' := q) (c := 2) (d := 1 / 2 ^ 20) (1 / 2 ^ 19) (by rw [abs_le]; constructor <;> linarith)
        (by rw [abs_of_nonneg q0]; exact q1) (by norm_num) (by norm_num)
      have u20 : 0 ≤ u2 := le_rnd_fix round24_zero (by linarith) eu2
      obtain ⟨w, ew, bw⟩ := apx (z := 2 * tc) (z' := 2 * tc) (c := 4.02) (d := 0) (1 / 2 ^ 20) (by simp)
        (by rw [abs_of_nonneg (by linarith)]; linarith) (by norm_num) (by norm_num)
      have w0 : tc ≤ w := le_rnd_fix ftc (by linarith) ew
      have bw' := abs_le.1 bw
      obtain ⟨u3, eu3, bu3⟩ := apx (z := w + tm) (z' := q + tc) (c := 4.01) (d := 1 / 2 ^ 19) (1 / 2 ^ 18)
        (by
          have : (1:ℝ) / 2 ^ 19 = 1 / 2 ^ 20 + 1 / 2 ^ 20 := by norm_num
          rw [abs_le]; constructor <;> linarith)
        (by rw [abs_of_nonneg (by linarith)]; linarith) (by norm_num) (by norm_num)
      have u30 : 0 ≤ u3 := le_rnd_fix round24_zero (by linarith) eu3
      have b2 := abs_le.1 bu2
      have b3 := abs_le.1 bu3
      have c17 : (1:ℝ) / 2 ^ 18 + 1 / 2 ^ 19 ≤ 1 / 2 ^ 17 := by norm_num
      have j17 : j * (1 / 2 ^ 17) ≤ 2 := by
        have : j * (1 / 2 ^ 17) ≤ 262144 * (1 / 2 ^ 17) := mul_le_mul_of_nonneg_right j2 (by positivity)
        norm_num at this ⊢; linarith
      have a19 : a * (1 / 2 ^ 19) ≤ 0.1 := by
        have : a * (1 / 2 ^ 19) ≤ 16384 * (1 / 2 ^ 19) := mul_le_mul_of_nonneg_right a2 (by positivity)
        norm_num at this ⊢; linarith
      have jtt : j * (tc * tc) ≤ 1.01 * v := by
        have h1 := mul_le_mul_of_nonneg_right hjtc tc0
        have : j * (tc * tc) = j * tc * tc := by ring
        linarith
      refine ⟨tc, u2, u3, ?_, tc0, by linarith, u20, ?_, u30, ?_, by linarith, by linarith, .inr ⟨by linarith, ?_⟩, fun hle => ?_⟩
      · rw [eq]
        have : (arith exp).sub (.fin q) (.fin tc) = .fin tm := em
        rw [this]
        have h2 : (arith exp).mul (.fin 2) (.fin tc) = .fin w := ew
        rw [h2]
        show (F.fin tc, rnd (tc + tm), rnd (w + tm)) = _
        rw [eu2, eu3]
      · norm_num at b2; linarith
      · norm_num at b3; linarith
      · have : a * (u2 - tc) ≤ a * (q + 1 / 2 ^ 19) := mul_le_mul_of_nonneg_left (by linarith) ha.le
        have h2 : a * (q + 1 / 2 ^ 19) = a * q + a * (1 / 2 ^ 19) := by ring
        linarith
      · have hδ : u3 - u2 ≤ tc + 1 / 2 ^ 17 := by linarith
        have hδ0 : 0 ≤ u3 - u2 := by linarith
        refine ⟨by norm_num at hδ; linarith, ?_, ?_⟩
        · have := mul_le_mul_of_nonneg_left hδ hj.le
          have h2 : j * (tc + 1 / 2 ^ 17) = j * tc + j * (1 / 2 ^ 17) := by ring
          linarith
        · have h1 : (u3 - u2) * (u3 - u2) ≤ (tc + 1 / 2 ^ 17) * (tc + 1 / 2 ^ 17) := mul_le_mul hδ hδ hδ0 (by positivity)
          have h2 : (tc + 1 / 2 ^ 17) * (tc + 1 / 2 ^ 17) ≤ 1.1 * (tc * tc) + 11 * (1 / 2 ^ 17 * (1 / 2 ^ 17)) := by
            have := sq_nonneg (tc - 10 * (1 / 2 ^ 17))
            linarith
          have h3 := mul_le_mul_of_nonneg_left (h1.trans h2) hj.le
          have h4 : j * (1.1 * (tc * tc) + 11 * (1 / 2 ^ 17 * (1 / 2 ^ 17))) = 1.1 * (j * (tc * tc)) + j * (1 / 2 ^ 17) * (11 / 2 ^ 17) := by ring
          have h5 : j * (1 / 2 ^ 17) * (11 / 2 ^ 17) ≤ 2 * (11 / 2 ^ 17) := mul_le_mul_of_nonneg_right j17 (by positivity)
          norm_num at h5
          linarith
    · have h' : d ≤ vd := le_of_lt (not_le.1 h)
      obtain ⟨q, eq, q0, q1⟩ := quot_ok (exp := exp) d0 hj fix_half (by norm_num) (show d ≤ 1 / 2 * j by linarith)
      obtain ⟨s, es, s0, s1, s2⟩ := root_ok hL q0 q1
      have hjq : j * q ≤ 1.001 * d + 0.001 := by
        have hdq : d / j ≤ 1 / 2 := by rw [div_le_iff₀ hj]; linarith
        have hd0 : 0 ≤ d / j := div_nonneg d0 hj.le
        obtain ⟨q', eq', bq'⟩ := rnd_err (z := d / j) (by
          rw [abs_of_nonneg hd0]
          exact hdq.trans (by norm_num))
        rw [div_rnd hj.ne'] at eq
        obtain rfl : q = q' := by rw [eq] at eq'; injection eq'
        rw [abs_of_nonneg hd0] at bq'
        have w1 := le_abs_self (q - d / j)
        have w2 : d / j / 2 ^ 24 ≤ d / j / 1000 := div_le_div_of_nonneg_left hd0 (by norm_num) (by norm_num)
        have w3 : (1:ℝ) / 2 ^ 150 ≤ 1 / 2 ^ 100 := by norm_num
        have w4 : q ≤ d / j * 1.001 + 1 / 2 ^ 100 := by linarith
        have w5 := mul_le_mul_of_nonneg_left w4 hj.le
        have w6 : j * (d / j * 1.001 + 1 / 2 ^ 100) = 1.001 * d + j * (1 / 2 ^ 100) := by field_simp
        have w7 : j * (1 / 2 ^ 100) ≤ 262144 * (1 / 2 ^ 100) := mul_le_mul_of_nonneg_right j2 (by positivity)
        have w8 : (262144:ℝ) * (1 / 2 ^ 100) ≤ 0.001 := by norm_num
        linarith
      have jss : j * (s * s) ≤ 1.502 * d + 0.002 := by
        have h1 := mul_le_mul_of_nonneg_left s2 hj.le
        have h2 : j * (1.5 * q + 1 / 2 ^ 30) = 1.5 * (j * q) + j * (1 / 2 ^ 30) := by ring
        have h3 : j * (1 / 2 ^ 30) ≤ 262144 * (1 / 2 ^ 30) := mul_le_mul_of_nonneg_right j2 (by positivity)
        norm_num at h3
        linarith
      have jd : j * d ≤ 1.01 * (a * a) := by
        have h1 := mul_le_mul_of_nonneg_left (h'.trans tc3) hj.le
        have h2 : j * (a * tc * (1 + 1 / 2 ^ 24)) = a * (j * tc) * (1 + 1 / 2 ^ 24) := by ring
        have h3 : a * (j * tc) ≤ a * (1.001 * a) := mul_le_mul_of_nonneg_left hjtc ha.le
        have h4 : a * (j * tc) * (1 + 1 / 2 ^ 24) ≤ a * (1.001 * a) * (1 + 1 / 2 ^ 24) := mul_le_mul_of_nonneg_right h3 (by positivity)
        have h5 : a * (1.001 * a) * (1 + 1 / 2 ^ 24) ≤ a * (1.001 * a) * 1.0001 := mul_le_mul_of_nonneg_left (by norm_num) (by positivity)
        have h6 : 0 < a * a := by positivity
        linarith
      have js : j * s ≤ 1.3 * a + 12 := by
        by_contra hc
        rw [not_le] at hc
        have h1 : (1.3 * a + 12) * (1.3 * a + 12) < (j * s) * (j * s) := mul_lt_mul'' (by linarith) (by linarith) (by linarith) (by linarith)
        have h2 : (j * s) * (j * s) = j * (j * (s * s)) := by ring
        have h3 := mul_le_mul_of_nonneg_left s2 hj.le
        have h4 : j * (1.5 * q + 1 / 2 ^ 30) = 1.5 * (j * q) + j * (1 / 2 ^ 30) := by ring
        have h5 : j * (s * s) ≤ 1.502 * d + 0.005 + j * (1 / 2 ^ 30) := by linarith
        -- a sharper bound of the small parts
        have h6 : j * (s * s) ≤ 1.502 * d + j * (1 / 2 ^ 29) := by
          have w6 : j * q ≤ 1.001 * d + j * (1 / 2 ^ 100) := by
            have hdq : d / j ≤ 1 / 2 := by rw [div_le_iff₀ hj]; linarith
            have hd0 : 0 ≤ d / j := div_nonneg d0 hj.le
            obtain ⟨q', eq', bq'⟩ := rnd_err (z := d / j) (by
              rw [abs_of_nonneg hd0]
              exact hdq.trans (by norm_num))
            rw [div_rnd hj.ne'] at eq
            obtain rfl : q = q' := by rw [eq] at eq'; injection eq'
            rw [abs_of_nonneg hd0] at bq'
            have w1 := le_abs_self (q - d / j)
            have w2 : d / j / 2 ^ 24 ≤ d / j / 1000 := div_le_div_of_nonneg_left hd0 (by norm_num) (by norm_num)
            have w3 : (1:ℝ) / 2 ^ 150 ≤ 1 / 2 ^ 100 := by norm_num
            have w4 : q ≤ d / j * 1.001 + 1 / 2 ^ 100 := by linarith
            have w5 := mul_le_mul_of_nonneg_left w4 hj.le
            have w6 : j * (d / j * 1.001 + 1 / 2 ^ 100) = 1.001 * d + j * (1 / 2 ^ 100) := by field_simp
            linarith
          have w7 : j * (1.5 * (1 / 2 ^ 100) + 1 / 2 ^ 30) ≤ j * (1 / 2 ^ 29) := mul_le_mul_of_nonneg_left (by norm_num) hj.le
          have w8 : j * (1.5 * (1 / 2 ^ 100) + 1 / 2 ^ 30) = 1.5 * (j * (1 / 2 ^ 100)) + j * (1 / 2 ^ 30) := by ring
          linarith
        have h7 := mul_le_mul_of_nonneg_left h6 hj.le
        have h8 : j * (1.502 * d + j * (1 / 2 ^ 29)) = 1.502 * (j * d) + j * j * (1 / 2 ^ 29) := by ring
        have h9 : j * j * (1 / 2 ^ 29) ≤ 262144 * 262144 * (1 / 2 ^ 29) := mul_le_mul_of_nonneg_right (mul_le_mul j2 j2 hj.le (by norm_num)) (by positivity)
        norm_num at h9
        have h10 : 0 < a * a := by positivity
        have h11 : (1.3 * a + 12) * (1.3 * a + 12) = 1.69 * (a * a) + 31.2 * a + 144 := by ring
        have h12 : j * j / 536870912 ≤ 128 := by linarith
        linarith
      obtain ⟨t, et, bt⟩ := apx (z := 2 * s) (z' := 2 * s) (c := 3) (d := 0) (1 / 2 ^ 20) (by simp)
        (by rw [abs_of_nonneg (by linarith)]; linarith) (by norm_num) (by norm_num)
      have t0 : 0 ≤ t := le_rnd_fix round24_zero (by linarith) et
      have bt' := abs_le.1 bt
      have j20 : j * (1 / 2 ^ 20) ≤ 0.25 := by
        have : j * (1 / 2 ^ 20) ≤ 262144 * (1 / 2 ^ 20) := mul_le_mul_of_nonneg_right j2 (by positivity)
        norm_num at this ⊢; linarith
      refine ⟨s, s, t, ?_, s0, by linarith, s0, by linarith, t0, by norm_num at bt'; linarith, by linarith, by linarith, .inl le_rfl, fun hle => ?_⟩
      · rw [eq, es]
        show (F.fin s, F.fin s, rnd (2 * s)) = _
        rw [et]
      · have hδ : t - s ≤ s + 1 / 2 ^ 20 := by linarith
        have hδ0 : 0 ≤ t - s := by linarith
        refine ⟨by norm_num at hδ; linarith, ?_, ?_⟩
        · have := mul_le_mul_of_nonneg_left hδ hj.le
          have h2 : j * (s + 1 / 2 ^ 20) = j * s + j * (1 / 2 ^ 20) := by ring
          linarith
        · have h1 : (t - s) * (t - s) ≤ (s + 1 / 2 ^ 20) * (s + 1 / 2 ^ 20) := mul_le_mul hδ hδ hδ0 (by positivity)
          have h2 : (s + 1 / 2 ^ 20) * (s + 1 / 2 ^ 20) ≤ 1.1 * (s * s) + 11 * (1 / 2 ^ 20 * (1 / 2 ^ 20)) := by
            have := sq_nonneg (s - 10 * (1 / 2 ^ 20))
            linarith
          have h3 := mul_le_mul_of_nonneg_left (h1.trans h2) hj.le
          have h4 : j * (1.1 * (s * s) + 11 * (1 / 2 ^ 20 * (1 / 2 ^ 20))) = 1.1 * (j * (s * s)) + j * (1 / 2 ^ 20) * (11 / 2 ^ 20) := by ring
          have h5 : j * (1 / 2 ^ 20) * (11 / 2 ^ 20) ≤ 0.25 * (11 / 2 ^ 20) := mul_le_mul_of_nonneg_right j20 (by positivity)
          norm_num at h5
          linarith
  have big : (2:ℝ) ^ 40 + 2 ^ 12 ≤ 2 ^ 90 := by norm_num
  have X0 := bd_nonneg hX
  have hsum : Bd (2.03 * v) ((arith exp).add (.fin x) (.fin y)) := by
    refine bd_add (c := v) (d := v) _ (bd_fin (by rw [abs_of_nonneg hx.1]; exact hx.2)) (bd_fin (by rw [abs_of_nonneg hy.1]; exact hy.2)) ?_ ?_
    · have : (1:ℝ) / 2 ^ 140 ≤ 0.00001 := by norm_num
      have h2 : (v + v) / 2 ^ 20 ≤ (v + v) / 1000 := div_le_div_of_nonneg_left (by linarith) (by norm_num) (by norm_num)
      linarith
    · exact le_trans (b := 512) (by linarith) (by norm_num)
  have hprod := mul' (exp := exp) (10.3 * v + 0.1) hsum (bd_fin (r := t3) (c := 5) (by rw [abs_of_nonneg k5]; exact k6)) (by linarith)
    (le_trans (b := 4096) (by linarith) (by norm_num))
  have hdist := div' (exp := exp) (5.3 * v + 0.1) hprod (k := 2) (by norm_num) (by linarith) (le_trans (b := 4096) (by linarith) (by norm_num))
  unfold Gen.acceleration
  dsimp only
  rw [e1, e2, e3, G.aMax, G.jMax, et]
  dsimp only
  refine ⟨hX, rfl, add' _ hX hdist (by linarith) (by norm_num at big hX' ⊢; linarith), rfl, ?_, ?_,
    ⟨t1, t2, t3, rfl, rfl, rfl, rfl, k1, k2, k3, k4, k5, k6, k7, k8, k9, k10⟩⟩
  · dsimp only
    split_ifs
    · exact ⟨a, rfl, abs_of_pos ha⟩
    · exact ⟨-a, rfl, by rw [abs_neg, abs_of_pos ha]⟩
  · dsimp only
    split_ifs
    · exact ⟨j, rfl, abs_of_pos hj⟩
    · exact ⟨-j, rfl, by rw [abs_neg, abs_of_pos hj]⟩

/-! ## Targets of an acceleration -/

theorem bd_le {c d : ℝ} (h : c ≤ d) {r : ℝ} (hr : |r| ≤ c) : Bd d (.fin r) := ⟨r, rfl, hr.trans h⟩

/-- A rounded interval of time, times a limit. -/
theorem span_ok {δ : ℝ} (h0 : 0 ≤ δ) (h1 : δ ≤ 5) : ∃ s, rnd δ = .fin s ∧ 0 ≤ s ∧ s ≤ 1.001 * δ + 0.001 ∧
    (∀ k C, 0 ≤ k → k ≤ 2 ^ 18 → k * δ ≤ C → k * s ≤ 1.01 * C + 0.001) ∧
    (∀ k C, 0 ≤ k → k ≤ 2 ^ 18 → k * (δ * δ) ≤ C → k * (s * s) ≤ 1.01 * C + 0.001) := by
  obtain ⟨s, e, b⟩ := rnd_err (z := δ) (by rw [abs_of_nonneg h0]; exact h1.trans (by norm_num))
  have s0 : 0 ≤ s := le_rnd_fix round24_zero h0 e
  rw [abs_of_nonneg h0] at b
  have w1 := le_abs_self (s - δ)
  have w2 : δ / 2 ^ 24 ≤ δ / 1000 := div_le_div_of_nonneg_left h0 (by norm_num) (by norm_num)
  have w3 : (1:ℝ) / 2 ^ 150 ≤ 1 / 2 ^ 100 := by norm_num
  have w4 : s ≤ 1.001 * δ + 1 / 2 ^ 100 := by linarith
  have w5 : (1:ℝ) / 2 ^ 100 ≤ 0.001 := by norm_num
  refine ⟨s, e, s0, by linarith, fun k C k0 k1 hk => ?_, fun k C k0 k1 hk => ?_⟩
  · have h2 := mul_le_mul_of_nonneg_left w4 k0
    have h3 : k * (1.001 * δ + 1 / 2 ^ 100) = 1.001 * (k * δ) + k * (1 / 2 ^ 100) := by ring
    have h4 : k * (1 / 2 ^ 100) ≤ 2 ^ 18 * (1 / 2 ^ 100) := mul_le_mul_of_nonneg_right k1 (by positivity)
    have h5 : (2:ℝ) ^ 18 * (1 / 2 ^ 100) ≤ 0.001 := by norm_num
    have h6 : 0 ≤ k * δ := mul_nonneg k0 h0
    linarith
  · have hs : s * s ≤ (1.001 * δ + 1 / 2 ^ 100) * (1.001 * δ + 1 / 2 ^ 100) := mul_le_mul w4 w4 s0 (by positivity)
    have hs' : (1.001 * δ + 1 / 2 ^ 100) * (1.001 * δ + 1 / 2 ^ 100) ≤ 1.01 * (δ * δ) + 11 * (1 / 2 ^ 100) := by
      have h1 : (1.001 * δ + 1 / 2 ^ 100) * (1.001 * δ + 1 / 2 ^ 100) = 1.002001 * (δ * δ) + (2.002 * δ + 1 / 2 ^ 100) * (1 / 2 ^ 100) := by ring
      have h2 : (2.002 * δ + 1 / 2 ^ 100) * (1 / 2 ^ 100) ≤ 11 * (1 / 2 ^ 100) := mul_le_mul_of_nonneg_right (by linarith) (by positivity)
      have h3 : 0 ≤ δ * δ := mul_self_nonneg δ
      linarith
    have h2 := mul_le_mul_of_nonneg_left (hs.trans hs') k0
    have h3 : k * (1.01 * (δ * δ) + 11 * (1 / 2 ^ 100)) = 1.01 * (k * (δ * δ)) + k * (11 * (1 / 2 ^ 100)) := by ring
    have h4 : k * (11 * (1 / 2 ^ 100)) ≤ 2 ^ 18 * (11 * (1 / 2 ^ 100)) := mul_le_mul_of_nonneg_right k1 (by positivity)
    have h5 : (2:ℝ) ^ 18 * (11 * (1 / 2 ^ 100)) ≤ 0.001 := by norm_num
    linarith

set_option maxHeartbeats 1000000 in
theorem acc_calc (G : Fit v a j g) {X x y : ℝ} {c : AccCalc} {T : F} (hx : 0 ≤ x ∧ x ≤ v) (hy : 0 ≤ y ∧ y ≤ v) (hX : X ≤ 2 ^ 40)
    (H : AccOk v a j X x y c T) (t : ℝ) :
    BdAxis (1.2 * X + 11 * v + 2) (2.7 * v + 0.2) (1.4 * a + 14) j (c.calculate (arith exp) (.fin t)) := by
  obtain ⟨v1, v2⟩ := G.vel
  obtain ⟨a1, a2⟩ := G.acc
  obtain ⟨j1, j2⟩ := G.jerk
  obtain ⟨hXs, hvs, hxe, hve, ⟨A, hA, eA⟩, ⟨J, hJ, eJ⟩, t1, t2, t3, et1, et2, et3, -, k1, k2, k3, k4, k5, k6, k7, k8, k9, k10⟩ := H
  have X0 := bd_nonneg hXs
  have j2' := j2
  have a2' := a2
  norm_num at v1 v2 a2 j2
  have ha : 0 < a := by linarith
  have hj : 0 < j := by linarith
  have big : (2:ℝ) ^ 40 * 2 + 2 ^ 20 ≤ 2 ^ 90 := by norm_num
  have b14 : (2:ℝ) ^ 40 * 2 + 2 ^ 20 = 2 ^ 40 * 2 + 1048576 := by norm_num
  have b20 : (1048576:ℝ) ≤ 2 ^ 90 := by norm_num
  have bb : (1048576:ℝ) ≤ 2 ^ 40 := by norm_num
  have bvs : Bd v c.vStart := hvs ▸ bd_fin (by rw [abs_of_nonneg hx.1]; exact hx.2)
  have bve : Bd v c.vEnd := hve ▸ bd_fin (by rw [abs_of_nonneg hy.1]; exact hy.2)
  have b0 : ∀ {d : ℝ}, 0 ≤ d → Bd d (.fin 0) := fun h => ⟨0, rfl, by rwa [abs_zero]⟩
  unfold AccCalc.calculate
  split_ifs with n1 n2 n3 n4
  · exact ⟨bd_weaken hXs (by linarith), bd_weaken bvs (by linarith), b0 (by linarith), b0 hj.le⟩
  · have t0 : 0 ≤ t := not_lt.1 n1
    rw [et1] at n2
    have tle : t ≤ t1 := n2
    obtain ⟨z1, z2⟩ := jerk_ok (exp := exp) (J := J) (t := t) (A := 1.3 * a + 13) (B := 1.7 * v + 0.01) t0 (by linarith)
      (by rw [eJ]; exact (mul_le_mul_of_nonneg_left tle hj.le).trans k7)
      (by rw [eJ]; exact (mul_le_mul_of_nonneg_left (mul_le_mul tle tle t0 k1) hj.le).trans k8) (by linarith) (by linarith)
    have bt : Bd 2.1 (.fin t) := bd_fin (by rw [abs_of_nonneg t0]; linarith)
    rw [hJ]
    have z3 := mul' (exp := exp) (3.8 * v + 0.05) z2 bt (by linarith) (by linarith)
    have z4 := div' (exp := exp) (0.65 * v + 0.02) z3 (k := 6) (by norm_num) (by linarith) (by linarith)
    have z5 := div' (exp := exp) (0.91 * v + 0.02) z2 (k := 2) (by norm_num) (by linarith) (by linarith)
    have z6 := mul' (exp := exp) (2.2 * v + 0.01) bvs bt (by linarith) (by linarith)
    have z7 := add' (exp := exp) (2.9 * v + 0.05) z6 z4 (by linarith) (by linarith)
    exact ⟨add' _ hXs z7 (by linarith) (by linarith), add' _ bvs z5 (by linarith) (by linarith), bd_weaken z1 (by linarith), bd_fin eJ.le⟩
  · have tgt : t1 < t := by rw [et1] at n2; exact not_le.1 n2
    have tle : t ≤ t2 := by rw [et2] at n3; exact n3
    obtain ⟨m1, m2⟩ := k9.resolve_left (by linarith)
    obtain ⟨s, es, s0, s1, s2, -⟩ := span_ok (δ := t - t1) (by linarith) (by linarith)
    have m3 : a * (t - t1) ≤ 1.01 * v + 0.11 := (mul_le_mul_of_nonneg_left (by linarith) ha.le).trans m2
    have m4 := s2 a _ ha.le (by norm_num; linarith) m3
    obtain ⟨-, z2⟩ := jerk_ok (exp := exp) (J := J) (t := t1) (A := 1.3 * a + 13) (B := 1.7 * v + 0.01) k1 (by linarith)
      (by rw [eJ]; exact k7) (by rw [eJ]; exact k8) (by linarith) (by linarith)
    have bt : Bd 2.1 (.fin t1) := bd_fin (by rw [abs_of_nonneg k1]; linarith)
    have bs : Bd 2.2 (.fin s) := bd_fin (by rw [abs_of_nonneg s0]; linarith)
    have ed : (arith exp).sub (.fin t) c.t1 = .fin s := by
      rw [et1]
      show rnd (t + -t1) = _
      rw [← sub_eq_add_neg, es]
    dsimp only
    rw [ed, hJ, hA, et1]
    have z3 := mul' (exp := exp) (3.8 * v + 0.05) z2 bt (by linarith) (by linarith)
    have z4 := div' (exp := exp) (0.65 * v + 0.02) z3 (k := 6) (by norm_num) (by linarith) (by linarith)
    have z6 := mul' (exp := exp) (2.2 * v + 0.01) bvs bt (by linarith) (by linarith)
    have z7 := add' (exp := exp) (2.9 * v + 0.05) z6 z4 (by linarith) (by linarith)
    have bAt : Bd (1.03 * v + 0.01) ((arith exp).mul (.fin A) (.fin t1)) := by
      obtain ⟨z, ez, bz⟩ := rnd_bd (z := A * t1) (c := 1.01 * v) (by rw [abs_mul, eA, abs_of_nonneg k1]; exact m1) (le_trans (b := 1048576) (by linarith) (by norm_num))
      exact ⟨z, ez, bz.trans (sl (by linarith) (by linarith))⟩
    have bAs : Bd (1.04 * v + 0.13) ((arith exp).mul (.fin A) (.fin s)) := by
      obtain ⟨z, ez, bz⟩ := rnd_bd (z := A * s) (c := 1.01 * (1.01 * v + 0.11) + 0.001) (by rw [abs_mul, eA, abs_of_nonneg s0]; exact m4) (le_trans (b := 1048576) (by linarith) (by norm_num))
      exact ⟨z, ez, bz.trans (sl (by linarith) (by linarith))⟩
    have y1 := div' (exp := exp) (0.53 * v + 0.01) bAt (k := 2) (by norm_num) (by linarith) (by linarith)
    have y2 := add' (exp := exp) (1.55 * v + 0.02) bvs y1 (by linarith) (by linarith)
    have y3 := mul' (exp := exp) (3.5 * v + 0.06) y2 bs (by linarith) (by linarith)
    have y4 := add' (exp := exp) (6.5 * v + 0.12) z7 y3 (by linarith) (by linarith)
    have y5 := mul' (exp := exp) (2.33 * v + 0.3) bAs bs (by linarith) (by linarith)
    have y6 := div' (exp := exp) (1.18 * v + 0.16) y5 (k := 2) (by norm_num) (by linarith) (by linarith)
    have y7 := add' (exp := exp) (7.8 * v + 0.3) y4 y6 (by linarith) (by linarith)
    have y8 := add' (exp := exp) (1.6 * v + 0.15) y1 bAs (by linarith) (by linarith)
    exact ⟨add' _ hXs y7 (by linarith) (by linarith), add' _ bvs y8 (by linarith) (by linarith), bd_fin (by linarith), b0 hj.le⟩
  · have tgt : t2 < t := by rw [et2] at n3; exact not_le.1 n3
    have tle : t ≤ t3 := by rw [et3] at n4; exact n4
    obtain ⟨m0, m1, m2⟩ := k10 (by linarith)
    obtain ⟨s, es, s0, s1, s2, s3⟩ := span_ok (δ := t3 - t) (by linarith) (by linarith)
    have m3 := s2 j _ hj.le j2' ((mul_le_mul_of_nonneg_left (show t3 - t ≤ t3 - t2 by linarith) hj.le).trans m1)
    have m4 := s3 j _ hj.le j2' ((mul_le_mul_of_nonneg_left (mul_le_mul (show t3 - t ≤ t3 - t2 by linarith) (show t3 - t ≤ t3 - t2 by linarith) (by linarith) (by linarith)) hj.le).trans m2)
    obtain ⟨z1, z2⟩ := jerk_ok (exp := exp) (J := J) (t := s) (A := 1.01 * (1.3 * a + 13) + 0.001) (B := 1.01 * (1.7 * v + 0.01) + 0.001) s0 (by linarith)
      (by rw [eJ]; exact m3) (by rw [eJ]; exact m4) (by linarith) (by linarith)
    have bs : Bd 2.2 (.fin s) := bd_fin (by rw [abs_of_nonneg s0]; linarith)
    have ed : (arith exp).sub c.t3 (.fin t) = .fin s := by
      rw [et3]
      show rnd (t3 + -t) = _
      rw [← sub_eq_add_neg, es]
    dsimp only
    rw [ed, hJ]
    have z3 := mul' (exp := exp) (4.05 * v + 0.08) z2 bs (by linarith) (by linarith)
    have z4 := div' (exp := exp) (0.7 * v + 0.03) z3 (k := 6) (by norm_num) (by linarith) (by linarith)
    have z5 := div' (exp := exp) (0.93 * v + 0.03) z2 (k := 2) (by norm_num) (by linarith) (by linarith)
    have z6 := mul' (exp := exp) (2.3 * v + 0.01) bve bs (by linarith) (by linarith)
    have z7 := sub' (exp := exp) (1.12 * X + 9.4 * v + 1.1) hxe z6 (by linarith) (by linarith)
    exact ⟨add' _ z7 z4 (by linarith) (by linarith), sub' _ bve z5 (by linarith) (by linarith), bd_weaken z1 (by linarith),
      bd_neg (bd_fin eJ.le)⟩
  · exact ⟨bd_weaken hxe (by linarith), bd_weaken bve (by linarith), b0 (by linarith), b0 hj.le⟩

/-! ## The whole trajectory -/

/-- What is known of a trajectory over the length `D`. -/
structure Whole (v a j D x y : ℝ) (c : Overall) (tEnd vEnd : F) : Prop where
  duration : ∃ T, tEnd = .fin T ∧ 0 ≤ T ∧ T ≤ 5 * D / v + 90
  terminal : ∃ u, vEnd = .fin u ∧ Pace v u ∧ min x y ≤ u ∧ u ≤ max x y
  target : ∀ t : ℝ, BdAxis (1.3 * D + 20 * v + 4) (2.8 * v + 0.3) (1.5 * a + 15) (1.1 * j + 1) (c.calculate (arith exp) (.fin t))

set_option maxHeartbeats 1000000 in
theorem gen_ok (hL : Rooted L) (G : Fit v a j g) {x y D D' : ℝ} (hx : Pace v x) (hy : Pace v y) (hD' : |D'| = D) (h1 : v / 2 ^ 14 ≤ D) (h2 : D ≤ 2 ^ 30) :
    Whole (exp := exp) v a j D x y (g.generate (arith exp) L (.fin 0) (.fin D') (.fin x) (.fin y)).1
      (g.generate (arith exp) L (.fin 0) (.fin D') (.fin x) (.fin y)).2.1 (g.generate (arith exp) L (.fin 0) (.fin D') (.fin x) (.fin y)).2.2 := by
  obtain ⟨v1, v2⟩ := G.vel
  obtain ⟨a1, a2⟩ := G.acc
  obtain ⟨j1, j2⟩ := G.jerk
  norm_num at v1 v2 a2 j2 h1 h2
  have ha : 0 < a := by linarith
  have hj : 0 < j := by linarith
  have D0 : 0 < D := by linarith
  obtain ⟨σ, eσ, hσ⟩ : ∃ σ : ℝ, (open Classical in if (F.fin D').lt (.fin 0) then ((F.fin D').neg, F.fin (-1)) else (F.fin D', F.fin 1)) = (F.fin D, F.fin σ) ∧ |σ| = 1 := by
    split_ifs with h
    · have h' : D' < 0 := h
      refine ⟨-1, ?_, by norm_num⟩
      show (F.fin (-D'), _) = _
      rw [← hD', abs_of_neg h']
    · have h' : 0 ≤ D' := not_lt.1 h
      refine ⟨1, ?_, by norm_num⟩
      rw [← hD', abs_of_nonneg h']
  obtain ⟨w, ew, hw, hw1, hw2⟩ := aim_ok (exp := exp) (L := L) G hx hy (.fin D)
  obtain ⟨r, er, hr, xr, wr, fr⟩ := peak_ok (exp := exp) hL G hx hw (show v / 2 ^ 14 ≤ D by norm_num; exact h1)
  obtain ⟨u, eu, hu, hub⟩ : ∃ u, (open Classical in if (F.fin w).lt (.fin r) then F.fin w else F.fin r) = F.fin u ∧ Pace v u ∧ min x y ≤ u ∧ u ≤ max x y := by
    split_ifs with h
    · exact ⟨w, rfl, hw, hw1, hw2⟩
    · exact ⟨r, rfl, hr, hw1.trans wr, (not_lt.1 h).trans hw2⟩
  have hm : (1:ℝ) / 2 ^ 40 ≤ v := le_trans (by norm_num) v1
  obtain ⟨d1, ed1, d10, d11⟩ := dist_ok (exp := exp) hL G hm le_rfl ⟨hx.low, hx.high⟩ ⟨hr.low, hr.high⟩
  obtain ⟨d3, ed3, d30, d31⟩ := dist_ok (exp := exp) hL G hm le_rfl ⟨hr.low, hr.high⟩ ⟨hu.low, hu.high⟩
  have r0 : 0 < r := lt_of_lt_of_le (lt_min (by linarith) (by linarith)) fr
  -- the length travelled at constant speed
  have n140 : (1:ℝ) / 2 ^ 140 ≤ 1 / 1000000000000 := by norm_num
  have up : ∀ {z c x : ℝ}, rnd z = .fin x → z ≤ c → 0 ≤ c → c ≤ 2 ^ 40 → x ≤ 1.001 * c + 1 / 2 ^ 140 := by
    intro z c x e h c0 hc
    obtain ⟨x', e', -, b⟩ := rnd_nn c0 le_rfl (hc.trans (by norm_num))
    have h1 : x ≤ x' := by rw [(rnd_fin e).1, (rnd_fin e').1]; exact round24_mono h
    have h2 : c / 2 ^ 20 ≤ c / 1000 := div_le_div_of_nonneg_left c0 (by norm_num) (by norm_num)
    linarith
  have b40 : (2000000000:ℝ) ≤ 2 ^ 40 := by norm_num
  have b100 : (4000000000:ℝ) ≤ 2 ^ 100 := by norm_num
  obtain ⟨e, ee, be⟩ := rnd_bd (z := D + -d1) (c := 2000000000) (by rw [abs_le]; constructor <;> linarith) (by linarith)
  have e1 := up ee (show _ ≤ D by linarith) D0.le (by linarith)
  have be' := abs_le.1 be
  norm_num at be'
  obtain ⟨f, ef, bf⟩ := rnd_bd (z := e + -d3) (c := 3000000000) (by rw [abs_le]; constructor <;> linarith) (by linarith)
  have f1 := up ef (show _ ≤ 1.001 * D + 1 / 2 ^ 140 by linarith) (by positivity) (by linarith)
  have f1' : f ≤ 1.01 * D := by linarith
  -- and the time
  have hq : |f / r| ≤ 2 ^ 80 := by
    rw [abs_div, abs_of_pos r0, div_le_iff₀ r0]
    have : 1 / 2 ^ 40 ≤ r := le_trans (le_min (by norm_num; linarith) (by norm_num; linarith)) fr
    have h2 : (2:ℝ) ^ 80 * (1 / 2 ^ 40) ≤ 2 ^ 80 * r := mul_le_mul_of_nonneg_left this (by positivity)
    norm_num at h2 bf ⊢
    linarith
  obtain ⟨q, eq, bq⟩ := rnd_bd hq (by norm_num)
  obtain ⟨b, eb, b0, b1, b2⟩ : ∃ b, (open Classical in if (F.fin q).lt (.fin 0) then F.fin 0 else F.fin q) = F.fin b ∧ 0 ≤ b ∧ b ≤ 4.2 * (D / v) + 68 ∧
      r * b ≤ 1.03 * D + 0.01 := by
    split_ifs with h
    · exact ⟨0, rfl, le_rfl, by positivity, by rw [mul_zero]; linarith⟩
    · have q0 : 0 ≤ q := not_lt.1 h
      have hq1 : q ≤ 1.001 * |f / r| + 1 / 2 ^ 140 := by
        obtain ⟨x', e', -, b'⟩ := rnd_nn (abs_nonneg (f / r)) le_rfl (hq.trans (by norm_num))
        have h1 : q ≤ x' := by rw [(rnd_fin eq).1, (rnd_fin e').1]; exact round24_mono (le_abs_self _)
        have h2 : |f / r| / 2 ^ 20 ≤ |f / r| / 1000 := div_le_div_of_nonneg_left (abs_nonneg _) (by norm_num) (by norm_num)
        linarith
      by_cases hf : 0 ≤ f
      · rw [abs_of_nonneg (div_nonneg hf r0.le)] at hq1
        refine ⟨q, rfl, q0, ?_, ?_⟩
        · have h3 : f / r ≤ 1.01 * (4 * (D / v) + 64) := by
            rw [div_le_iff₀ r0]
            have hDv : 0 < D / v := by positivity
            rcases min_le_iff.1 fr with h4 | h4
            · have h5 : 4 * (D / v) * (v / 4) ≤ 4 * (D / v) * r := mul_le_mul_of_nonneg_left h4 (by positivity)
              have h6 : 4 * (D / v) * (v / 4) = D := by field_simp
              have h7 : 1.01 * (4 * (D / v) + 64) * r = 1.01 * (4 * (D / v) * r) + 64.64 * r := by ring
              linarith
            · have h5 : 1.01 * (4 * (D / v) + 64) * r = 4.04 * (D / v * r) + 64.64 * r := by ring
              have h6 : 0 < D / v * r := by positivity
              linarith
          have hDv : 0 < D / v := by positivity
          linarith
        · have h3 := mul_le_mul_of_nonneg_left hq1 r0.le
          have h4 : r * (1.001 * (f / r) + 1 / 2 ^ 140) = 1.001 * f + r * (1 / 2 ^ 140) := by field_simp
          have h5 : r * (1 / 2 ^ 140) ≤ 256 * (1 / 2 ^ 140) := mul_le_mul_of_nonneg_right (by linarith [hr.high]) (by positivity)
          have h6 : (256:ℝ) * (1 / 2 ^ 140) ≤ 0.001 := by norm_num
          linarith
      · have h3 : q ≤ 0 := rnd_le_fix round24_zero (div_nonpos_of_nonpos_of_nonneg (not_le.1 hf).le r0.le) eq
        obtain rfl : q = 0 := le_antisymm h3 q0
        exact ⟨0, rfl, le_rfl, by positivity, by rw [mul_zero]; linarith⟩
  have Dv0 : 0 < D / v := by positivity
  have Dvb : D / v ≤ 274877906944 := by
    rw [div_le_iff₀ (by linarith)]; linarith
  -- the parts
  have P1 := acc_ok (exp := exp) hL G (X := 0) (x := x) (y := r) (xs := .fin 0) (bd_fin (by simp)) (by norm_num) ⟨hx.low, hx.high⟩ ⟨hr.low, hr.high⟩
  have hxs2 : Bd (6.1 * v + 0.01) ((arith exp).add (.fin 0) (.fin d1)) := add' (c := 0) (d := 6 * v) _ (bd_fin (by simp))
    (bd_fin (by rw [abs_of_nonneg d10]; exact d11)) (by linarith) (le_trans (b := 10000) (by linarith) (by norm_num))
  have hend : Bd (1.01 * D + 0.001) ((arith exp).add (.fin 0) (.fin D)) := add' (c := 0) (d := D) _ (bd_fin (by simp))
    (bd_fin (by rw [abs_of_pos D0])) (by linarith) (le_trans (b := 4000000000) (by linarith) (by norm_num))
  have hxs3 : Bd (1.03 * D + 6.1 * v + 0.1) ((arith exp).sub ((arith exp).add (.fin 0) (.fin D)) (.fin d3)) :=
    sub' _ hend (bd_fin (c := 6 * v) (by rw [abs_of_nonneg d30]; exact d31)) (by linarith) (le_trans (b := 4000000000) (by linarith) (by norm_num))
  have P3 := acc_ok (exp := exp) hL G (x := r) (y := u) hxs3 (le_trans (b := 2000000000) (by linarith) (by norm_num)) ⟨hr.low, hr.high⟩ ⟨hu.low, hu.high⟩
  obtain ⟨-, -, tA, -, -, -, eT1, -, -, -, -, tA0, tA1, -⟩ := P1.times
  obtain ⟨-, -, tB, -, -, -, eT3, -, -, -, -, tB0, tB1, -⟩ := P3.times
  obtain ⟨s2, es2, s20, s21⟩ := rnd_nn (z := tA + b) (c := 4.2 * (D / v) + 73) (by linarith) (by linarith) (by linarith)
  have s21' : s2 ≤ 4.5 * (D / v) + 75 := s21.trans (sl (by linarith) (by linarith))
  obtain ⟨s3, es3, s30, s31⟩ := rnd_nn (z := s2 + tB) (c := 4.5 * (D / v) + 80) (by linarith) (by linarith) (by linarith)
  have s31' : s3 ≤ 5 * (D / v) + 90 := s31.trans (sl (by linarith) (by linarith))
  have hgen : g.generate (arith exp) L (.fin 0) (.fin D') (.fin x) (.fin y) =
      (⟨.fin 0, .fin x, .fin tA, .fin s2, .fin s3, .fin D, .fin u, (g.acceleration (arith exp) L (.fin 0) (.fin x) (.fin r)).1,
        ⟨.fin b, (arith exp).add (.fin 0) (.fin d1), .fin r⟩,
        (g.acceleration (arith exp) L ((arith exp).sub ((arith exp).add (.fin 0) (.fin D)) (.fin d3)) (.fin r) (.fin u)).1, .fin σ⟩, .fin s3, .fin u) := by
    unfold Gen.generate
    rw [eσ]
    dsimp only
    rw [ew, er, eu, ed1, ed3]
    unfold constant
    dsimp only
    have q1 : (arith exp).sub (.fin D) (.fin d1) = .fin e := ee
    have q2 : (arith exp).sub (.fin e) (.fin d3) = .fin f := ef
    have q3 : (arith exp).div (.fin f) (.fin r) = .fin q := by rw [div_rnd r0.ne', eq]
    rw [q1, q2, q3, eb, eT1, eT3]
    have q4 : (arith exp).add (.fin tA) (.fin b) = .fin s2 := es2
    have q5 : (arith exp).add (.fin s2) (.fin tB) = .fin s3 := es3
    rw [q4, q5]
  rw [hgen]
  refine ⟨⟨s3, rfl, s30, by rw [mul_div_assoc]; exact s31'⟩, ⟨u, rfl, hu, hub⟩, fun t => ?_⟩
  dsimp only
  have bz : ∀ {d : ℝ}, 0 ≤ d → Bd d (.fin 0) := fun h => ⟨0, rfl, by rwa [abs_zero]⟩
  have key : ∀ c : Overall, c.xStart = .fin 0 → c.sign = .fin σ →
      BdAxis (1.25 * D + 18.5 * v + 3) (2.7 * v + 0.2) (1.4 * a + 14) j (c.unsigned (arith exp) (.fin t)) →
      BdAxis (1.3 * D + 20 * v + 4) (2.8 * v + 0.3) (1.5 * a + 15) (1.1 * j + 1) (c.calculate (arith exp) (.fin t)) := by
    intro c e1 e2 ⟨B1, B2, B3, B4⟩
    unfold Overall.calculate
    dsimp only
    rw [e1, e2]
    have l90 : (5000000000:ℝ) ≤ 2 ^ 90 := by norm_num
    have bσ : Bd 1 (.fin σ) := bd_fin hσ.le
    have c1 := sub' (exp := exp) (1.265 * D + 18.7 * v + 3.05) B1 (bz (d := 0) le_rfl) (by linarith) (by linarith)
    have c2 := mul' (exp := exp) (1.28 * D + 18.9 * v + 3.1) c1 bσ (by linarith) (by linarith)
    have c3 := add' (exp := exp) (1.3 * D + 20 * v + 4) c2 (bz (d := 0) le_rfl) (by linarith) (by linarith)
    exact ⟨c3, mul' _ B2 bσ (by linarith) (by linarith), mul' _ B3 bσ (by linarith) (by linarith), mul' _ B4 bσ (by linarith) (by linarith)⟩
  apply key
  · rfl
  · rfl
  unfold Overall.unsigned
  dsimp only
  have bx : Bd v (.fin x) := bd_fin (by rw [abs_of_nonneg hx.low]; exact hx.high)
  have br : Bd v (.fin r) := bd_fin (by rw [abs_of_nonneg hr.low]; exact hr.high)
  have bu : Bd v (.fin u) := bd_fin (by rw [abs_of_nonneg hu.low]; exact hu.high)
  have wk : ∀ {X : ℝ} {c : Axis}, BdAxis X (2.7 * v + 0.2) (1.4 * a + 14) j c → X ≤ 1.25 * D + 18.5 * v + 3 →
      BdAxis (1.25 * D + 18.5 * v + 3) (2.7 * v + 0.2) (1.4 * a + 14) j c := fun h hX => ⟨bd_weaken h.x hX, h.v, h.a, h.j⟩
  split_ifs with m1 m2 m3 m4
  · exact ⟨bz (by linarith), bd_weaken bx (by linarith), bz (by linarith), bz hj.le⟩
  · exact wk (acc_calc G ⟨hx.low, hx.high⟩ ⟨hr.low, hr.high⟩ (by norm_num) P1 t) (by linarith)
  · have t1 : tA < t := not_le.1 m2
    have t2 : t ≤ s2 := m3
    obtain ⟨s, es, s0, -⟩ := rnd_nn (z := t + -tA) (c := 2 ^ 45) (by linarith) (by norm_num; linarith) (by norm_num)
    have : (arith exp).sub (.fin t) (.fin tA) = .fin s := es
    rw [this]
    have fx : ∀ τ : ℝ, 0 ≤ τ → τ ≤ b → BdAxis (1.25 * D + 18.5 * v + 3) (2.7 * v + 0.2) (1.4 * a + 14) j
        ⟨(arith exp).add ((arith exp).add (.fin 0) (.fin d1)) ((arith exp).mul (.fin r) (.fin τ)), .fin r, .fin 0, .fin 0⟩ := by
      intro τ τ0 τb
      have p1 : |r * τ| ≤ 1.03 * D + 0.01 := by
        rw [abs_of_nonneg (mul_nonneg r0.le τ0)]
        exact (mul_le_mul_of_nonneg_left τb r0.le).trans b2
      obtain ⟨z, ez, bz'⟩ := rnd_bd p1 (by linarith)
      have p2 : Bd (1.05 * D + 0.02) ((arith exp).mul (.fin r) (.fin τ)) := ⟨z, ez, bz'.trans (sl (by linarith) (by linarith))⟩
      exact ⟨add' _ hxs2 p2 (by linarith) (le_trans (b := 4000000000) (by linarith) (by norm_num)), bd_weaken br (by linarith), bz (by linarith), bz hj.le⟩
    unfold ConstCalc.calculate
    dsimp only
    split_ifs with m5
    · exact fx b b0 le_rfl
    · exact fx s s0 (not_lt.1 fun h => m5 (.inl h))
  · have t1 : s2 < t := not_le.1 m3
    have t2 : t ≤ s3 := m4
    obtain ⟨s, es, s0, -⟩ := rnd_nn (z := t + -s2) (c := 2 ^ 45) (by linarith) (by norm_num; linarith) (by norm_num)
    have : (arith exp).sub (.fin t) (.fin s2) = .fin s := es
    rw [this]
    exact wk (acc_calc G ⟨hr.low, hr.high⟩ ⟨hu.low, hu.high⟩ (le_trans (b := 2000000000) (by linarith) (by norm_num)) P3 s) (by linarith)
  · exact ⟨bd_weaken hend (by linarith), bd_weaken bu (by linarith), bz (by linarith), bz hj.le⟩

/-! ## No length -/

theorem le_rnd_two {z x : ℝ} {k : ℤ} (hk : -149 ≤ k) (h : 2 ^ k ≤ z) (e : rnd z = .fin x) : 2 ^ k ≤ x := le_rnd_fix (round24_two hk) h e

theorem rnd_zero : rnd 0 = .fin 0 := by
  obtain ⟨x, e, b⟩ := rnd_err (z := 0) (by norm_num)
  rw [e, (rnd_fin e).1, round24_zero]

/-- The time of an acceleration is a number. -/
theorem time_fin (hL : Rooted L) (G : Fit v a j g) {d vd tc : ℝ} (e1 : (arith exp).div g.aMax g.jMax = .fin tc) (htc : 0 ≤ tc ∧ tc ≤ 2 ^ 40) (d0 : 0 ≤ d) (d1 : d ≤ v) :
    ∃ t, (open Classical in if (F.fin vd).le (.fin d) then (arith exp).add ((arith exp).div (.fin d) g.aMax) ((arith exp).div g.aMax g.jMax)
      else (arith exp).mul (.fin 2) (L.sqrt ((arith exp).div (.fin d) g.jMax))) = .fin t ∧ 0 ≤ t ∧ t ≤ 2 ^ 50 ∧ (HalfRooted L → 2 ^ (-58 : ℤ) ≤ d → 2 ^ (-72 : ℤ) ≤ t) := by
  obtain ⟨v1, v2⟩ := G.vel
  obtain ⟨a1, a2⟩ := G.acc
  obtain ⟨j1, j2⟩ := G.jerk
  norm_num at v1 v2 a2 j2
  have ha : 0 < a := by linarith
  have hj : 0 < j := by linarith
  split_ifs with h
  · obtain ⟨q, eq, q0, q1⟩ := quot_ok (exp := exp) d0 ha fix_two (by norm_num) (show d ≤ 2 * a by linarith)
    have b41 : (2:ℝ) + 2 ^ 40 ≤ 2 ^ 49 := by norm_num
    obtain ⟨t, et, t0, t1⟩ := rnd_nn (z := q + tc) (c := 2 ^ 49) (by linarith) (by linarith) (by norm_num)
    rw [e1, G.aMax, eq]
    refine ⟨t, et, t0, t1.trans (by norm_num), fun _ hd => ?_⟩
    have hq : (2:ℝ) ^ (-72 : ℤ) ≤ q := by
      rw [div_rnd ha.ne'] at eq
      refine le_rnd_two (by norm_num) ?_ eq
      rw [le_div_iff₀ ha]
      refine le_trans ?_ hd
      calc (2:ℝ) ^ (-72 : ℤ) * a ≤ 2 ^ (-72 : ℤ) * 16384 := mul_le_mul_of_nonneg_left a2 (by positivity)
        _ = 2 ^ (-58 : ℤ) := by norm_num
    exact le_rnd_two (by norm_num) (by linarith [htc.1]) et
  · obtain ⟨q, eq, q0, q1⟩ := quot_ok (exp := exp) d0 hj fix_half (by norm_num) (show d ≤ 1 / 2 * j by linarith)
    obtain ⟨s, es, s0, s1, -⟩ := root_ok hL q0 q1
    obtain ⟨t, et, t0, t1⟩ := rnd_nn (z := 2 * s) (c := 3) (by linarith) (by linarith) (by norm_num)
    rw [G.jMax, eq, es]
    refine ⟨t, et, t0, t1.trans (by norm_num), fun hh hd => ?_⟩
    have hq : (2:ℝ) ^ (-76 : ℤ) ≤ q := by
      rw [div_rnd hj.ne'] at eq
      refine le_rnd_two (by norm_num) ?_ eq
      rw [le_div_iff₀ hj]
      refine le_trans ?_ hd
      calc (2:ℝ) ^ (-76 : ℤ) * j ≤ 2 ^ (-76 : ℤ) * 262144 := mul_le_mul_of_nonneg_left j2 (by positivity)
        _ = 2 ^ (-58 : ℤ) := by norm_num
    have hs := hh q s q0 es
    have hr : (2:ℝ) ^ (-38 : ℤ) ≤ √q := by
      apply Real.le_sqrt_of_sq_le
      refine le_trans ?_ hq
      norm_num
    have h72 : (2:ℝ) ^ (-72 : ℤ) ≤ 2 ^ (-38 : ℤ) := zpow_le_zpow_right₀ (by norm_num) (by norm_num)
    exact le_rnd_two (by norm_num) (by linarith) et

theorem tc_small (G : Fit v a j g) {tc : ℝ} (h : |tc - a / j| ≤ a / j / 2 ^ 24) : tc ≤ 2 ^ 40 := by
  obtain ⟨v1, v2⟩ := G.vel
  obtain ⟨a1, a2⟩ := G.acc
  obtain ⟨j1, j2⟩ := G.jerk
  norm_num at v1 v2 a2 j2
  have hj : 0 < j := by linarith
  have h1 : a / j ≤ 2 ^ 30 := by
    rw [div_le_iff₀ hj]
    have : (2:ℝ) ^ 30 * (1 / 128) ≤ 2 ^ 30 * j := mul_le_mul_of_nonneg_left (by linarith) (by positivity)
    norm_num at this ⊢; linarith
  have h2 : 0 ≤ a / j := div_nonneg (by linarith) hj.le
  have h3 : a / j / 2 ^ 24 ≤ a / j := div_le_self h2 (by norm_num)
  have h4 := le_abs_self (tc - a / j)
  norm_num at h1 ⊢; linarith

theorem dist_zero (hL : Rooted L) (G : Fit v a j g) : g.accDist (arith exp) L (.fin 0) (.fin 0) = .fin 0 := by
  obtain ⟨tc, vd, e1, e2, tc0, tc1, -⟩ := tc_ok (exp := exp) G
  have hd : ((arith exp).sub (.fin 0) (.fin 0)).abs = .fin 0 := by
    show (rnd (0 + -0)).abs = _
    rw [neg_zero, add_zero, rnd_zero]
    show F.fin |0| = _
    rw [abs_zero]
  obtain ⟨t, et, -⟩ := time_fin (exp := exp) hL G (d := 0) (vd := vd) e1 ⟨tc0, tc_small G tc1⟩ le_rfl (le_trans (by norm_num) G.vel.1)
  unfold Gen.accDist
  dsimp only
  rw [hd, e1, e2, ← e1, et]
  have h1 : (arith exp).add (.fin 0) (.fin 0) = .fin 0 := by show rnd (0 + 0) = _; rw [add_zero, rnd_zero]
  have h2 : (arith exp).mul (.fin 0) (.fin t) = .fin 0 := by show rnd (0 * t) = _; rw [zero_mul, rnd_zero]
  rw [h1, h2, div_rnd two_ne_zero, zero_div, rnd_zero]

theorem dist_pos (hL : Rooted L) (hh : HalfRooted L) (G : Fit v a j g) {m : ℝ} (fm : round24 m = m) (m0 : 2 ^ (-58 : ℤ) ≤ m) (m1 : m ≤ v) :
    (∃ d, g.accDist (arith exp) L (.fin 0) (.fin m) = .fin d ∧ 2 ^ (-131 : ℤ) ≤ d ∧ d ≤ 2 ^ 70) ∧ ∃ d, g.accDist (arith exp) L (.fin m) (.fin 0) = .fin d ∧ 2 ^ (-131 : ℤ) ≤ d ∧ d ≤ 2 ^ 70 := by
  obtain ⟨tc, vd, e1, e2, tc0, tc1, -⟩ := tc_ok (exp := exp) G
  have p0 : (0:ℝ) < 2 ^ (-58 : ℤ) := by positivity
  have mp : 0 < m := lt_of_lt_of_le p0 m0
  have v2 : v ≤ 256 := by have := G.vel.2; norm_num at this; exact this
  have hm : rnd m = .fin m := by
    obtain ⟨x, e, b⟩ := rnd_err (z := m) (by rw [abs_of_pos mp]; exact (m1.trans v2).trans (by norm_num))
    rw [e, (rnd_fin e).1, fm]
  have hm' : rnd (-m) = .fin (-m) := by
    obtain ⟨x, e, b⟩ := rnd_err (z := -m) (by rw [abs_neg, abs_of_pos mp]; exact (m1.trans v2).trans (by norm_num))
    rw [e, (rnd_fin e).1, round24_neg, fm]
  have hd1 : ((arith exp).sub (.fin m) (.fin 0)).abs = .fin m := by
    show (rnd (m + -0)).abs = _
    rw [neg_zero, add_zero, hm]
    show F.fin |m| = _
    rw [abs_of_pos mp]
  have hd2 : ((arith exp).sub (.fin 0) (.fin m)).abs = .fin m := by
    show (rnd (0 + -m)).abs = _
    rw [zero_add, hm']
    show F.fin |-m| = _
    rw [abs_neg, abs_of_pos mp]
  obtain ⟨t, et, t0, t1, t2⟩ := time_fin (exp := exp) hL G (d := m) (vd := vd) e1 ⟨tc0, tc_small G tc1⟩ mp.le m1
  have t3 := t2 hh m0
  have hs1 : (arith exp).add (.fin 0) (.fin m) = .fin m := by show rnd (0 + m) = _; rw [zero_add, hm]
  have hs2 : (arith exp).add (.fin m) (.fin 0) = .fin m := by show rnd (m + 0) = _; rw [add_zero, hm]
  have hmt : 2 ^ (-130 : ℤ) ≤ m * t := by
    calc (2:ℝ) ^ (-130 : ℤ) = 2 ^ (-58 : ℤ) * 2 ^ (-72 : ℤ) := by rw [← zpow_add₀ (by norm_num)]; norm_num
      _ ≤ m * t := mul_le_mul m0 t3 (by positivity) mp.le
  have hmt' : m * t ≤ 2 ^ 60 := by
    calc m * t ≤ 2 ^ 8 * 2 ^ 50 := mul_le_mul (m1.trans (v2.trans (by norm_num))) t1 t0 (by positivity)
      _ ≤ 2 ^ 60 := by norm_num
  obtain ⟨z, ez, z0, z1⟩ := rnd_nn (mul_nonneg mp.le t0) hmt' (by norm_num)
  have z2 := le_rnd_two (by norm_num) hmt ez
  have hz : (2:ℝ) ^ (-131 : ℤ) ≤ z / 2 := by
    have : (2:ℝ) ^ (-130 : ℤ) = 2 ^ (-131 : ℤ) * 2 := by rw [← zpow_add_one₀ (by norm_num)]; norm_num
    rw [le_div_iff₀ two_pos, ← this]
    exact z2
  obtain ⟨y, ey, y0, y1⟩ := rnd_nn (z := z / 2) (c := 2 ^ 61) (by linarith) (by norm_num at z1 ⊢; linarith) (by norm_num)
  have y2 := le_rnd_two (by norm_num) hz ey
  have fin' : (arith exp).div ((arith exp).mul (.fin m) (.fin t)) (.fin 2) = .fin y := by
    have : (arith exp).mul (.fin m) (.fin t) = .fin z := ez
    rw [this, div_rnd two_ne_zero, ey]
  refine ⟨⟨y, ?_, y2, y1.trans (by norm_num)⟩, y, ?_, y2, y1.trans (by norm_num)⟩
  · unfold Gen.accDist
    dsimp only
    rw [hd1, e1, e2, ← e1, et, hs1, fin']
  · unfold Gen.accDist
    dsimp only
    rw [hd2, e1, e2, ← e1, et, hs2, fin']

theorem bisect_stays {up : F → Prop} (n : ℕ) : ∀ {h : ℝ}, round24 h = h → 1 / 2 ^ 58 ≤ h / 4 ^ n → h ≤ 2 ^ 90 → (∀ m, round24 m = m → 1 / 2 ^ 58 ≤ m → m ≤ h → ¬ up (.fin m)) →
    (bisect (arith exp) up n (.fin 0) (.fin h)).1 = .fin 0 := by
  induction n with
  | zero => intro h _ _ _ _; rfl
  | succ n ih =>
    intro h fh hh hb hu
    have h4 : h / 4 ^ (n + 1) = h / 4 / 4 ^ n := by rw [pow_succ]; field_simp
    have h0 : 0 ≤ h := by
      by_contra hc
      have : h / 4 ^ (n + 1) < 0 := div_neg_of_neg_of_pos (not_le.1 hc) (by positivity)
      have : (0:ℝ) < 1 / 2 ^ 58 := by positivity
      linarith
    have h5 : h / 4 / 4 ^ n ≤ h / 4 := div_le_self (by linarith) (one_le_pow₀ (by norm_num))
    have h6 : (1:ℝ) / 2 ^ 60 ≤ 1 / 2 ^ 58 := by norm_num
    obtain ⟨m, em, fm, m0, m1, m2⟩ := mid_ok (exp := exp) round24_zero fh le_rfl h0 hb
    obtain ⟨m3, -⟩ := m2 (by linarith)
    unfold bisect
    dsimp only
    rw [em, if_neg (hu m fm (by linarith) m1)]
    refine ih fm ?_ (m1.trans hb) fun k fk k0 k1 => hu k fk k0 (k1.trans m1)
    rw [h4] at hh
    exact hh.trans (div_le_div_of_nonneg_right m3 (by positivity))

/-- From rest over no length to rest: the highest velocity is zero, and the duration is not a number. -/
theorem stuck_end (hL : Rooted L) (hh : HalfRooted L) (G : Fit v a j g) :
    (g.generate (arith exp) L (.fin 0) (.fin 0) (.fin 0) (.fin 0)).2.1 = .nan := by
  have v0 : (0:ℝ) ≤ v := le_trans (by norm_num) G.vel.1
  have S0 : Pace v 0 := ⟨round24_zero, le_rfl, v0⟩
  have haim : g.aim (arith exp) L (.fin 0) (.fin 0) (.fin 0) = .fin 0 := by
    obtain ⟨r, e, hr, r0, r1, r2, -⟩ := reach_ok (exp := exp) (L := L) G S0 S0 (.fin 0)
    obtain rfl : r = 0 := le_antisymm (r2 (lt_irrefl 0)) r0
    unfold Gen.aim
    dsimp only
    rw [e]
    split_ifs <;> rfl
  have hpeak : g.peak (arith exp) L (.fin 0) (.fin 0) (.fin 0) = .fin 0 := by
    unfold Gen.peak
    rw [if_neg (show ¬ (F.fin 0).lt (.fin 0) from lt_irrefl (0:ℝ)), G.vMax]
    refine bisect_stays 25 G.f32 ?_ (fit_small G) ?_
    · have := G.vel.1
      rw [le_div_iff₀ (by positivity)]
      refine le_trans ?_ this
      norm_num
    · intro m fm m0 m1
      obtain ⟨⟨d, ed, d0, d1⟩, e, ee, e0, e1⟩ := dist_pos (exp := exp) hL hh G fm (by norm_num at m0 ⊢; exact m0) m1
      rw [ed, ee]
      have p0 : (0:ℝ) < 2 ^ (-131 : ℤ) := by positivity
      obtain ⟨z, ez, bz⟩ := rnd_err (z := d + e) (by rw [abs_of_pos (by linarith)]; norm_num at d1 e1 ⊢; linarith)
      have : (arith exp).add (.fin d) (.fin e) = .fin z := ez
      rw [this]
      have fd : 0 < z := lt_of_lt_of_le p0 (le_rnd_two (by norm_num) (by linarith) ez)
      exact not_le.2 fd
  have hn : ∀ x : F, (arith exp).add x .nan = .nan := by intro x; cases x <;> rfl
  have hz : (arith exp).sub (.fin 0) (.fin 0) = .fin 0 := by show rnd (0 + -0) = _; rw [neg_zero, add_zero, rnd_zero]
  have hq : (arith exp).div (.fin 0) (.fin 0) = .nan := by
    show (if (0:ℝ) = 0 then _ else _) = _
    rw [if_pos rfl]
    simp [F.infOf]
  unfold Gen.generate
  rw [if_neg (show ¬ (F.fin 0).lt (.fin 0) from lt_irrefl (0:ℝ))]
  dsimp only
  rw [haim, hpeak, if_neg (show ¬ (F.fin 0).lt (.fin 0) from lt_irrefl (0:ℝ)), dist_zero hL G, hz, hz]
  unfold constant
  dsimp only
  rw [hq, if_neg (show ¬ F.nan.lt (.fin 0) from id), hn]
  rfl

end Verif.Proof
