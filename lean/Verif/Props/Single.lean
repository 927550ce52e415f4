import Verif.Proof.Single
/-!
# C121: the control loop in single precision
-/
namespace Verif.Props
open Verif Verif.Spec Verif.Binary32 Verif.Single Verif.Proof

variable {exp : F → F} {L : Lib} {p W w Ω V : ℝ}

/-! ## The estimated speed -/

/-- The error of rounding a number of moderate size. -/
theorem err7 {z : ℝ} (h : |z| ≤ 2 ^ 7) : |round24 z - z| ≤ 1 / 2 ^ 17 := by
  refine (round24_rel z).trans (max_le ?_ (by norm_num))
  rw [div_le_iff₀ (by positivity)]
  calc |z| ≤ 2 ^ 7 := h
    _ = 1 / 2 ^ 17 * 2 ^ 24 := by norm_num

theorem err0 {z : ℝ} (h : |z| ≤ 1) : |round24 z - z| ≤ 1 / 2 ^ 24 := by
  refine (round24_rel z).trans (max_le ?_ (by norm_num))
  exact div_le_div_of_nonneg_right h (by positivity)

/-- The result of rounding a number of moderate size. -/
theorem rnd7 {z : ℝ} (h : |z| ≤ 2 ^ 7) : rnd z = .fin (round24 z) := by
  refine rnd_of_lt ?_
  have := err7 h
  have h1 := abs_sub_abs_le_abs_sub (round24 z) z
  have : (2:ℝ) ^ 7 + 1 / 2 ^ 17 < 2 ^ 128 := by norm_num
  linarith

theorem step7 {z c : ℝ} (h : |z| ≤ c) (hc : c ≤ 128) : ∃ x, rnd z = .fin x ∧ |x| ≤ c + 1 / 131072 := by
  have h7 : |z| ≤ 2 ^ 7 := by norm_num; linarith
  refine ⟨_, rnd7 h7, ?_⟩
  have := err7 h7
  norm_num at this
  linarith [abs_sub_abs_le_abs_sub (round24 z) z]

theorem next_vel {e : Estimator} (S : Suits p W w Ω V e) {s : Sensor} (P : Plausible p W w Ω s)
    {v : ℝ} (hv : e.vel = .fin v) (hV : |v| ≤ V) : ∃ v', e.nextVel (arith exp) s = .fin v' ∧ |v'| ≤ V := by
  obtain ⟨l, hl, hl'⟩ := P.left
  obtain ⟨r, hr, hr'⟩ := P.right
  obtain ⟨a, ha, ha'⟩ := P.acc
  obtain ⟨α, hα, α0, α1, hVW⟩ := S.alpha
  have hp0 : 0 < p := lt_of_lt_of_le (by positivity) S.low
  have hW := S.wheels
  have hw := S.change
  have hV1 := S.speed
  have n6 : (2:ℝ) ^ 6 = 64 := by norm_num
  have n10 : (1:ℝ) / 2 ^ 10 = 1 / 1024 := by norm_num
  have n5 : (2:ℝ) ^ 5 = 32 := by norm_num
  rw [n5] at hW hw
  rw [n6] at hV1
  rw [n10] at hVW
  have ql : |l / p| ≤ W := by rw [abs_div, abs_of_pos hp0, div_le_iff₀ hp0]; exact hl'
  have qr : |r / p| ≤ W := by rw [abs_div, abs_of_pos hp0, div_le_iff₀ hp0]; exact hr'
  have dl : (arith exp).div (.fin l) (.fin p) = rnd (l / p) := by
    show (if p = 0 then _ else rnd (l / p)) = _
    rw [if_neg hp0.ne']
  have dr : (arith exp).div (.fin r) (.fin p) = rnd (r / p) := by
    show (if p = 0 then _ else rnd (r / p)) = _
    rw [if_neg hp0.ne']
  obtain ⟨x1, e1, b1⟩ := step7 ql (by linarith)
  obtain ⟨x2, e2, b2⟩ := step7 qr (by linarith)
  obtain ⟨x3, e3, b3⟩ := step7 (z := x1 + x2) (c := 2 * W + 2 / 131072) (by linarith [abs_add_le x1 x2]) (by linarith)
  obtain ⟨x4, e4, b4⟩ := step7 (z := x3 / 2) (c := W + 3 / 2 / 131072) (by rw [abs_div, abs_two]; linarith) (by linarith)
  have d4 : (arith exp).div (.fin x3) (.fin 2) = rnd (x3 / 2) := by
    show (if (2:ℝ) = 0 then _ else rnd (x3 / 2)) = _
    rw [if_neg (by norm_num)]
  obtain ⟨y1, f1, c1⟩ := step7 (z := a * p) (c := w) (by rw [abs_mul, abs_of_pos hp0]; exact ha') (by linarith)
  obtain ⟨y2, f2, c2⟩ := step7 (z := v + y1) (c := V + w + 1 / 131072) (by linarith [abs_add_le v y1]) (by linarith)
  obtain ⟨y3, f3, c3⟩ := step7 (z := α * y2) (c := α * (V + w + 2 / 131072)) (by
    rw [abs_mul, abs_of_nonneg α0]
    exact mul_le_mul_of_nonneg_left (by linarith) α0) (by
    have := mul_le_of_le_one_left (show (0:ℝ) ≤ V + w + 2 / 131072 by linarith) α1
    linarith)
  have g0 := err0 (z := 1 - α) (by rw [abs_le]; constructor <;> linarith)
  obtain ⟨β, hβ⟩ : ∃ β, β = round24 (1 - α) := ⟨_, rfl⟩
  have hβ1 : rnd (1 - α) = .fin β := by
    rw [hβ]
    exact rnd7 (by rw [abs_le]; constructor <;> norm_num <;> linarith)
  rw [← hβ] at g0
  have n24 : (1:ℝ) / 2 ^ 24 = 1 / 16777216 := by norm_num
  rw [n24] at g0
  have gβ : |β| ≤ 1 - α + 1 / 16777216 := by
    have := abs_sub_abs_le_abs_sub β (1 - α)
    rw [abs_of_nonneg (show (0:ℝ) ≤ 1 - α by linarith)] at this
    linarith
  obtain ⟨z1, k1, m1⟩ := step7 (z := β * x4) (c := (1 - α + 1 / 16777216) * (W + 5 / 2 / 131072)) (by
    rw [abs_mul]
    exact mul_le_mul gβ (by linarith) (abs_nonneg _) (by linarith)) (by
    have := mul_le_mul_of_nonneg_right (show 1 - α + 1 / 16777216 ≤ (2:ℝ) by linarith)
      (show (0:ℝ) ≤ W + 5 / 2 / 131072 by linarith)
    linarith)
  obtain ⟨z2, k2, m2⟩ := step7 (z := y3 + z1) (c := V - 1 / 131072) (by
    have := abs_add_le y3 z1
    have q1 : (1 - α) * (5 / 2 / 131072 : ℝ) ≤ 5 / 2 / 131072 := by linarith
    have q2 : (1 - α + 1 / 16777216) * (W + 5 / 2 / 131072) =
      (1 - α) * W + (1 - α) * (5 / 2 / 131072) + 1 / 16777216 * W + 1 / 16777216 * (5 / 2 / 131072) := by ring
    linarith) (by linarith)
  refine ⟨z2, ?_, by linarith⟩
  unfold Estimator.nextVel
  rw [hl, hr, ha, hα, hv, S.period]
  dsimp only
  rw [dl, e1, dr, e2]
  show (arith exp).add ((arith exp).mul _ ((arith exp).add _ (rnd (a * p))))
    ((arith exp).mul (rnd (1 - α)) ((arith exp).div (rnd (x1 + x2)) _)) = _
  rw [f1, e3, d4, e4, hβ1]
  show (arith exp).add ((arith exp).mul _ (rnd (v + y1))) (rnd (β * x4)) = _
  rw [f2, k1]
  show (arith exp).add (rnd (α * y2)) _ = _
  rw [f3]
  exact k2

/-! ## The slip angle -/

theorem round24_rel' {z : ℝ} (h : 1 / 2 ^ 126 ≤ |z|) : |round24 z - z| ≤ |z| / 2 ^ 24 := by
  refine (round24_rel z).trans (max_le le_rfl ?_)
  rw [le_div_iff₀ (by positivity)]
  calc (1:ℝ) / 2 ^ 150 * 2 ^ 24 = 1 / 2 ^ 126 := by norm_num
    _ ≤ |z| := h

/-- The rounded value of a positive number that is not tiny: infinite, or not much smaller. -/
theorem rnd_low {z : ℝ} (h : 1 / 2 ^ 126 ≤ z) : rnd z = .pinf ∨ ∃ x, rnd z = .fin x ∧ z * (1 - 1 / 2 ^ 24) ≤ x := by
  have hz : 0 < z := lt_of_lt_of_le (by positivity) h
  by_cases hb : 2 ^ 128 ≤ round24 z
  · left; unfold rnd; rw [if_pos hb]
  · right
    have h0 := round24_nonneg hz.le
    refine ⟨_, rnd_of_lt (by rw [abs_of_nonneg h0]; exact not_le.1 hb), ?_⟩
    have := (abs_le.1 (round24_rel' (z := z) (by rwa [abs_of_pos hz]))).1
    rw [abs_of_pos hz] at this
    have e : z * (1 - 1 / 2 ^ 24) = z - z / 2 ^ 24 := by ring
    linarith

theorem rnd_up {z c : ℝ} (h : |z| ≤ c) (hc : c ≤ 2 ^ 20) :
    ∃ x, rnd z = .fin x ∧ |x| ≤ c * (1 + 1 / 16777216) + 1 / 1000000000 := by
  have c0 : 0 ≤ c := (abs_nonneg z).trans h
  have a := round24_rel z
  have b : max (|z| / 2 ^ 24) (1 / 2 ^ 150 : ℝ) ≤ c / 16777216 + 1 / 1000000000 := by
    have := div_le_div_of_nonneg_right h (show (0:ℝ) ≤ 2 ^ 24 by positivity)
    have p1 : (1:ℝ) / 2 ^ 150 ≤ 1 / 1000000000 := by norm_num
    have p2 : (0:ℝ) ≤ c / 16777216 := by positivity
    have p3 : c / (2:ℝ) ^ 24 = c / 16777216 := by norm_num
    exact max_le (by linarith) (by linarith)
  have d := abs_sub_abs_le_abs_sub (round24 z) z
  have f : |round24 z| ≤ c * (1 + 1 / 16777216) + 1 / 1000000000 := by
    have : c * (1 + 1 / 16777216 : ℝ) = c + c / 16777216 := by ring
    linarith
  refine ⟨_, rnd_of_lt (f.trans_lt ?_), f⟩
  calc c * (1 + 1 / 16777216) + 1 / 1000000000 ≤ 2 ^ 20 * (1 + 1 / 16777216) + 1 / 1000000000 := by gcongr
    _ < (2:ℝ) ^ 128 := by norm_num

theorem next_slip {e : Estimator} (S : Suits p W w Ω V e) {v ω t : ℝ} (hv : |v| ≤ V) (hω : |ω| ≤ Ω)
    (ht : e.slip = .fin t) (ht' : |t| ≤ 5 / 4) : ∃ t', e.nextSlip (arith exp) (.fin v) (.fin ω) = .fin t' ∧ |t'| ≤ 5 / 4 := by
  obtain ⟨c, hc, c1, c2⟩ := S.slipConst
  have hp0 : 0 < p := lt_of_lt_of_le (by positivity) S.low
  have hV1 := S.speed
  have hV0 : 0 < V := by linarith
  have hΩ := S.turn
  have hc0 : 0 < c := by linarith
  -- the inverse of the period
  have r1 : 2 ^ 5 ≤ 1 / p := by
    rw [le_div_iff₀ hp0]; have := S.high
    calc (2:ℝ) ^ 5 * p ≤ 2 ^ 5 * (1 / 2 ^ 5) := mul_le_mul_of_nonneg_left this (by positivity)
      _ = 1 := by norm_num
  have r2 : 1 / p ≤ 2 ^ 12 := by
    rw [div_le_iff₀ hp0]; have := S.low
    calc (1:ℝ) = 2 ^ 12 * (1 / 2 ^ 12) := by norm_num
      _ ≤ 2 ^ 12 * p := mul_le_mul_of_nonneg_left this (by positivity)
  have hr : |round24 (1 / p)| ≤ 2 ^ (12:ℤ) :=
    round24_abs_le (round24_two (by norm_num)) (by rw [abs_of_pos (by positivity)]; exact_mod_cast r2)
  have hrlow : (32:ℝ) ≤ round24 (1 / p) := by
    have := round24_mono r1
    have h32 : round24 ((2:ℝ) ^ 5) = 2 ^ 5 := by
      have := round24_two (k := 5) (by norm_num)
      exact_mod_cast this
    rw [h32] at this
    linarith [this, show (2:ℝ) ^ 5 = 32 by norm_num]
  have d0 : (arith exp).div (.fin 1) (.fin p) = .fin (round24 (1 / p)) := by
    show (if p = 0 then _ else rnd (1 / p)) = _
    rw [if_neg hp0.ne']
    exact rnd_of_lt (hr.trans_lt (by norm_num))
  obtain ⟨rp, hrp⟩ : ∃ x, x = round24 (1 / p) := ⟨_, rfl⟩
  rw [← hrp] at d0 hr hrlow
  have hrp0 : 0 < rp := by linarith
  rw [abs_of_pos hrp0] at hr
  have hr' : rp ≤ 4096 := by
    have : (2:ℝ) ^ (12:ℤ) = 4096 := by norm_num
    linarith
  -- the numerator
  obtain ⟨n1, en1, b1⟩ := rnd_up (z := t * rp) (c := 5 / 4 * rp)
    (by rw [abs_mul, abs_of_pos hrp0]; exact mul_le_mul_of_nonneg_right ht' hrp0.le) (by norm_num; linarith)
  have hΩ2 : Ω ≤ 1024 := by linarith [hΩ.2, show (2:ℝ) ^ 10 = 1024 by norm_num]
  obtain ⟨n2, en2, b2⟩ := rnd_up (z := n1 + ω) (c := 5 / 4 * rp * (1 + 1 / 16777216) + 1 / 1000000000 + Ω)
    (by linarith [abs_add_le n1 ω]) (by norm_num; linarith)
  -- the denominator
  obtain ⟨g, hg⟩ : ∃ g, g = c / V := ⟨_, rfl⟩
  have g1 : 1 ≤ g := by rw [hg, le_div_iff₀ hV0]; linarith
  have g2 : Ω ≤ g := by rw [hg, le_div_iff₀ hV0]; exact c2
  have hden : (arith exp).add (.fin rp) ((arith exp).div (.fin c) (F.fin v).abs) = .pinf ∨
      ∃ d, (arith exp).add (.fin rp) ((arith exp).div (.fin c) (F.fin v).abs) = .fin d ∧
        (rp + g * (1 - 1 / 16777216)) * (1 - 1 / 16777216) ≤ d := by
    by_cases hv0 : v = 0
    · left
      have : (arith exp).div (.fin c) (F.fin v).abs = .pinf := by
        show (if |v| = 0 then F.infOf c else _) = _
        rw [if_pos (by rw [hv0, abs_zero])]
        unfold F.infOf
        rw [if_pos hc0]
      rw [this]; rfl
    · have hv1 : 0 < |v| := abs_pos.2 hv0
      have : (arith exp).div (.fin c) (F.fin v).abs = rnd (c / |v|) := by
        show (if |v| = 0 then F.infOf c else _) = _
        rw [if_neg hv1.ne']; rfl
      rw [this]
      have hq : g ≤ c / |v| := by rw [hg]; exact div_le_div_of_nonneg_left hc0.le hv1 hv
      have hsmall : (1:ℝ) / 2 ^ 126 ≤ 1 := by norm_num
      rcases rnd_low (z := c / |v|) (by linarith) with h | ⟨x, hx, hx'⟩
      · left; rw [h]; rfl
      · rw [hx]
        have hx2 : g * (1 - 1 / 16777216) ≤ x := by
          have : g * (1 - 1 / 2 ^ 24) ≤ c / |v| * (1 - 1 / 2 ^ 24) := mul_le_mul_of_nonneg_right hq (by norm_num)
          norm_num at this hx' ⊢
          linarith
        rcases rnd_low (z := rp + x) (by linarith) with h | ⟨d, hd, hd'⟩
        · left; exact h
        · right
          refine ⟨d, hd, ?_⟩
          have : (rp + g * (1 - 1 / 16777216)) * (1 - 1 / 2 ^ 24) ≤ (rp + x) * (1 - 1 / 2 ^ 24) :=
            mul_le_mul_of_nonneg_right (by linarith) (by norm_num)
          norm_num at this hd' ⊢
          linarith
  unfold Estimator.nextSlip
  rw [S.period, hc, ht]
  dsimp only
  rw [d0]
  have hnum : (arith exp).add ((arith exp).mul (.fin t) (.fin rp)) (.fin ω) = .fin n2 := by
    show (arith exp).add (rnd (t * rp)) _ = _
    rw [en1]; exact en2
  rw [hnum]
  rcases hden with h | ⟨d, hd, hd'⟩
  · rw [h]; exact ⟨0, rfl, by norm_num⟩
  · rw [hd]
    have hdpos : 0 < d := by
      have : (0:ℝ) < (rp + g * (1 - 1 / 16777216)) * (1 - 1 / 16777216) := by
        have : (0:ℝ) < rp + g * (1 - 1 / 16777216) := by linarith
        positivity
      linarith
    have hq : |n2 / d| ≤ 5 / 4 := by
      rw [abs_div, abs_of_pos hdpos, div_le_iff₀ hdpos]
      linarith
    have h54 : round24 (5 / 4) = 5 / 4 := by
      have := round24_fix (m := 5) (e := -2) (by norm_num) (by norm_num)
      norm_num at this ⊢
      exact this
    have hb := round24_abs_le h54 hq
    refine ⟨round24 (n2 / d), ?_, hb⟩
    show (if d = 0 then _ else rnd (n2 / d)) = _
    rw [if_neg hdpos.ne']
    exact rnd_of_lt (hb.trans_lt (by norm_num))

/-! ## The estimator -/

theorem mag_sin (hL : Fair L) {k : ℤ} {x : F} (h : Mag k x) : Mag 1 (L.sin x) := by
  obtain ⟨a, rfl, -⟩ := h
  exact hL.sin a

theorem mag_cos (hL : Fair L) {k : ℤ} {x : F} (h : Mag k x) : Mag 1 (L.cos x) := by
  obtain ⟨a, rfl, -⟩ := h
  exact hL.cos a

theorem suits_mag {e : Estimator} (S : Suits p W w Ω V e) : Mag (-5) e.period ∧ 2 ^ (-12 : ℤ) ≤ |p| := by
  have hp0 : 0 < p := lt_of_lt_of_le (by positivity) S.low
  have h1 := S.high
  have h2 := S.low
  rw [S.period]
  refine ⟨⟨p, rfl, ?_⟩, ?_⟩ <;> rw [abs_of_pos hp0]
  · have : (2:ℝ) ^ (-5 : ℤ) = 1 / 2 ^ 5 := by norm_num
    rw [this]; exact h1
  · have : (2:ℝ) ^ (-12 : ℤ) = 1 / 2 ^ 12 := by norm_num
    rw [this]; exact h2

/-- What is true of the estimator and its state in every round. -/
structure Est (p W w Ω V : ℝ) (e : Estimator) (s : State) : Prop where
  suits : Suits p W w Ω V e
  vel : ∃ v, e.vel = .fin v ∧ |v| ≤ V
  slip : ∃ t, e.slip = .fin t ∧ |t| ≤ 5 / 4
  x : Mag 40 s.x.x
  y : Mag 40 s.y.x
  theta : Mag 30 s.theta.x
  omega : Mag 10 s.theta.v

/-- What is true of the state an estimator makes. -/
structure Out (s : State) : Prop where
  x : Mag 40 s.x.x ∧ Mag 7 s.x.v ∧ Mag 19 s.x.a
  y : Mag 40 s.y.x ∧ Mag 7 s.y.v ∧ Mag 19 s.y.a
  theta : Mag 30 s.theta.x ∧ Mag 10 s.theta.v ∧ Mag 23 s.theta.a

theorem est_step (hL : Fair L) {e : Estimator} {st : State} (E : Est p W w Ω V e st) {s : Sensor} (P : Plausible p W w Ω s) :
    Est p W w Ω V (e.estimate (arith exp) L st s).1 (e.estimate (arith exp) L st s).2 ∧
    Out (e.estimate (arith exp) L st s).2 := by
  obtain ⟨S, ⟨v, hv, hv'⟩, ⟨t, ht, ht'⟩, mx, my, mt, mo⟩ := E
  obtain ⟨v', hv1, hv2⟩ := next_vel (exp := exp) S P hv hv'
  obtain ⟨ω, hω, hω'⟩ := P.omega
  obtain ⟨t', ht1, ht2⟩ := next_slip (exp := exp) S hv2 hω' ht ht'
  obtain ⟨a, ha, ha'⟩ := P.acc
  obtain ⟨th, hth, hth'⟩ := S.approxTh
  obtain ⟨c, hc, hc'⟩ := hL.small t' ht2
  obtain ⟨mp, lp⟩ := suits_mag S
  have hp0 : 0 < p := lt_of_lt_of_le (by positivity) S.low
  have mω : Mag 10 (.fin ω) := mag_fin (by
    have := S.turn.2
    have : (2:ℝ) ^ (10:ℤ) = 2 ^ 10 := by norm_num
    linarith)
  have mv : Mag 6 (.fin v') := mag_fin (by
    have := S.speed.2
    have : (2:ℝ) ^ (6:ℤ) = 2 ^ 6 := by norm_num
    linarith)
  have ms : Mag 1 (.fin t') := mag_fin (by norm_num; linarith)
  have ma : Mag 18 (.fin a) := mag_fin (by
    have h1 := S.low
    have h2 := S.change.2
    have h3 : |a| * (1 / 2 ^ 12) ≤ |a| * p := mul_le_mul_of_nonneg_left h1 (abs_nonneg a)
    norm_num at h2 h3 ⊢
    linarith)
  have m2 : Mag 1 (.fin 2) := mag_fin (by norm_num)
  have l2 : (2:ℝ) ^ (1:ℤ) ≤ |2| := by norm_num
  have md : Mag 5 ((arith exp).mul (.fin ω) e.period) := mag_mul 5 mω mp (by norm_num)
  have mh : Mag 4 ((arith exp).div ((arith exp).mul (.fin ω) e.period) (.fin 2)) := mag_div 4 md l2 (by norm_num)
  have mch : Mag 12 (e.chord (arith exp) L (.fin v') (.fin ω) ((arith exp).mul (.fin ω) e.period)) := by
    unfold Estimator.chord
    split_ifs with h
    · exact mag_mul 12 mv mp (by norm_num)
    · have hlow : 2 ^ (-4 : ℤ) ≤ |ω| := by
        rw [hth] at h
        have h : ¬ |ω| < th := h
        have e : (2:ℝ) ^ (-4:ℤ) = 1 / 2 ^ 4 := by norm_num
        rw [e]; exact hth'.trans (not_lt.1 h)
      exact mag_div 12 (mag_mul 8 (mag_mul 7 m2 mv (by norm_num)) (mag_sin hL mh) (by norm_num)) hlow (by norm_num)
  have mdist : Mag 14 ((arith exp).div (e.chord (arith exp) L (.fin v') (.fin ω) ((arith exp).mul (.fin ω) e.period)) (.fin c)) :=
    mag_div (j := -2) 14 mch (by
      rw [abs_of_pos (by linarith)]
      norm_num; linarith) (by norm_num)
  have mm : Mag 32 ((arith exp).add ((arith exp).sub st.theta.x (.fin t')) ((arith exp).div ((arith exp).mul (.fin ω) e.period) (.fin 2))) :=
    mag_add 32 (mag_sub 31 mt ms (by norm_num)) mh (by norm_num)
  have msin := mag_sin hL mm
  have mcos := mag_cos hL mm
  have key : Out (e.estimate (arith exp) L st s).2 := by
    unfold Estimator.estimate
    simp only [hω, hv1, ht1, ha, hc]
    exact ⟨⟨mag_acc 15 mx (mag_mul 15 mdist mcos (by norm_num)) (by norm_num), mag_mul 7 mv mcos (by norm_num),
        mag_mul 19 ma mcos (by norm_num)⟩,
      ⟨mag_acc 15 my (mag_mul 15 mdist msin (by norm_num)) (by norm_num), mag_mul 7 mv msin (by norm_num),
        mag_mul 19 ma msin (by norm_num)⟩,
      ⟨mag_acc 5 mt md (by norm_num), mω, by
        rw [S.period]
        exact mag_div 23 (mag_sub 11 mω mo (by norm_num)) lp (by norm_num)⟩⟩
  refine ⟨⟨?_, ⟨v', ?_, hv2⟩, ⟨t', ?_, ht2⟩, key.x.1, key.y.1, key.theta.1, key.theta.2.1⟩, key⟩
  · exact ⟨S.low, S.high, S.wheels, S.change, S.speed, S.turn, S.period, S.alpha, S.slipConst, S.approxTh⟩
  · exact hv1
  · show e.nextSlip (arith exp) (e.nextVel (arith exp) s) s.omega = _
    rw [hv1, hω, ht1]

/-! ## Navigation, tracker, controller -/

theorem nav_step {n : Navigation} (h1 : Mag 8 n.gain) (h2 : Mag 8 n.dgain) {s : State} (O : Out s) {t : Target} (T : Sane t) :
    Mag 50 (n.navigate (arith exp) s t).ux ∧ Mag 50 (n.navigate (arith exp) s t).uy ∧
    Mag 30 (n.navigate (arith exp) s t).dux ∧ Mag 30 (n.navigate (arith exp) s t).duy := by
  obtain ⟨⟨x1, x2, x3⟩, ⟨y1, y2, y3⟩, -⟩ := O
  obtain ⟨⟨a1, a2, a3, a4⟩, ⟨b1, b2, b3, b4⟩, -⟩ := T
  refine ⟨?_, ?_, ?_, ?_⟩
  · exact mag_add 50 (mag_add 17 a3 (mag_mul 16 h2 (mag_sub 8 a2 x2 (by norm_num)) (by norm_num)) (by norm_num))
      (mag_mul 49 h1 (mag_sub 41 a1 x1 (by norm_num)) (by norm_num)) (by norm_num)
  · exact mag_add 50 (mag_add 17 b3 (mag_mul 16 h2 (mag_sub 8 b2 y2 (by norm_num)) (by norm_num)) (by norm_num))
      (mag_mul 49 h1 (mag_sub 41 b1 y1 (by norm_num)) (by norm_num)) (by norm_num)
  · exact mag_add 30 (mag_add 29 a4 (mag_mul 28 h2 (mag_sub 20 a3 x3 (by norm_num)) (by norm_num)) (by norm_num))
      (mag_mul 16 h1 (mag_sub 8 a2 x2 (by norm_num)) (by norm_num)) (by norm_num)
  · exact mag_add 30 (mag_add 29 b4 (mag_mul 28 h2 (mag_sub 20 b3 y3 (by norm_num)) (by norm_num)) (by norm_num))
      (mag_mul 16 h1 (mag_sub 8 b2 y2 (by norm_num)) (by norm_num)) (by norm_num)

theorem trunc_rem {r m : ℝ} (hm : 0 < m) : |r - m * trunc (r / m)| ≤ m := by
  have e : r - m * trunc (r / m) = m * (r / m - trunc (r / m)) := by field_simp
  have h : |r / m - trunc (r / m)| ≤ 1 := by
    unfold trunc
    split_ifs
    · rw [abs_le]; constructor <;> linarith [Int.floor_le (r / m), Int.lt_floor_add_one (r / m)]
    · rw [abs_le]; constructor <;> linarith [Int.le_ceil (r / m), Int.ceil_lt_add_one (r / m)]
  rw [e, abs_mul, abs_of_pos hm]
  exact mul_le_of_le_one_right hm.le h

theorem mag_normalize (hL : Fair L) {k : ℤ} {x : F} (h : Mag k x) : Mag 2 (normalizeAngle (arith exp) L x) := by
  obtain ⟨r, rfl, -⟩ := h
  obtain ⟨p1, p2⟩ := hL.pi
  have hrem := trunc_rem (r := r) (show (0:ℝ) < 2 * L.pi by linarith)
  obtain ⟨q, hq⟩ : ∃ q, q = r - 2 * L.pi * trunc (r / (2 * L.pi)) := ⟨_, rfl⟩
  rw [← hq] at hrem
  obtain ⟨q1, q2⟩ := abs_le.1 hrem
  have h8 : round24 8 = 8 := by have := round24_two (k := 3) (by norm_num); norm_num at this; exact this
  -- the remainder is between 0 and 8
  have raw : ∃ y, remEuclid (arith exp) (.fin r) (2 * L.pi) = .fin y ∧ 0 ≤ y ∧ y ≤ 8 := by
    unfold remEuclid
    dsimp only
    rw [← hq]
    split_ifs with h
    · have h0 := round24_nonneg (show (0:ℝ) ≤ q + 2 * L.pi by linarith)
      have h1 : round24 (q + 2 * L.pi) ≤ 8 := h8 ▸ round24_mono (by linarith)
      refine ⟨round24 (q + 2 * L.pi), rnd_of_lt ?_, h0, h1⟩
      rw [abs_of_nonneg h0]
      exact h1.trans_lt (by norm_num)
    · exact ⟨q, rfl, by linarith, by linarith⟩
  obtain ⟨y, hy, y0, y8⟩ := raw
  unfold normalizeAngle
  dsimp only
  rw [hy]
  split_ifs with h
  · have h : L.pi < y := h
    show Mag 2 (rnd (y + -(2 * L.pi)))
    refine rnd_mag ?_ (by norm_num) (by norm_num)
    rw [abs_le]; norm_num; constructor <;> linarith
  · have h : ¬ L.pi < y := h
    refine mag_fin ?_
    rw [abs_le]; norm_num; constructor <;> linarith

theorem mag_sinc {x : F} (h : Mag 2 x) : Mag 5 (sinc (arith exp) x) := by
  have h2 : Mag 4 ((arith exp).mul x x) := mag_mul 4 h h (by norm_num)
  have h4 : Mag 8 ((arith exp).mul ((arith exp).mul x x) ((arith exp).mul x x)) := mag_mul 8 h2 h2 (by norm_num)
  unfold sinc
  exact mag_add 5 (mag_sub 4 (mag_add 3 (mag_sub 1
    (mag_div (j := 18) (-2) (mag_mul 16 h4 h4 (by norm_num)) (by norm_num) (by norm_num))
    (mag_div (j := 12) 0 (mag_mul 12 h4 h2 (by norm_num)) (by norm_num) (by norm_num)) (by norm_num))
    (mag_div (j := 6) 2 h4 (by norm_num) (by norm_num)) (by norm_num))
    (mag_div (j := 2) 2 h2 (by norm_num) (by norm_num)) (by norm_num)) (mag_fin (k := 0) (by norm_num)) (by norm_num)

/-- What a reference or a measured value may be. -/
structure Ctl (c : ControlTarget) : Prop where
  v : Mag 78 c.v
  a : Mag 115 c.a
  omega : Mag 68 c.omega
  alpha : Mag 115 c.alpha

/-- What is true of the tracker in every round. -/
structure Trk (p : ℝ) (k : Tracker) : Prop where
  period : Mag (-5) k.period
  xi : Mag 72 k.xi
  threshold : ∃ t : ℝ, k.xiThreshold = .fin t ∧ 1 / 2 ^ 4 ≤ t
  zeta : Mag 4 k.zeta
  b : ∃ b : ℝ, k.b = .fin b ∧ 0 ≤ b ∧ b ≤ 2 ^ 10

theorem root_arg {w b v : ℝ} (hb : 0 ≤ b) {i j : ℤ} (h1 : Mag i ((arith exp).mul (.fin w) (.fin w)))
    (h2 : Mag j ((arith exp).mul (.fin b) (.fin v))) {l : ℤ}
    (h3 : Mag l ((arith exp).mul ((arith exp).mul (.fin b) (.fin v)) (.fin v))) {k : ℤ}
    (h4 : Mag k ((arith exp).add ((arith exp).mul (.fin w) (.fin w))
      ((arith exp).mul ((arith exp).mul (.fin b) (.fin v)) (.fin v)))) :
    ∃ r, (arith exp).add ((arith exp).mul (.fin w) (.fin w)) ((arith exp).mul ((arith exp).mul (.fin b) (.fin v)) (.fin v)) = .fin r ∧
      0 ≤ r := by
  obtain ⟨x, hx, -⟩ := h1
  obtain ⟨y, hy, -⟩ := h2
  rw [hy] at h3 h4 ⊢
  obtain ⟨z, hz, -⟩ := h3
  rw [hx, hz] at h4 ⊢
  obtain ⟨r, hr, -⟩ := h4
  refine ⟨r, hr, ?_⟩
  have ex := (rnd_fin (show rnd (w * w) = .fin x from hx)).1
  have ey := (rnd_fin (show rnd (b * v) = .fin y from hy)).1
  have ez := (rnd_fin (show rnd (y * v) = .fin z from hz)).1
  have er := (rnd_fin (show rnd (x + z) = .fin r from hr)).1
  rw [er]
  refine round24_nonneg (add_nonneg ?_ ?_)
  · rw [ex]; exact round24_nonneg (mul_self_nonneg w)
  · rw [ez]
    refine round24_nonneg ?_
    rcases le_total 0 v with hv | hv
    · exact mul_nonneg (by rw [ey]; exact round24_nonneg (mul_nonneg hb hv)) hv
    · refine mul_nonneg_of_nonpos_of_nonpos ?_ hv
      rw [ey]
      have := round24_mono (mul_nonpos_of_nonneg_of_nonpos hb hv)
      rwa [round24_zero] at this

theorem mag_root (hL : Fair L) {r : ℝ} (h : Mag 27 (.fin r)) (h0 : 0 ≤ r) : Mag 29 (L.sqrt (.fin r)) := by
  obtain ⟨a, ha, hr⟩ := h
  injection ha with ha
  subst ha
  obtain ⟨s, hs, hs'⟩ := hL.sqrt r h0
  rw [hs]
  refine mag_fin ?_
  rw [abs_of_nonneg h0] at hr
  norm_num at hr ⊢
  linarith

theorem fast_ctl {sn cs dxi : F} (h1 : Mag 1 sn) (h2 : Mag 1 cs) (h3 : Mag 52 dxi) {x : ℝ} (h4 : Mag 72 (.fin x))
    (h5 : 2 ^ (-4 : ℤ) ≤ |x|) {i : Input} (I : Mag 50 i.ux ∧ Mag 50 i.uy ∧ Mag 30 i.dux ∧ Mag 30 i.duy) :
    Ctl (fast (arith exp) sn cs dxi (.fin x) i) := by
  obtain ⟨i1, i2, i3, i4⟩ := I
  have m2 : Mag 1 (.fin 2) := mag_fin (by norm_num)
  have hw : Mag 56 ((arith exp).div ((arith exp).sub ((arith exp).mul i.uy cs) ((arith exp).mul i.ux sn)) (.fin x)) :=
    mag_div 56 (mag_sub 52 (mag_mul 51 i2 h2 (by norm_num)) (mag_mul 51 i1 h1 (by norm_num)) (by norm_num)) h5 (by norm_num)
  exact ⟨h4.weaken (by norm_num), h3.weaken (by norm_num), hw.weaken (by norm_num), mag_neg (mag_div 115 (mag_sub 111
    (mag_add 110 (mag_mul 109 (mag_mul 53 m2 h3 (by norm_num)) hw (by norm_num)) (mag_mul 31 i3 h1 (by norm_num)) (by norm_num))
    (mag_mul 31 i4 h2 (by norm_num)) (by norm_num)) h5 (by norm_num))⟩

theorem slow_ctl (hL : Fair L) {k : Tracker} (K : Trk p k) {sn cs sr cr vr : F} (h1 : Mag 1 sn) (h2 : Mag 1 cs) (h3 : Mag 1 sr)
    (h4 : Mag 1 cr) (h5 : Mag 8 vr) {s : State} (O : Out s) {t : Target} (T : Sane t) :
    Ctl (slow (arith exp) L k sn cs sr cr vr s t) := by
  obtain ⟨⟨x1, -, -⟩, ⟨y1, -, -⟩, ⟨o1, -, -⟩⟩ := O
  obtain ⟨⟨a1, -, a3, -⟩, ⟨b1, -, b3, -⟩, ⟨c1, c2, c3⟩⟩ := T
  obtain ⟨b, hb, b0, bb⟩ := K.b
  obtain ⟨v, rfl, hv⟩ := h5
  obtain ⟨wr, hw, hw'⟩ := c2
  have m2 : Mag 1 (.fin 2) := mag_fin (by norm_num)
  have mb : Mag 10 (.fin b) := mag_fin (by rw [abs_of_nonneg b0]; norm_num at bb ⊢; exact bb)
  have mv : Mag 8 (.fin v) := mag_fin hv
  have mw : Mag 10 (.fin wr) := mag_fin hw'
  have hth : Mag 2 (normalizeAngle (arith exp) L ((arith exp).sub t.theta.x s.theta.x)) :=
    mag_normalize hL (mag_sub 31 c1 o1 (by norm_num))
  have hsq : Mag 20 ((arith exp).mul (.fin wr) (.fin wr)) := mag_mul 20 mw mw (by norm_num)
  have hbv : Mag 18 ((arith exp).mul (.fin b) (.fin v)) := mag_mul 18 mb mv (by norm_num)
  have hbvv : Mag 26 ((arith exp).mul ((arith exp).mul (.fin b) (.fin v)) (.fin v)) := mag_mul 26 hbv mv (by norm_num)
  have hsum := mag_add (exp := exp) 27 hsq hbvv (by norm_num)
  obtain ⟨r, hr, hr0⟩ := root_arg b0 hsq hbv hbvv hsum
  rw [hr] at hsum
  have hk := mag_mul (exp := exp) 34 (mag_mul (exp := exp) 5 m2 K.zeta (by norm_num)) (mag_root hL hsum hr0) (by norm_num)
  have mxd := mag_sub (exp := exp) 41 a1 x1 (by norm_num)
  have myd := mag_sub (exp := exp) 41 b1 y1 (by norm_num)
  unfold slow
  dsimp only
  rw [hb, hw, hr]
  exact ⟨mag_add 78 (mag_mul 9 mv (mag_cos hL hth) (by norm_num)) (mag_mul 77 hk
      (mag_add 43 (mag_mul 42 mxd h2 (by norm_num)) (mag_mul 42 myd h1 (by norm_num)) (by norm_num)) (by norm_num)) (by norm_num),
    (mag_add 12 (mag_mul 11 a3 h4 (by norm_num)) (mag_mul 11 b3 h3 (by norm_num)) (by norm_num)).weaken (by norm_num),
    mag_add 68 (mag_add 67 mw (mag_mul 66 (mag_mul 61 hbv (mag_add 43 (mag_mul 42 (mag_neg mxd) h1 (by norm_num))
      (mag_mul 42 myd h2 (by norm_num)) (by norm_num)) (by norm_num)) (mag_sinc hth) (by norm_num)) (by norm_num))
      (mag_mul 36 hk hth (by norm_num)) (by norm_num),
    c3.weaken (by norm_num)⟩

theorem trk_step (hL : Fair L) {k : Tracker} (K : Trk p k) {s : State} (O : Out s) {t : Target} (T : Sane t) {i : Input}
    (I : Mag 50 i.ux ∧ Mag 50 i.uy ∧ Mag 30 i.dux ∧ Mag 30 i.duy) :
    Trk p (k.track (arith exp) L s t i).1 ∧ Ctl (k.track (arith exp) L s t i).2.1 ∧ Ctl (k.track (arith exp) L s t i).2.2 := by
  have hs := mag_sin hL O.theta.1
  have hc := mag_cos hL O.theta.1
  have hsr := mag_sin hL T.theta.1
  have hcr := mag_cos hL T.theta.1
  have hdxi : Mag 52 ((arith exp).add ((arith exp).mul i.ux (L.cos s.theta.x)) ((arith exp).mul i.uy (L.sin s.theta.x))) :=
    mag_add 52 (mag_mul 51 I.1 hc (by norm_num)) (mag_mul 51 I.2.1 hs (by norm_num)) (by norm_num)
  have hxi := mag_acc (exp := exp) 47 (K.xi) (mag_mul (exp := exp) 47 K.period hdxi (by norm_num)) (by norm_num)
  have hvr : Mag 8 ((arith exp).add ((arith exp).mul t.x.v (L.cos t.theta.x)) ((arith exp).mul t.y.v (L.sin t.theta.x))) :=
    mag_add 8 (mag_mul 7 T.x.2.1 hcr (by norm_num)) (mag_mul 7 T.y.2.1 hsr (by norm_num)) (by norm_num)
  refine ⟨⟨K.period, hxi, K.threshold, K.zeta, K.b⟩, ?_, ?_⟩
  · unfold Tracker.track
    dsimp only
    obtain ⟨x, hx, hx'⟩ := hxi
    rw [hx]
    split_ifs with h
    · refine fast_ctl hs hc hdxi (mag_fin hx') ?_ I
      obtain ⟨th, hth, hth'⟩ := K.threshold
      have := h.2
      rw [hth] at this
      have : th < |x| := this
      have e : (2:ℝ) ^ (-4:ℤ) = 1 / 2 ^ 4 := by norm_num
      rw [e]; linarith
    · exact slow_ctl hL K hs hc hsr hcr hvr O T
  · exact ⟨(mag_add (exp := exp) 9 (mag_mul (exp := exp) 8 O.x.2.1 hc (by norm_num))
        (mag_mul (exp := exp) 8 O.y.2.1 hs (by norm_num)) (by norm_num)).weaken (by norm_num),
      (mag_add (exp := exp) 21 (mag_mul (exp := exp) 20 O.x.2.2 hc (by norm_num))
        (mag_mul (exp := exp) 20 O.y.2.2 hs (by norm_num)) (by norm_num)).weaken (by norm_num),
      O.theta.2.1.weaken (by norm_num), O.theta.2.2.weaken (by norm_num)⟩

theorem each_step {r dr y dy : F} {q : Params} {per sum : F} (h1 : Mag 78 r) (h2 : Mag 115 dr) (h3 : Mag 78 y) (h4 : Mag 115 dy)
    (Q : Moderate q) (h5 : Mag (-5) per) (h6 : Mag 99 sum) :
    Mag 121 (controlEach (arith exp) r dr y dy q per sum).1 ∧ Mag 99 (controlEach (arith exp) r dr y dy q per sum).2 := by
  obtain ⟨k, hk, hk'⟩ := Q.modelK
  have hd := mag_sub (exp := exp) 79 h1 h3 (by norm_num)
  have hdd := mag_sub (exp := exp) 116 h2 h4 (by norm_num)
  unfold controlEach
  dsimp only
  rw [hk]
  exact ⟨mag_add 121 (mag_add 120 (mag_add 119
      (mag_div (j := -2) 118 (mag_add 116 (mag_mul 115 h2 Q.modelT1 (by norm_num)) h1 (by norm_num)) (by norm_num at hk' ⊢; exact hk') (by norm_num))
      (mag_mul 87 Q.kp hd (by norm_num)) (by norm_num)) (mag_mul 107 Q.ki h6 (by norm_num)) (by norm_num))
      (mag_mul 118 Q.kd hdd (by norm_num)) (by norm_num),
    mag_acc 74 h6 (mag_mul 74 hd h5 (by norm_num)) (by norm_num)⟩

/-- What is true of the controller in every round. -/
structure Con (c : Controller) : Prop where
  trans : Moderate c.trans
  rot : Moderate c.rot
  transSum : Mag 99 c.transSum
  rotSum : Mag 99 c.rotSum
  period : Mag (-5) c.period

theorem con_step {c : Controller} (C : Con c) {r y : ControlTarget} (R : Ctl r) (Y : Ctl y) :
    Con (c.control (arith exp) r y).1 ∧ Mag 122 (c.control (arith exp) r y).2.left ∧ Mag 122 (c.control (arith exp) r y).2.right := by
  have h1 := each_step (exp := exp) R.v R.a Y.v Y.a C.trans C.period C.transSum
  have h2 := each_step (exp := exp) (R.omega.weaken (by norm_num)) R.alpha (Y.omega.weaken (by norm_num)) Y.alpha C.rot C.period C.rotSum
  exact ⟨⟨C.trans, C.rot, h1.2, h2.2, C.period⟩, mag_sub 122 h1.1 h2.1 (by norm_num), mag_add 122 h1.1 h2.1 (by norm_num)⟩

/-! ## C121 -/

/-- What is true of the robot in every round. -/
structure Rob (p W w Ω V : ℝ) (r : Robot) : Prop where
  est : Est p W w Ω V r.estimator r.state
  nav : Mag 8 r.navigation.gain ∧ Mag 8 r.navigation.dgain
  trk : Trk p r.tracker
  con : Con r.controller

theorem rob_step (hL : Fair L) {r : Robot} (H : Rob p W w Ω V r) {s : Sensor} (P : Plausible p W w Ω s) {t : Target} (T : Sane t) :
    Rob p W w Ω V (r.round (arith exp) L s t).1 ∧ Out (r.round (arith exp) L s t).1.state ∧
    Mag 122 (r.round (arith exp) L s t).2.left ∧ Mag 122 (r.round (arith exp) L s t).2.right := by
  obtain ⟨e1, o1⟩ := est_step (exp := exp) hL H.est P
  have i1 := nav_step (exp := exp) H.nav.1 H.nav.2 o1 T
  obtain ⟨t1, c1, c2⟩ := trk_step (exp := exp) hL H.trk o1 T i1
  obtain ⟨k1, v1, v2⟩ := con_step (exp := exp) H.con c1 c2
  exact ⟨⟨e1, H.nav, t1, k1⟩, o1, v1, v2⟩

theorem rob_start {r : Robot} (B : Assembled p W w Ω V r) : Rob p W w Ω V r := by
  obtain ⟨mp, lp⟩ := suits_mag B.estimator
  have z : ∀ k : ℤ, Mag k (.fin 0) := fun k => mag_fin (by rw [abs_zero]; exact (pow_pos' k).le)
  rw [B.estimator.period] at mp
  refine ⟨⟨B.estimator, ⟨0, B.fresh.2, by rw [abs_zero]; linarith [B.estimator.speed.1]⟩, ⟨0, B.fresh.1, by norm_num⟩,
    B.place.1.weaken (by norm_num), B.place.2.1.weaken (by norm_num), B.place.2.2.1.weaken (by norm_num), B.place.2.2.2⟩, B.navigation,
    ⟨by rw [B.tracker.2]; exact mp, by rw [B.tracker.1]; exact z _, B.threshold, B.zeta, B.b⟩,
    ⟨B.trans, B.rot, by rw [B.controller.1]; exact z _, by rw [B.controller.2.1]; exact z _, by rw [B.controller.2.2]; exact mp⟩⟩

/-- C121: however long the robot drives, in single precision no voltage, and nothing the robot remembers, is ever infinite or not a
number, if the sensors are plausible and the targets sane. -/
theorem C121_finite (hL : Fair L) {r : Robot} (B : Assembled p W w Ω V r) (l : List (Sensor × Target))
    (hl : ∀ q ∈ l, Plausible p W w Ω q.1 ∧ Sane q.2) :
    (∀ o ∈ (roundsOf (arith exp) L r l).2, Mag 122 o.left ∧ Mag 122 o.right) ∧
    Mag 40 (roundsOf (arith exp) L r l).1.state.x.x ∧ Mag 40 (roundsOf (arith exp) L r l).1.state.y.x ∧
    Mag 30 (roundsOf (arith exp) L r l).1.state.theta.x ∧
    (∃ v, (roundsOf (arith exp) L r l).1.estimator.vel = .fin v ∧ |v| ≤ V) ∧
    (∃ t, (roundsOf (arith exp) L r l).1.estimator.slip = .fin t ∧ |t| ≤ 5 / 4) ∧
    Mag 72 (roundsOf (arith exp) L r l).1.tracker.xi ∧
    Mag 99 (roundsOf (arith exp) L r l).1.controller.transSum ∧ Mag 99 (roundsOf (arith exp) L r l).1.controller.rotSum := by
  have key : ∀ (l : List (Sensor × Target)) (r : Robot), Rob p W w Ω V r → (∀ q ∈ l, Plausible p W w Ω q.1 ∧ Sane q.2) →
      (∀ o ∈ (roundsOf (arith exp) L r l).2, Mag 122 o.left ∧ Mag 122 o.right) ∧ Rob p W w Ω V (roundsOf (arith exp) L r l).1 := by
    intro l
    induction l with
    | nil => intro r H _; exact ⟨fun o ho => absurd ho List.not_mem_nil, H⟩
    | cons q l ih =>
      intro r H hq
      obtain ⟨s, t⟩ := q
      obtain ⟨P, T⟩ := hq _ List.mem_cons_self
      obtain ⟨H', -, v1, v2⟩ := rob_step (exp := exp) hL H P T
      obtain ⟨a, b⟩ := ih _ H' fun q hq' => hq q (List.mem_cons_of_mem _ hq')
      refine ⟨fun o ho => ?_, b⟩
      rcases List.mem_cons.1 ho with rfl | ho
      · exact ⟨v1, v2⟩
      · exact a o ho
  obtain ⟨a, H⟩ := key l r (rob_start B) hl
  exact ⟨a, H.est.x, H.est.y, H.est.theta, H.est.vel, H.est.slip, H.trk.xi, H.con.transSum, H.con.rotSum⟩

/-! ## With exact arithmetic this is the model in real numbers -/

theorem exact_add (a b : ℝ) : exact.add (.fin a) (.fin b) = .fin (a + b) := rfl
theorem exact_sub (a b : ℝ) : exact.sub (.fin a) (.fin b) = .fin (a - b) := by rw [sub_eq_add_neg]; rfl
theorem exact_mul (a b : ℝ) : exact.mul (.fin a) (.fin b) = .fin (a * b) := rfl
theorem exact_div (a b : ℝ) (h : b ≠ 0) : exact.div (.fin a) (.fin b) = .fin (a / b) := by
  show (if b = 0 then _ else _) = _
  rw [if_neg h]; rfl

theorem exact_vel (e : Estimate.Estimator) (s : Estimate.Sensor) (hp : e.period ≠ 0) :
    (estimatorOf e).nextVel exact (sensorOf s) = .fin (e.nextVel s) := by
  unfold Estimator.nextVel Estimate.Estimator.nextVel estimatorOf sensorOf
  dsimp only
  rw [exact_div _ _ hp, exact_div _ _ hp, exact_add, exact_div _ _ two_ne_zero, exact_mul, exact_add, exact_mul, exact_sub, exact_mul,
    exact_add]

theorem exact_slip (e : Estimate.Estimator) (v ω : ℝ) (hp : 0 < e.period) (hc : 0 < e.slipConst) :
    (estimatorOf e).nextSlip exact (.fin v) (.fin ω) = .fin (e.nextSlip v ω) := by
  unfold Estimator.nextSlip Estimate.Estimator.nextSlip estimatorOf
  dsimp only
  rw [exact_div _ _ hp.ne', exact_mul, exact_add]
  split_ifs with h
  · subst h
    have : exact.div (.fin e.slipConst) (F.fin 0).abs = .pinf := by
      show (if |(0:ℝ)| = 0 then F.infOf e.slipConst else _) = _
      rw [if_pos abs_zero]
      unfold F.infOf
      rw [if_pos hc]
    rw [this]; rfl
  · have hv : 0 < |v| := abs_pos.2 h
    show exact.div _ (exact.add _ (exact.div _ (.fin |v|))) = _
    rw [exact_div _ _ hv.ne', exact_add, exact_div]
    positivity

/-- C121: with exact arithmetic and the same functions, the estimator is the one in real numbers. -/
theorem C121_estimator (T : Control.Trig) (pi : ℝ) (e : Estimate.Estimator) (st : Control.State) (s : Estimate.Sensor)
    (hp : 0 < e.period) (hc : 0 < e.slipConst) (ht : 0 < e.approxTh) (hs : T.cos (e.nextSlip (e.nextVel s) s.omega) ≠ 0) :
    (estimatorOf e).estimate exact (libOf T pi) (stateOf st) (sensorOf s) =
      (estimatorOf (e.estimate T st s).1, stateOf (e.estimate T st s).2) := by
  have hch : ∀ v : ℝ, (estimatorOf e).chord exact (libOf T pi) (.fin v) (.fin s.omega) (.fin (s.omega * e.period)) =
      .fin (if |s.omega| < e.approxTh then v * e.period else 2 * v * T.sin (s.omega * e.period / 2) / s.omega) := by
    intro v
    unfold Estimator.chord
    by_cases h : |s.omega| < e.approxTh
    · rw [if_pos h, if_pos (show (F.fin s.omega).abs.lt (estimatorOf e).approxTh from h)]
      exact exact_mul _ _
    · rw [if_neg h, if_neg (show ¬ (F.fin s.omega).abs.lt (estimatorOf e).approxTh from h)]
      have h0 : s.omega ≠ 0 := by
        intro h0
        rw [h0, abs_zero] at h
        exact h ht
      rw [exact_div _ _ two_ne_zero, exact_mul]
      show exact.div (exact.mul _ (.fin (T.sin (s.omega * e.period / 2)))) _ = _
      rw [exact_mul, exact_div _ _ h0]
  unfold Estimator.estimate Estimate.Estimator.estimate
  rw [exact_vel e s hp.ne']
  dsimp only
  rw [show (sensorOf s).omega = .fin s.omega from rfl, exact_slip e _ _ hp hc, show (estimatorOf e).period = .fin e.period from rfl,
    exact_mul, hch, show (libOf T pi).cos (.fin (e.nextSlip (e.nextVel s) s.omega)) = .fin (T.cos (e.nextSlip (e.nextVel s) s.omega)) from rfl,
    exact_div _ _ hs, exact_div _ _ two_ne_zero, show (stateOf st).theta.x = .fin st.theta.x from rfl, exact_sub, exact_add]
  have h1 : exact.div (exact.sub (.fin s.omega) (stateOf st).theta.v) (.fin e.period) = .fin ((s.omega - st.theta.v) / e.period) := by
    rw [show (stateOf st).theta.v = .fin st.theta.v from rfl, exact_sub, exact_div _ _ hp.ne']
  rw [h1]
  rfl

/-- C121: so is navigation. -/
theorem C121_navigation (n : Control.Navigation) (s : Control.State) (t : Control.Target) :
    (navigationOf n).navigate exact (stateOf s) (targetOf t) = inputOf (n.navigate s t) := by
  unfold Navigation.navigate Control.Navigation.navigate Navigation.sum navigationOf stateOf targetOf inputOf axisOf axisStateOf
  simp only [exact_sub, exact_mul, exact_add]

theorem exact_rem (r m : ℝ) (hm : 0 < m) : remEuclid exact (.fin r) m = .fin (r - m * ⌊r / m⌋) := by
  have e : ∀ z : ℝ, r - m * z = m * (r / m - z) := fun z => by field_simp
  unfold remEuclid trunc
  dsimp only
  by_cases h : 0 ≤ r / m
  · rw [if_pos h, if_neg]
    rw [e, not_lt]
    exact mul_nonneg hm.le (by linarith [Int.floor_le (r / m)])
  · rw [if_neg h]
    by_cases hi : ((⌈r / m⌉ : ℤ) : ℝ) = r / m
    · have hf : ⌊r / m⌋ = ⌈r / m⌉ := by
        rw [Int.floor_eq_iff]; constructor <;> linarith
      rw [hf, if_neg]
      rw [e, hi]; simp
    · have hlt : r / m < ⌈r / m⌉ := lt_of_le_of_ne (Int.le_ceil _) (Ne.symm hi)
      have hf : ⌊r / m⌋ = ⌈r / m⌉ - 1 := by
        rw [Int.floor_eq_iff]; push_cast; constructor <;> linarith [Int.ceil_lt_add_one (r / m)]
      rw [if_pos (by rw [e]; exact mul_neg_of_pos_of_neg hm (by linarith)), exact_add, hf]
      congr 1; push_cast; ring

theorem exact_normalize (T : Control.Trig) (pi r : ℝ) (hpi : 0 < pi) :
    normalizeAngle exact (libOf T pi) (.fin r) = .fin (Control.normalizeAngle pi r) := by
  unfold normalizeAngle Control.normalizeAngle
  dsimp only
  rw [show (libOf T pi).pi = pi from rfl, exact_rem _ _ (by linarith)]
  by_cases h : pi < r - 2 * pi * ⌊r / (2 * pi)⌋
  · rw [if_pos h, if_pos (show (F.fin pi).lt (.fin _) from h), exact_sub]
  · rw [if_neg h, if_neg (show ¬ (F.fin pi).lt (.fin _) from h)]

theorem exact_sinc (x : ℝ) : sinc exact (.fin x) = .fin (Control.sinc x) := by
  unfold sinc Control.sinc
  dsimp only
  rw [exact_mul, exact_mul, exact_mul, exact_mul, exact_div _ _ (by norm_num), exact_div _ _ (by norm_num), exact_div _ _ (by norm_num),
    exact_div _ _ (by norm_num), exact_sub, exact_add, exact_sub, exact_add]

open Classical in
/-- C121: so is the tracker. -/
theorem C121_tracker (T : Control.Trig) (pi : ℝ) (hpi : 0 < pi) (k : Control.Tracker) (hk : 0 ≤ k.xiThreshold) (s : Control.State)
    (t : Control.Target) (i : Control.TrackingInput) :
    (trackerOf k).track exact (libOf T pi) (stateOf s) (targetOf t) (inputOf i) =
      (trackerOf (k.track T pi s t i).1, referenceOf (k.track T pi s t i).2.1, referenceOf (k.track T pi s t i).2.2) := by
  have hfast : ∀ sn cs dxi xi : ℝ, xi ≠ 0 → fast exact (.fin sn) (.fin cs) (.fin dxi) (.fin xi) (inputOf i) =
      referenceOf { v := xi, a := dxi, omega := (i.uy * cs - i.ux * sn) / xi,
                    alpha := -((2 * dxi * ((i.uy * cs - i.ux * sn) / xi) + i.dux * sn - i.duy * cs) / xi) } := by
    intro sn cs dxi xi h
    unfold fast inputOf referenceOf
    dsimp only
    simp only [exact_mul, exact_sub, exact_add, exact_div _ _ h]
    rfl
  have hslow : ∀ sn cs sr cr vr : ℝ,
      slow exact (libOf T pi) (trackerOf k) (.fin sn) (.fin cs) (.fin sr) (.fin cr) (.fin vr) (stateOf s) (targetOf t) =
      referenceOf
        { v := vr * T.cos (Control.normalizeAngle pi (t.theta.x - s.theta.x)) +
            2 * k.zeta * Real.sqrt (t.theta.v * t.theta.v + k.b * vr * vr) * ((t.x.x - s.x.x) * cs + (t.y.x - s.y.x) * sn)
          a := t.x.a * cr + t.y.a * sr
          omega := t.theta.v + k.b * vr * (-(t.x.x - s.x.x) * sn + (t.y.x - s.y.x) * cs) *
              Control.sinc (Control.normalizeAngle pi (t.theta.x - s.theta.x)) +
            2 * k.zeta * Real.sqrt (t.theta.v * t.theta.v + k.b * vr * vr) * Control.normalizeAngle pi (t.theta.x - s.theta.x)
          alpha := t.theta.a } := by
    intro sn cs sr cr vr
    have hn : ∀ a : ℝ, (F.fin a).neg = .fin (-a) := fun _ => rfl
    have hq : ∀ a : ℝ, (libOf T pi).sqrt (.fin a) = .fin (Real.sqrt a) := fun _ => rfl
    have hcos : ∀ a : ℝ, (libOf T pi).cos (.fin a) = .fin (T.cos a) := fun _ => rfl
    unfold slow trackerOf stateOf targetOf axisOf axisStateOf referenceOf
    dsimp only
    simp only [exact_mul, exact_sub, exact_add, exact_normalize T pi _ hpi, exact_sinc, hn, hq, hcos]
  have key : ∀ sn cs dxi xi sr cr vr : ℝ,
      (if (trackerOf k).xiThreshold.lt (F.fin vr).abs ∧ (trackerOf k).xiThreshold.lt (F.fin xi).abs then
        fast exact (.fin sn) (.fin cs) (.fin dxi) (.fin xi) (inputOf i)
      else slow exact (libOf T pi) (trackerOf k) (.fin sn) (.fin cs) (.fin sr) (.fin cr) (.fin vr) (stateOf s) (targetOf t)) =
      referenceOf (if k.xiThreshold < |vr| ∧ k.xiThreshold < |xi| then
        { v := xi, a := dxi, omega := (i.uy * cs - i.ux * sn) / xi,
          alpha := -((2 * dxi * ((i.uy * cs - i.ux * sn) / xi) + i.dux * sn - i.duy * cs) / xi) }
      else
        { v := vr * T.cos (Control.normalizeAngle pi (t.theta.x - s.theta.x)) +
            2 * k.zeta * Real.sqrt (t.theta.v * t.theta.v + k.b * vr * vr) * ((t.x.x - s.x.x) * cs + (t.y.x - s.y.x) * sn)
          a := t.x.a * cr + t.y.a * sr
          omega := t.theta.v + k.b * vr * (-(t.x.x - s.x.x) * sn + (t.y.x - s.y.x) * cs) *
              Control.sinc (Control.normalizeAngle pi (t.theta.x - s.theta.x)) +
            2 * k.zeta * Real.sqrt (t.theta.v * t.theta.v + k.b * vr * vr) * Control.normalizeAngle pi (t.theta.x - s.theta.x)
          alpha := t.theta.a }) := by
    intro sn cs dxi xi sr cr vr
    by_cases h : k.xiThreshold < |vr| ∧ k.xiThreshold < |xi|
    · rw [if_pos h, if_pos (show (trackerOf k).xiThreshold.lt (F.fin vr).abs ∧ (trackerOf k).xiThreshold.lt (F.fin xi).abs from h)]
      refine hfast _ _ _ _ ?_
      intro h0
      have := h.2
      rw [h0, abs_zero] at this
      linarith
    · rw [if_neg h, if_neg (show ¬ ((trackerOf k).xiThreshold.lt (F.fin vr).abs ∧ (trackerOf k).xiThreshold.lt (F.fin xi).abs) from h)]
      exact hslow _ _ _ _ _
  unfold Tracker.track Control.Tracker.track
  dsimp only
  have hsin : ∀ a : ℝ, (libOf T pi).sin (.fin a) = .fin (T.sin a) := fun _ => rfl
  have hcos : ∀ a : ℝ, (libOf T pi).cos (.fin a) = .fin (T.cos a) := fun _ => rfl
  have f1 : (stateOf s).theta.x = .fin s.theta.x := rfl
  have f2 : (targetOf t).theta.x = .fin t.theta.x := rfl
  have f3 : (stateOf s).x.v = .fin s.x.v := rfl
  have f4 : (stateOf s).y.v = .fin s.y.v := rfl
  have f5 : (stateOf s).x.a = .fin s.x.a := rfl
  have f6 : (stateOf s).y.a = .fin s.y.a := rfl
  have f7 : (targetOf t).x.v = .fin t.x.v := rfl
  have f8 : (targetOf t).y.v = .fin t.y.v := rfl
  have f9 : (inputOf i).ux = .fin i.ux := rfl
  have f10 : (inputOf i).uy = .fin i.uy := rfl
  have f11 : (trackerOf k).xi = .fin k.xi := rfl
  have f12 : (trackerOf k).period = .fin k.period := rfl
  simp only [f1, f2, f3, f4, f5, f6, f7, f8, f9, f10, f11, f12, hsin, hcos, exact_mul, exact_add]
  rw [key]
  rfl

/-- C121: and the controller. -/
theorem C121_controller (c : Control.Controller) (h1 : c.trans.modelK ≠ 0) (h2 : c.rot.modelK ≠ 0) (r y : Control.ControlTarget) :
    (controllerOf c).control exact (referenceOf r) (referenceOf y) = (controllerOf (c.control r y).1, motorOf (c.control r y).2) := by
  have key : ∀ (q : Control.Params) (r dr y dy per sum : ℝ), q.modelK ≠ 0 →
      controlEach exact (.fin r) (.fin dr) (.fin y) (.fin dy) (paramsOf q) (.fin per) (.fin sum) =
        (.fin (Control.controlEach r dr y dy q per sum).1, .fin (Control.controlEach r dr y dy q per sum).2) := by
    intro q r dr y dy per sum h
    unfold controlEach Control.controlEach paramsOf
    simp only [exact_mul, exact_add, exact_sub, exact_div _ _ h]
  unfold Controller.control Control.Controller.control controllerOf referenceOf motorOf
  dsimp only
  rw [key _ _ _ _ _ _ _ h1, key _ _ _ _ _ _ _ h2]
  dsimp only
  rw [exact_sub, exact_add]

/-! ## Values that are not numbers stay -/

theorem add_nan (A : Arith) (x : F) : A.add x .nan = .nan := by cases x <;> rfl
theorem nan_add (A : Arith) (x : F) : A.add .nan x = .nan := rfl
theorem mul_nan (A : Arith) (x : F) : A.mul x .nan = .nan := by cases x <;> rfl
theorem nan_mul (A : Arith) (x : F) : A.mul .nan x = .nan := rfl

/-- A round that starts, or whose sensors say, that the heading is not a number. -/
theorem poisoned (A : Arith) (L : Lib) (h1 : L.sin .nan = .nan) (h2 : L.cos .nan = .nan) (r : Robot) (s : Sensor) (t : Target)
    (h : r.state.theta.x = .nan ∨ s.omega = .nan) :
    (r.round A L s t).1.state.theta.x = .nan ∧ (r.round A L s t).2.left = .nan ∧ (r.round A L s t).2.right = .nan := by
  have hθ : (r.estimator.estimate A L r.state s).2.theta.x = .nan := by
    show A.add r.state.theta.x (A.mul s.omega r.estimator.period) = .nan
    rcases h with h | h
    · rw [h]; rfl
    · rw [h, nan_mul, add_nan]
  have hv : ∀ (k : Tracker) (st : State) (i : Input), st.theta.x = .nan → (k.track A L st t i).2.2.v = .nan := by
    intro k st i h
    show A.add (A.mul st.x.v (L.cos st.theta.x)) (A.mul st.y.v (L.sin st.theta.x)) = .nan
    rw [h, h1, mul_nan, add_nan]
  have hc : ∀ (c : Controller) (r y : ControlTarget), y.v = .nan → (c.control A r y).2.left = .nan ∧ (c.control A r y).2.right = .nan := by
    intro c r y h
    have hT : (controlEach A r.v r.a y.v y.a c.trans c.period c.transSum).1 = .nan := by
      show A.add (A.add (A.add _ (A.mul c.trans.kp (A.add r.v y.v.neg))) _) _ = .nan
      rw [h, show F.nan.neg = .nan from rfl, add_nan, mul_nan, add_nan, nan_add, nan_add]
    constructor
    · show A.sub (controlEach A r.v r.a y.v y.a c.trans c.period c.transSum).1 _ = .nan
      rw [hT]; rfl
    · show A.add (controlEach A r.v r.a y.v y.a c.trans c.period c.transSum).1 _ = .nan
      rw [hT]; rfl
  exact ⟨hθ, hc _ _ _ (hv r.tracker _ (r.navigation.navigate A (r.estimator.estimate A L r.state s).2 t) hθ)⟩

/-- C121: but once the gyro says something that is not a number, the heading and all voltages are not numbers from this round on,
whatever the sensors say later. -/
theorem C121_poison (A : Arith) (L : Lib) (h1 : L.sin .nan = .nan) (h2 : L.cos .nan = .nan) (r : Robot) (s : Sensor) (t : Target)
    (hs : s.omega = .nan) (l : List (Sensor × Target)) :
    (roundsOf A L r ((s, t) :: l)).1.state.theta.x = .nan ∧
    ∀ o ∈ (roundsOf A L r ((s, t) :: l)).2, o.left = .nan ∧ o.right = .nan := by
  have key : ∀ (l : List (Sensor × Target)) (r : Robot), r.state.theta.x = .nan → (roundsOf A L r l).1.state.theta.x = .nan ∧
      ∀ o ∈ (roundsOf A L r l).2, o.left = .nan ∧ o.right = .nan := by
    intro l
    induction l with
    | nil => intro r h; exact ⟨h, fun o ho => absurd ho List.not_mem_nil⟩
    | cons q l ih =>
      intro r h
      obtain ⟨a, b⟩ := poisoned A L h1 h2 r q.1 q.2 (.inl h)
      obtain ⟨c, d⟩ := ih _ a
      refine ⟨c, fun o ho => ?_⟩
      rcases List.mem_cons.1 ho with rfl | ho
      · exact b
      · exact d o ho
  obtain ⟨a, b⟩ := poisoned A L h1 h2 r s t (.inr hs)
  obtain ⟨c, d⟩ := key l _ a
  refine ⟨c, fun o ho => ?_⟩
  rcases List.mem_cons.1 ho with rfl | ho
  · exact b
  · exact d o ho

/-! ## An example -/

/-- The real functions as a library. -/
theorem fair_real : Fair (libOf Control.Trig.real 3.14) where
  sin r := mag_fin (by have := Real.abs_sin_le_one r; norm_num; exact this.trans (by norm_num))
  cos r := mag_fin (by have := Real.abs_cos_le_one r; norm_num; exact this.trans (by norm_num))
  small r h := by
    refine ⟨Real.cos r, rfl, ?_⟩
    have h1 := Real.one_sub_sq_div_two_le_cos (x := r / 2)
    have h2 := Real.cos_sq (r / 2)
    rw [mul_div_cancel₀ r (two_ne_zero)] at h2
    have h3 : r ^ 2 ≤ 25 / 16 := by
      have := mul_self_le_mul_self (abs_nonneg r) h
      rw [abs_mul_abs_self] at this
      nlinarith
    have h4 : (0:ℝ) ≤ 1 - (r / 2) ^ 2 / 2 := by nlinarith
    have h5 := mul_self_le_mul_self h4 h1
    nlinarith
  sqrt r h := by
    refine ⟨Real.sqrt r, rfl, ?_⟩
    rw [abs_of_nonneg (Real.sqrt_nonneg r)]
    nlinarith [Real.sq_sqrt h, sq_nonneg (Real.sqrt r - 1), Real.sqrt_nonneg r]
  pi := by constructor <;> norm_num [libOf]

/-- A robot with the settings of the search test. -/
noncomputable def bench : Robot where
  estimator := .new (.fin 0.001) (.fin 0.76094276) (.fin 100) (.fin 0.1)
  state := ⟨⟨.fin 0.045, .fin 0, .fin 0⟩, ⟨.fin 0.045, .fin 0, .fin 0⟩, ⟨.fin 1.57, .fin 0, .fin 0⟩⟩
  navigation := ⟨.fin 40, .fin 4⟩
  tracker := .new (.fin 0.001) (.fin 0.2) (.fin 1) (.fin 1)
  controller := .new ⟨.fin 4.8497, .fin 29.5783, .fin 0, .fin 1.865, .fin 0.4443⟩
    ⟨.fin 0.21134, .fin 2.9317, .fin 0, .fin 82.39, .fin 0.2855⟩ (.fin 0.001)

theorem mag_num {k : ℤ} {a : ℝ} (h : |a| ≤ 2 ^ k) : Mag k (.fin a) := ⟨a, rfl, h⟩

/-- It may turn by 40 rad/s and its wheels may run at 2 m/s. -/
theorem bench_assembled : Assembled 0.001 2 0.05 40 2.3 bench where
  estimator := {
    low := by norm_num
    high := by norm_num
    wheels := by norm_num
    change := by norm_num
    speed := by norm_num
    turn := by norm_num
    period := rfl
    alpha := ⟨0.76094276, rfl, by norm_num, by norm_num, by norm_num⟩
    slipConst := ⟨100, rfl, by norm_num, by norm_num⟩
    approxTh := ⟨0.1, rfl, by norm_num⟩ }
  fresh := ⟨rfl, rfl⟩
  place := ⟨mag_num (by norm_num [abs_le]), mag_num (by norm_num [abs_le]), mag_num (by norm_num [abs_le]), mag_num (by norm_num)⟩
  navigation := ⟨mag_num (by norm_num [abs_le]), mag_num (by norm_num [abs_le])⟩
  tracker := ⟨rfl, rfl⟩
  threshold := ⟨0.2, rfl, by norm_num⟩
  zeta := mag_num (by norm_num)
  b := ⟨1, rfl, by norm_num, by norm_num⟩
  trans := ⟨mag_num (by norm_num [abs_le]), mag_num (by norm_num [abs_le]), mag_num (by norm_num), mag_num (by norm_num [abs_le]),
    1.865, rfl, by rw [abs_of_pos] <;> norm_num⟩
  rot := ⟨mag_num (by norm_num [abs_le]), mag_num (by norm_num [abs_le]), mag_num (by norm_num), mag_num (by norm_num [abs_le]),
    82.39, rfl, by rw [abs_of_pos] <;> norm_num⟩
  controller := ⟨rfl, rfl, rfl⟩

/-- Sensors that report a curve. -/
example : Plausible 0.001 2 0.05 40 ⟨.fin 0.0005, .fin 0.0007, .fin 3, .fin 6⟩ :=
  ⟨⟨_, rfl, by rw [abs_of_pos] <;> norm_num⟩, ⟨_, rfl, by rw [abs_of_pos] <;> norm_num⟩,
    ⟨_, rfl, by rw [abs_of_pos] <;> norm_num⟩, ⟨_, rfl, by rw [abs_of_pos] <;> norm_num⟩⟩

/-- So the robot of the search test can drive for any time. -/
example (exp : F → F) (l : List (Sensor × Target)) (hl : ∀ q ∈ l, Plausible 0.001 2 0.05 40 q.1 ∧ Sane q.2) :
    ∀ o ∈ (roundsOf (Binary32.arith exp) (libOf Control.Trig.real 3.14) bench l).2, Mag 122 o.left ∧ Mag 122 o.right :=
  (C121_finite fair_real bench_assembled l hl).1

end Verif.Props
