import Verif.Spec.Drift
import Verif.Props.Single
import Verif.Props.Slip
/-!
# Errors of rounding
-/
namespace Verif.Proof
open Verif Verif.Spec Verif.Binary32 Verif.Props Verif.Single

theorem rnd_err {z : ℝ} (h : |z| ≤ 2 ^ 100) : ∃ x, rnd z = .fin x ∧ |x - z| ≤ |z| / 2 ^ 24 + 1 / 2 ^ 150 := by
  have e : |round24 z - z| ≤ |z| / 2 ^ 24 + 1 / 2 ^ 150 :=
    (round24_rel z).trans (max_le (by linarith [show (0:ℝ) ≤ 1 / 2 ^ 150 by positivity]) (by linarith [show (0:ℝ) ≤ |z| / 2 ^ 24 by positivity]))
  refine ⟨_, rnd_of_lt ?_, e⟩
  have h1 := abs_sub_abs_le_abs_sub (round24 z) z
  have h2 : |z| / 2 ^ 24 ≤ |z| := div_le_self (abs_nonneg z) (by norm_num)
  have h3 : (2:ℝ) ^ 100 + 2 ^ 100 + 1 / 2 ^ 150 < 2 ^ 128 := by norm_num
  linarith

/-- The rounded value of a number that is known up to an error. -/
theorem apx {z z' c d : ℝ} (d' : ℝ) (hd : |z - z'| ≤ d) (hc : |z'| ≤ c) (h : d + (c + d) / 2 ^ 24 + 1 / 2 ^ 150 ≤ d') (hs : c + d ≤ 2 ^ 100) :
    ∃ x, rnd z = .fin x ∧ |x - z'| ≤ d' := by
  have hz : |z| ≤ c + d := by
    have := abs_sub_abs_le_abs_sub z z'
    linarith
  obtain ⟨x, e, b⟩ := rnd_err (hz.trans hs)
  refine ⟨x, e, ?_⟩
  have h1 := abs_sub_le x z z'
  have h2 : |z| / 2 ^ 24 ≤ (c + d) / 2 ^ 24 := div_le_div_of_nonneg_right hz (by positivity)
  linarith

/-- The error of a product. -/
theorem prod_err {x x' y y' a b M N : ℝ} (hx : |x - x'| ≤ a) (hy : |y - y'| ≤ b) (hM : |x'| ≤ M) (hN : |y'| ≤ N) :
    |x * y - x' * y'| ≤ a * N + M * b + a * b := by
  have e : x * y - x' * y' = (x - x') * y' + x' * (y - y') + (x - x') * (y - y') := by ring
  rw [e]
  have a0 : 0 ≤ a := (abs_nonneg _).trans hx
  have M0 : 0 ≤ M := (abs_nonneg _).trans hM
  refine (abs_add_le _ _).trans (add_le_add ((abs_add_le _ _).trans (add_le_add ?_ ?_)) ?_)
  · rw [abs_mul]; exact mul_le_mul hx hN (abs_nonneg _) a0
  · rw [abs_mul]; exact mul_le_mul hM hy (abs_nonneg _) M0
  · rw [abs_mul]; exact mul_le_mul hx hy (abs_nonneg _) a0

variable {exp : F → F} {p W w Ω V : ℝ}

/-- One step of the estimate of the speed. -/
theorem vel_step {e : Estimate.Estimator} {f : Estimator} (S : Suits p W w Ω V (estimatorOf e)) {s : Estimate.Sensor} (P : Plausible p W w Ω (sensorOf s))
    (c1 : f.period = .fin p) (c2 : f.alpha = .fin e.alpha) {v E : ℝ} (hv : f.vel = .fin v) (hV : |v| ≤ V) (hE : |v - e.vel| ≤ E) (heV : |e.vel| ≤ V) :
    (∃ v', f.nextVel (arith exp) (sensorOf s) = .fin v' ∧ |v' - e.nextVel s| ≤ e.alpha * E + (V + W + w) / 2 ^ 20) ∧ |e.nextVel s| ≤ V := by
  obtain ⟨l, hl, hl'⟩ := P.left
  obtain ⟨r, hr, hr'⟩ := P.right
  obtain ⟨a, ha, ha'⟩ := P.acc
  obtain ⟨α, hα, α0, α1, hVW⟩ := S.alpha
  have hp0 : 0 < p := lt_of_lt_of_le (by positivity) S.low
  have hper : e.period = p := by have := S.period; simpa [estimatorOf] using this
  have hal : e.alpha = α := by simpa [estimatorOf] using hα
  have el : s.left = l := by simpa [sensorOf] using hl
  have er : s.right = r := by simpa [sensorOf] using hr
  have ea : s.acc = a := by simpa [sensorOf] using ha
  have hW := S.wheels
  have hw := S.change
  have hV1 := S.speed
  have E0 : 0 ≤ E := (abs_nonneg _).trans hE
  norm_num at hW hw hV1 hVW
  have ql : |l / p| ≤ W := by rw [abs_div, abs_of_pos hp0, div_le_iff₀ hp0]; exact hl'
  have qr : |r / p| ≤ W := by rw [abs_div, abs_of_pos hp0, div_le_iff₀ hp0]; exact hr'
  have qa : |a * p| ≤ w := by rw [abs_mul, abs_of_pos hp0]; exact ha'
  have dl : (arith exp).div (.fin l) (.fin p) = rnd (l / p) := by
    show (if p = 0 then _ else rnd (l / p)) = _
    rw [if_neg hp0.ne']
  have dr : (arith exp).div (.fin r) (.fin p) = rnd (r / p) := by
    show (if p = 0 then _ else rnd (r / p)) = _
    rw [if_neg hp0.ne']
  obtain ⟨B, hB⟩ : ∃ B, B = V + W + w := ⟨_, rfl⟩
  obtain ⟨t, ht⟩ : ∃ t, t = B / 16777216 := ⟨_, rfl⟩
  have tB : B = 16777216 * t := by rw [ht]; ring
  have n24 : (2:ℝ) ^ 24 = 16777216 := by norm_num
  have n150 : (1:ℝ) / 2 ^ 150 ≤ t / 1024 := by
    rw [ht, hB]
    have : (1:ℝ) / 2 ^ 150 ≤ 1 / 16777216 / 1024 := by norm_num
    have h1 : (1:ℝ) / 16777216 / 1024 ≤ (V + W + w) / 16777216 / 1024 := by
      refine div_le_div_of_nonneg_right (div_le_div_of_nonneg_right ?_ (by norm_num)) (by norm_num)
      linarith
    exact this.trans h1
  have big : (2:ℝ) ^ 20 ≤ 2 ^ 100 := by norm_num
  have n20 : (2:ℝ) ^ 20 = 1048576 := by norm_num
  have tsm : t ≤ 1 / 65536 := by rw [ht, hB]; linarith
  have t0 : 0 < t := by rw [ht, hB]; linarith
  -- wheels
  obtain ⟨x1, e1, b1⟩ := apx (z := l / p) (z' := l / p) (c := W) (d := 0) (W / 16777216 + t / 1024) (by simp) ql (by rw [n24]; linarith) (by linarith)
  obtain ⟨x2, e2, b2⟩ := apx (z := r / p) (z' := r / p) (c := W) (d := 0) (W / 16777216 + t / 1024) (by simp) qr (by rw [n24]; linarith) (by linarith)
  have hWt : W / 16777216 ≤ t := by rw [ht, hB]; linarith
  have hVt : V / 16777216 ≤ t := by rw [ht, hB]; linarith
  have hwt : w / 16777216 ≤ t := by rw [ht, hB]; linarith
  have hVwt : (V + w) / 16777216 ≤ t := by rw [ht, hB]; linarith
  obtain ⟨x3, e3, b3⟩ := apx (z := x1 + x2) (z' := l / p + r / p) (c := 2 * W) (d := 2 * t + t / 512) (4 * t + t / 128)
    (by
      have h := abs_add_le (x1 - l / p) (x2 - r / p)
      rw [show x1 + x2 - (l / p + r / p) = (x1 - l / p) + (x2 - r / p) by ring]
      linarith)
    (by linarith [abs_add_le (l / p) (r / p)]) (by rw [n24]; linarith) (by linarith)
  obtain ⟨x4, e4, b4⟩ := apx (z := x3 / 2) (z' := (l / p + r / p) / 2) (c := W) (d := 2 * t + t / 256) (3 * t + t / 64)
    (by rw [← sub_div, abs_div, abs_two]; linarith)
    (by rw [abs_div, abs_two]; linarith [abs_add_le (l / p) (r / p)]) (by rw [n24]; linarith) (by linarith)
  have d4 : (arith exp).div (.fin x3) (.fin 2) = rnd (x3 / 2) := by
    show (if (2:ℝ) = 0 then _ else rnd (x3 / 2)) = _
    rw [if_neg (by norm_num)]
  -- acceleration
  obtain ⟨y1, f1, g1⟩ := apx (z := a * p) (z' := a * p) (c := w) (d := 0) (t + t / 1024) (by simp) qa (by rw [n24]; linarith) (by linarith)
  have hy1 : |y1| ≤ w + 1 / 32768 := by
    have := abs_sub_abs_le_abs_sub y1 (a * p)
    linarith
  obtain ⟨y2, f2, g2⟩ := apx (z := v + y1) (z' := v + y1) (c := V + w + 1 / 32768) (d := 0) (t + t / 512) (by simp) (by linarith [abs_add_le v y1])
    (by
      rw [n24]
      have : (1 / 32768 : ℝ) / 16777216 ≤ t / 1024 := by rw [ht, hB]; linarith
      have : (V + w + 1 / 32768) / 16777216 = (V + w) / 16777216 + 1 / 32768 / 16777216 := by ring
      linarith) (by linarith)
  have g2' : |y2 - (e.vel + a * p)| ≤ E + 2 * t + t / 128 := by
    have h1 := abs_sub_le y2 (v + y1) (e.vel + a * p)
    have h2 := abs_add_le (v - e.vel) (y1 - a * p)
    rw [show (v - e.vel) + (y1 - a * p) = v + y1 - (e.vel + a * p) by ring] at h2
    linarith
  have hvV : |e.vel + a * p| ≤ V + w := (abs_add_le _ _).trans (by linarith)
  have hy2 : |y2| ≤ V + w + 1 / 16384 := by
    have h1 := abs_sub_abs_le_abs_sub y2 (v + y1)
    have h2 := abs_add_le v y1
    linarith
  obtain ⟨y3, f3, g3⟩ := apx (z := α * y2) (z' := α * y2) (c := V + w + 1 / 16384) (d := 0) (t + t / 256) (by simp) (by
      rw [abs_mul, abs_of_nonneg α0]
      exact (mul_le_of_le_one_left (abs_nonneg _) α1).trans hy2)
    (by
      rw [n24]
      have : (1 / 16384 : ℝ) / 16777216 ≤ t / 512 := by rw [ht, hB]; linarith
      have : (V + w + 1 / 16384) / 16777216 = (V + w) / 16777216 + 1 / 16384 / 16777216 := by ring
      linarith) (by linarith)
  have g3' : |y3 - α * (e.vel + a * p)| ≤ α * E + 3 * t + t / 64 := by
    have h1 := abs_sub_le y3 (α * y2) (α * (e.vel + a * p))
    have h2 : |α * y2 - α * (e.vel + a * p)| ≤ α * (E + 2 * t + t / 128) := by
      rw [← mul_sub, abs_mul, abs_of_nonneg α0]
      exact mul_le_mul_of_nonneg_left g2' α0
    have h3 : α * (2 * t + t / 128) ≤ 2 * t + t / 128 := mul_le_of_le_one_left (by linarith) α1
    have h4 : α * (E + 2 * t + t / 128) = α * E + α * (2 * t + t / 128) := by ring
    linarith
  -- the other weight
  obtain ⟨β, k0, m0⟩ := apx (z := 1 - α) (z' := 1 - α) (c := 1) (d := 0) (1 / 16777216 + 1 / 2 ^ 150) (by simp) (by rw [abs_le]; constructor <;> linarith) (by rw [n24]; norm_num) (by norm_num)
  have m0' : |β - (1 - α)| ≤ 1 / 16777216 + 1 / 1099511627776 := m0.trans (by norm_num)
  have pe := prod_err m0' b4 (show |1 - α| ≤ 1 by rw [abs_le]; constructor <;> linarith)
    (show |(l / p + r / p) / 2| ≤ W by rw [abs_div, abs_two]; linarith [abs_add_le (l / p) (r / p)])
  have pe' : |β * x4 - (1 - α) * ((l / p + r / p) / 2)| ≤ 4 * t + t / 16 := by
    refine pe.trans ?_
    have h1 : (1 / 16777216 + 1 / 1099511627776) * W = W / 16777216 + W / 16777216 / 65536 := by ring
    have h2 : (1 / 16777216 + 1 / 1099511627776) * (3 * t + t / 64) ≤ t / 1024 := by
      have := mul_le_mul_of_nonneg_right (show (1 / 16777216 + 1 / 1099511627776 : ℝ) ≤ 1 / 8192 by norm_num) (show 0 ≤ 3 * t + t / 64 by linarith)
      linarith
    linarith
  obtain ⟨z1, k1, m1⟩ := apx (z := β * x4) (z' := (1 - α) * ((l / p + r / p) / 2)) (c := W) (d := 4 * t + t / 16) (5 * t + t / 8) pe' (by
      rw [abs_mul, abs_of_nonneg (show 0 ≤ 1 - α by linarith)]
      refine (mul_le_of_le_one_left (abs_nonneg _) (by linarith)).trans ?_
      rw [abs_div, abs_two]; linarith [abs_add_le (l / p) (r / p)]) (by rw [n24]; linarith) (by linarith)
  have exact_vel : e.nextVel s = α * (e.vel + a * p) + (1 - α) * ((l / p + r / p) / 2) := by
    unfold Estimate.Estimator.nextVel
    rw [el, er, ea, hal, hper]
  have havg : |(1 - α) * ((l / p + r / p) / 2)| ≤ (1 - α) * W := by
    rw [abs_mul, abs_of_nonneg (show 0 ≤ 1 - α by linarith)]
    refine mul_le_mul_of_nonneg_left ?_ (by linarith)
    rw [abs_div, abs_two]; linarith [abs_add_le (l / p) (r / p)]
  have hvel : |α * (e.vel + a * p)| ≤ α * (V + w) := by
    rw [abs_mul, abs_of_nonneg α0]
    exact mul_le_mul_of_nonneg_left hvV α0
  have hz1 : |z1| ≤ W + 1 / 8192 := by
    have h1 := abs_sub_abs_le_abs_sub z1 ((1 - α) * ((l / p + r / p) / 2))
    have h2 : (1 - α) * W ≤ W := mul_le_of_le_one_left hW.1 (by linarith)
    linarith
  have hy3 : |y3| ≤ V + w + 1 / 8192 := by
    have h1 := abs_sub_abs_le_abs_sub y3 (α * y2)
    have h2 : |α * y2| ≤ |y2| := by rw [abs_mul, abs_of_nonneg α0]; exact mul_le_of_le_one_left (abs_nonneg _) α1
    linarith
  obtain ⟨z2, k2, m2⟩ := apx (z := y3 + z1) (z' := y3 + z1) (c := B + 1 / 4096) (d := 0) (t + t / 256) (by simp) (by linarith [abs_add_le y3 z1])
    (by
      rw [n24]
      have : (1 / 4096 : ℝ) / 16777216 ≤ t / 1024 := by rw [ht, hB]; linarith
      have : (B + 1 / 4096 + 0) / 16777216 = t + 1 / 4096 / 16777216 := by rw [ht]; ring
      linarith) (by linarith)
  refine ⟨⟨z2, ?_, ?_⟩, ?_⟩
  · unfold Estimator.nextVel
    rw [hl, hr, ha, c2, hal, hv, c1]
    dsimp only
    rw [dl, e1, dr, e2]
    show (arith exp).add ((arith exp).mul _ ((arith exp).add _ (rnd (a * p))))
      ((arith exp).mul (rnd (1 - α)) ((arith exp).div (rnd (x1 + x2)) _)) = _
    rw [f1, e3, d4, e4, k0]
    show (arith exp).add ((arith exp).mul _ (rnd (v + y1))) (rnd (β * x4)) = _
    rw [f2, k1]
    show (arith exp).add (rnd (α * y2)) _ = _
    rw [f3]
    exact k2
  · rw [exact_vel, hal, ← hB, show B / 2 ^ 20 = 16 * t by rw [ht]; ring]
    have h1 := abs_sub_le z2 (y3 + z1) (α * (e.vel + a * p) + (1 - α) * ((l / p + r / p) / 2))
    have h2 := abs_add_le (y3 - α * (e.vel + a * p)) (z1 - (1 - α) * ((l / p + r / p) / 2))
    rw [show y3 - α * (e.vel + a * p) + (z1 - (1 - α) * ((l / p + r / p) / 2)) = y3 + z1 - (α * (e.vel + a * p) + (1 - α) * ((l / p + r / p) / 2)) by ring] at h2
    linarith
  · rw [exact_vel]
    have := abs_add_le (α * (e.vel + a * p)) ((1 - α) * ((l / p + r / p) / 2))
    linarith

/-! ## The slip angle -/

/-- The weight of the new slip angle. -/
noncomputable def gg (p C x : ℝ) : ℝ := p * |x| / (|x| + C * p)

theorem gg_nonneg {p C : ℝ} (hp : 0 < p) (hC : 0 < C) (x : ℝ) : 0 ≤ gg p C x := by
  unfold gg
  have := mul_pos hC hp
  positivity

theorem gg_le {p C : ℝ} (hp : 0 < p) (hC : 0 < C) {x V : ℝ} (h : |x| ≤ V) : gg p C x ≤ p * (V / (V + C * p)) := by
  have h1 := mul_pos hC hp
  have h2 := abs_nonneg x
  unfold gg
  rw [mul_div_assoc]
  refine mul_le_mul_of_nonneg_left ?_ hp.le
  rw [div_le_div_iff₀ (by positivity) (by linarith)]
  have := mul_le_mul_of_nonneg_right h h1.le
  linarith

theorem gg_lip {p C : ℝ} (hp : 0 < p) (hC : 0 < C) (x y : ℝ) : |gg p C x - gg p C y| ≤ |x - y| / C := by
  have h1 := mul_pos hC hp
  have hx := abs_nonneg x
  have hy := abs_nonneg y
  have e : gg p C x - gg p C y = p * (C * p) * (|x| - |y|) / ((|x| + C * p) * (|y| + C * p)) := by
    unfold gg
    field_simp
    ring
  rw [e, abs_div, abs_mul, abs_of_pos (mul_pos hp h1), abs_of_pos (show 0 < (|x| + C * p) * (|y| + C * p) by positivity),
    div_le_div_iff₀ (by positivity) hC]
  have h2 : C * p * (C * p) ≤ (|x| + C * p) * (|y| + C * p) := mul_le_mul (by linarith) (by linarith) h1.le (by positivity)
  have h3 := abs_abs_sub_abs_le x y
  calc p * (C * p) * |(|x| - |y|)| * C = |(|x| - |y|)| * (C * p * (C * p)) := by ring
    _ ≤ |x - y| * ((|x| + C * p) * (|y| + C * p)) := mul_le_mul h3 h2 (by positivity) (abs_nonneg _)

theorem next_slip_gg {e : Estimate.Estimator} (hp : 0 < e.period) (hC : 0 < e.slipConst) (v ω : ℝ) :
    e.nextSlip v ω = (e.slip / e.period + ω) * gg e.period e.slipConst v := by
  unfold Estimate.Estimator.nextSlip gg
  have h1 := mul_pos hC hp
  by_cases hv : v = 0
  · rw [if_pos hv, hv, abs_zero]; simp
  · have := abs_pos.2 hv
    rw [if_neg hv]
    field_simp

theorem gg_inv {p C x : ℝ} (hp : 0 < p) (hC : 0 < C) (hx : x ≠ 0) : gg p C x = 1 / (1 / p + C / |x|) := by
  have := abs_pos.2 hx
  have h1 := mul_pos hC hp
  unfold gg
  field_simp

/-- Rounding a positive number that is not tiny. -/
theorem rnd_pos {z : ℝ} (h : 1 / 2 ^ 126 ≤ z) : (rnd z = .pinf ∧ 2 ^ 127 ≤ z) ∨ ∃ x, rnd z = .fin x ∧ |x - z| ≤ z / 2 ^ 24 := by
  have hz : 0 < z := lt_of_lt_of_le (by positivity) h
  have hr := round24_rel' (z := z) (by rwa [abs_of_pos hz])
  rw [abs_of_pos hz] at hr
  by_cases hb : 2 ^ 128 ≤ round24 z
  · left
    refine ⟨by unfold rnd; rw [if_pos hb], ?_⟩
    have h1 := (abs_le.1 hr).2
    have h2 : z / 2 ^ 24 ≤ z := div_le_self hz.le (by norm_num)
    have h3 : (2:ℝ) ^ 128 = 2 * 2 ^ 127 := by norm_num
    linarith
  · right
    have h0 := round24_nonneg hz.le
    exact ⟨_, rnd_of_lt (by rw [abs_of_nonneg h0]; exact not_le.1 hb), hr⟩

/-- The quotient of the slip angle, as the code computes it. -/
theorem slip_quot {p C v rp n : ℝ} (hp : 1 / 2 ^ 12 ≤ p) (hp' : p ≤ 1 / 2 ^ 5) (hC : 0 < C) (hv : |v| ≤ C) (hrp : |rp - 1 / p| ≤ 1 / p / 2 ^ 24) :
    ∃ G, (arith exp).div (.fin n) ((arith exp).add (.fin rp) ((arith exp).div (.fin C) (F.fin v).abs)) = rnd (n * G) ∧
      |G - gg p C v| ≤ gg p C v / 2 ^ 20 + 1 / 2 ^ 120 := by
  have hp0 : 0 < p := lt_of_lt_of_le (by positivity) hp
  have g0 := gg_nonneg hp0 hC v
  have zero : ∀ G : ℝ, G ≤ 1 / 2 ^ 120 → 0 ≤ G → |0 - G| ≤ G / 2 ^ 20 + 1 / 2 ^ 120 := by
    intro G h h0
    rw [zero_sub, abs_neg, abs_of_nonneg h0]
    have : (0:ℝ) ≤ G / 2 ^ 20 := by positivity
    linarith
  have dzero : ∀ x : F, x = .pinf → (arith exp).div (.fin n) x = rnd (n * 0) := by
    rintro x rfl
    rw [mul_zero]
    show F.fin 0 = _
    unfold rnd
    rw [round24_zero, if_neg (by norm_num), if_neg (by norm_num)]
  by_cases hv0 : v = 0
  · refine ⟨0, dzero _ ?_, zero _ ?_ g0⟩
    · have : (arith exp).div (.fin C) (F.fin v).abs = .pinf := by
        show (if |v| = 0 then F.infOf C else _) = _
        rw [if_pos (by rw [hv0, abs_zero])]
        unfold F.infOf
        rw [if_pos hC]
      rw [this]; rfl
    · unfold gg; rw [hv0, abs_zero]; simp
  · have hv1 : 0 < |v| := abs_pos.2 hv0
    have hdiv : (arith exp).div (.fin C) (F.fin v).abs = rnd (C / |v|) := by
      show (if |v| = 0 then F.infOf C else _) = _
      rw [if_neg hv1.ne']; rfl
    have hq : 1 ≤ C / |v| := by rw [le_div_iff₀ hv1]; linarith
    have small : (2:ℝ) ^ 121 ≤ C / |v| → gg p C v ≤ 1 / 2 ^ 120 := by
      intro h
      rw [gg_inv hp0 hC hv0]
      refine one_div_le_one_div_of_le (by positivity) ?_
      have : (0:ℝ) < 1 / p := by positivity
      have : (2:ℝ) ^ 120 ≤ 2 ^ 121 := by norm_num
      linarith
    rw [hdiv]
    have h126 : (1:ℝ) / 2 ^ 126 ≤ 1 := by norm_num
    have h1p : (0:ℝ) < 1 / p := by positivity
    have hp32 : (1:ℝ) / p ≤ 4096 := by
      rw [div_le_iff₀ hp0]
      norm_num at hp
      linarith
    have hrp0 : 0 < rp := by
      have := (abs_le.1 hrp).1
      have : (1:ℝ) / p / 2 ^ 24 ≤ 1 / p / 2 := div_le_div_of_nonneg_left h1p.le (by norm_num) (by norm_num)
      linarith
    have hrp1 : rp ≤ 8192 := by
      have := (abs_le.1 hrp).2
      have : (1:ℝ) / p / 2 ^ 24 ≤ 1 / p := div_le_self h1p.le (by norm_num)
      linarith
    rcases rnd_pos (z := C / |v|) (by linarith) with ⟨h, hb⟩ | ⟨x, hx, hx'⟩
    · refine ⟨0, dzero _ (by rw [h]; rfl), zero _ (small ?_) g0⟩
      have : (2:ℝ) ^ 121 ≤ 2 ^ 127 := by norm_num
      linarith
    · rw [hx]
      have hxp : C / |v| / 2 ≤ x := by
        have := (abs_le.1 hx').1
        have : C / |v| / 2 ^ 24 ≤ C / |v| / 2 := div_le_div_of_nonneg_left (by linarith) (by norm_num) (by norm_num)
        linarith
      have hxq : x ≤ C / |v| * 2 := by
        have := (abs_le.1 hx').2
        have : C / |v| / 2 ^ 24 ≤ C / |v| := div_le_self (by linarith) (by norm_num)
        linarith
      show ∃ G, (arith exp).div (.fin n) (rnd (rp + x)) = _ ∧ _
      rcases rnd_pos (z := rp + x) (by
        have : (1:ℝ) / 2 ^ 126 ≤ 1 / 2 := by norm_num
        linarith) with ⟨h, hb⟩ | ⟨d, hd, hd'⟩
      · refine ⟨0, dzero _ h, zero _ (small ?_) g0⟩
        have : (2:ℝ) ^ 121 * 2 + 8192 ≤ 2 ^ 127 := by norm_num
        linarith
      · obtain ⟨q, hqd⟩ : ∃ q, q = C / |v| := ⟨_, rfl⟩
        obtain ⟨i, hid⟩ : ∃ i, i = 1 / p := ⟨_, rfl⟩
        rw [← hqd] at hq hx' hxp hxq
        rw [← hid] at hrp h1p
        have herr : |d - (i + q)| ≤ (i + q) / 2 ^ 22 := by
          have a1 := abs_sub_le d (rp + x) (i + q)
          have a2 := abs_add_le (rp - i) (x - q)
          rw [show rp - i + (x - q) = rp + x - (i + q) by ring] at a2
          have a3 := (abs_le.1 a2)
          have a4 : |rp + x - (i + q)| ≤ (i + q) / 2 ^ 24 := by
            have : (i + q) / 2 ^ 24 = i / 2 ^ 24 + q / 2 ^ 24 := by ring
            linarith
          have a5 : (rp + x) / 2 ^ 24 ≤ (i + q) * 2 / 2 ^ 24 := by
            refine div_le_div_of_nonneg_right ?_ (by positivity)
            have := (abs_le.1 a4).2
            have : (i + q) / 2 ^ 24 ≤ i + q := div_le_self (by linarith) (by norm_num)
            linarith
          have a6 : (i + q) / 2 ^ 22 = (i + q) / 2 ^ 24 + (i + q) * 2 / 2 ^ 24 + (i + q) / 2 ^ 24 := by ring
          have a7 : (0:ℝ) ≤ (i + q) / 2 ^ 24 := by positivity
          linarith
        have hD : 0 < i + q := by linarith
        have hdlow : (i + q) / 2 ≤ d := by
          have := (abs_le.1 herr).1
          have : (i + q) / 2 ^ 22 ≤ (i + q) / 2 := div_le_div_of_nonneg_left hD.le (by norm_num) (by norm_num)
          linarith
        have hdpos : 0 < d := by linarith
        refine ⟨1 / d, ?_, ?_⟩
        · rw [hd]
          show (if d = 0 then _ else rnd (n / d)) = _
          rw [if_neg hdpos.ne', mul_one_div]
        · rw [gg_inv hp0 hC hv0, ← hqd, ← hid]
          have e : 1 / d - 1 / (i + q) = -(d - (i + q)) / (d * (i + q)) := by field_simp; ring
          rw [e, abs_div, abs_neg, abs_of_pos (mul_pos hdpos hD)]
          have h1 : |d - (i + q)| / (d * (i + q)) ≤ (i + q) / 2 ^ 22 / ((i + q) / 2 * (i + q)) := by
            refine div_le_div₀ (by positivity) herr (by positivity) ?_
            exact mul_le_mul_of_nonneg_right hdlow hD.le
          have h2 : (i + q) / 2 ^ 22 / ((i + q) / 2 * (i + q)) = 1 / (i + q) / 2 ^ 21 := by field_simp
          have h3 : 1 / (i + q) / 2 ^ 21 ≤ 1 / (i + q) / 2 ^ 20 := div_le_div_of_nonneg_left (by positivity) (by norm_num) (by norm_num)
          have h4 : (0:ℝ) ≤ 1 / 2 ^ 120 := by positivity
          linarith

/-- One step of the estimate of the slip angle. -/
theorem slip_step {e : Estimate.Estimator} {f : Estimator} (S : Suits p W w Ω V (estimatorOf e)) (c1 : f.period = .fin p) (c3 : f.slipConst = .fin e.slipConst)
    {b Eb v v' D ω : ℝ} (hb : f.slip = .fin b) (hbb : |b| ≤ 5 / 4) (hE : |b - e.slip| ≤ Eb) (heb : |e.slip| ≤ 1) (hv : |v| ≤ V) (hv' : |v'| ≤ V)
    (hD : |v' - v| ≤ D) (hω : |ω| ≤ Ω) :
    (∃ b', f.nextSlip (arith exp) (.fin v') (.fin ω) = .fin b' ∧
      |b' - e.nextSlip v ω| ≤ V / (V + e.slipConst * p) * Eb + (1 / p + Ω) / e.slipConst * D + 1 / 2 ^ 17) ∧ |e.nextSlip v ω| ≤ 1 := by
  obtain ⟨C, hC, hC1, hC2⟩ := S.slipConst
  have hCe : e.slipConst = C := by simpa [estimatorOf] using hC
  have hper : e.period = p := by have := S.period; simpa [estimatorOf] using this
  have hp0 : 0 < p := lt_of_lt_of_le (by positivity) S.low
  have hV := S.speed
  have hΩ := S.turn
  have hC0 : 0 < C := by linarith
  have hlow := S.low
  have hhigh := S.high
  norm_num at hV hΩ hlow hhigh
  rw [hCe] at c3 ⊢
  refine ⟨?_, slip_bound (by rw [hper]; exact hp0) (by rw [hCe]; exact hC0) heb (by
    rw [hCe, one_mul]
    exact (mul_le_mul hω hv (abs_nonneg _) hΩ.1).trans hC2)⟩
  obtain ⟨i, hi⟩ : ∃ i, i = 1 / p := ⟨_, rfl⟩
  have i1 : 32 ≤ i := by rw [hi, le_div_iff₀ hp0]; linarith
  have i2 : i ≤ 4096 := by rw [hi, div_le_iff₀ hp0]; linarith
  have E0 : 0 ≤ Eb := (abs_nonneg _).trans hE
  have D0 : 0 ≤ D := (abs_nonneg _).trans hD
  have n24 : (2:ℝ) ^ 24 = 16777216 := by norm_num
  have n150 : (1:ℝ) / 2 ^ 150 ≤ 1 / 16777216 / 16777216 := by norm_num
  have h128 : (2:ℝ) ^ 30 ≤ 2 ^ 100 := by norm_num
  have n30 : (2:ℝ) ^ 30 = 1073741824 := by norm_num
  -- the inverse of the period
  obtain ⟨rp, er, br⟩ : ∃ rp, (arith exp).div (.fin 1) (.fin p) = .fin rp ∧ |rp - i| ≤ i / 2 ^ 24 := by
    have : (arith exp).div (.fin 1) (.fin p) = rnd i := by
      show (if p = 0 then _ else rnd (1 / p)) = _
      rw [if_neg hp0.ne', ← hi]
    rw [this]
    rcases rnd_pos (z := i) (by
      have : (1:ℝ) / 2 ^ 126 ≤ 1 := by norm_num
      linarith) with ⟨-, h⟩ | h
    · exfalso
      have : (4096:ℝ) < 2 ^ 127 := by norm_num
      linarith
    · exact h
  have br' : |rp - i| ≤ i / 16777216 := by rw [← n24]; exact br
  -- the numerator
  have a1 : |b * rp - e.slip * i| ≤ Eb * i + 5 / 4 * (i / 16777216) := by
    have h := abs_add_le ((b - e.slip) * i) (b * (rp - i))
    rw [show (b - e.slip) * i + b * (rp - i) = b * rp - e.slip * i by ring, abs_mul, abs_mul, abs_of_pos (show 0 < i by linarith)] at h
    have h1 : |b - e.slip| * i ≤ Eb * i := mul_le_mul_of_nonneg_right hE (by linarith)
    have h2 : |b| * |rp - i| ≤ 5 / 4 * (i / 16777216) := mul_le_mul hbb br' (abs_nonneg _) (by norm_num)
    linarith
  have a2 : |b * rp| ≤ 3 / 2 * i := by
    rw [abs_mul]
    have h1 : |rp| ≤ i + i / 16777216 := by
      have := abs_sub_abs_le_abs_sub rp i
      rw [abs_of_pos (show 0 < i by linarith)] at this
      linarith
    have h2 : |b| * |rp| ≤ 5 / 4 * (i + i / 16777216) := mul_le_mul hbb h1 (abs_nonneg _) (by norm_num)
    linarith
  obtain ⟨n1, en1, bn1⟩ := apx (z := b * rp) (z' := b * rp) (c := 3 / 2 * i) (d := 0) (2 * (i / 16777216)) (by simp) a2 (by rw [n24]; linarith) (by linarith)
  have a3 : |n1 - e.slip * i| ≤ Eb * i + 4 * (i / 16777216) := by
    have := abs_sub_le n1 (b * rp) (e.slip * i)
    linarith
  have a4 : |n1| ≤ 7 / 4 * i := by
    have := abs_sub_abs_le_abs_sub n1 (b * rp)
    linarith
  obtain ⟨n2, en2, bn2⟩ := apx (z := n1 + ω) (z' := n1 + ω) (c := 7 / 4 * i + Ω) (d := 0) (2 * (i / 16777216) + Ω / 16777216) (by simp)
    (by linarith [abs_add_le n1 ω]) (by rw [n24]; linarith) (by linarith)
  obtain ⟨N, hN⟩ : ∃ N, N = e.slip / p + ω := ⟨_, rfl⟩
  have hN' : N = e.slip * i + ω := by rw [hN, hi]; ring
  have a5 : |n2 - N| ≤ Eb * i + 6 * (i / 16777216) + Ω / 16777216 := by
    have h := abs_sub_le n2 (n1 + ω) N
    rw [show n1 + ω - N = n1 - e.slip * i by rw [hN']; ring] at h
    linarith
  have a6 : |n2| ≤ 2 * i + 2 * Ω := by
    have h1 := abs_sub_abs_le_abs_sub n2 (n1 + ω)
    have h2 := abs_add_le n1 ω
    linarith
  have a7 : |N| ≤ i + Ω := by
    rw [hN']
    refine (abs_add_le _ _).trans (add_le_add ?_ hω)
    rw [abs_mul, abs_of_pos (show 0 < i by linarith)]
    exact mul_le_of_le_one_left (by linarith) heb
  -- the quotient
  obtain ⟨G, eG, bG⟩ := slip_quot (exp := exp) (n := n2) S.low S.high hC0 (hv'.trans hC1) (hi ▸ br)
  obtain ⟨g, hg⟩ : ∃ g, g = gg p C v' := ⟨_, rfl⟩
  rw [← hg] at bG
  have g0 : 0 ≤ g := hg ▸ gg_nonneg hp0 hC0 v'
  have gle : g ≤ p * (V / (V + C * p)) := hg ▸ gg_le hp0 hC0 hv'
  have hCp := mul_pos hC0 hp0
  have κ1 : V / (V + C * p) ≤ 1 := by rw [div_le_one (by linarith)]; linarith
  have gi : g * i ≤ V / (V + C * p) := by
    rw [hi, mul_one_div, div_le_iff₀ hp0]
    linarith
  have gΩ : g * Ω ≤ 1 := by
    have h1 : p * (V / (V + C * p)) * Ω = p * V * Ω / (V + C * p) := by ring
    have h2 : p * V * Ω / (V + C * p) ≤ 1 := by
      rw [div_le_one (by linarith)]
      have := mul_le_mul_of_nonneg_left hC2 hp0.le
      linarith
    have := mul_le_mul_of_nonneg_right gle hΩ.1
    linarith
  have gi1 : g * i ≤ 1 := gi.trans κ1
  have q1 : |n2 * G - N * gg p C v| ≤ V / (V + C * p) * Eb + (i + Ω) / C * D + (5 / 2 ^ 20 + 8 / 16777216) := by
    have e1 : n2 * G - N * gg p C v = n2 * (G - g) + (n2 - N) * g + N * (g - gg p C v) := by ring
    rw [e1]
    have h1 : |n2 * (G - g)| ≤ 5 / 2 ^ 20 := by
      rw [abs_mul]
      have : |n2| * |G - g| ≤ (2 * i + 2 * Ω) * (g / 2 ^ 20 + 1 / 2 ^ 120) := mul_le_mul a6 bG (abs_nonneg _) (by linarith)
      have e2 : (2 * i + 2 * Ω) * (g / 2 ^ 20 + 1 / 2 ^ 120) = (2 * (g * i) + 2 * (g * Ω)) / 2 ^ 20 + (2 * i + 2 * Ω) / 2 ^ 120 := by ring
      have e3 : (2 * (g * i) + 2 * (g * Ω)) / 2 ^ 20 ≤ 4 / 2 ^ 20 := div_le_div_of_nonneg_right (by linarith) (by positivity)
      have e4 : (2 * i + 2 * Ω) / 2 ^ 120 ≤ 16384 / 2 ^ 120 := div_le_div_of_nonneg_right (by linarith) (by positivity)
      have e5 : (16384:ℝ) / 2 ^ 120 ≤ 1 / 2 ^ 20 := by norm_num
      have e6 : (5:ℝ) / 2 ^ 20 = 4 / 2 ^ 20 + 1 / 2 ^ 20 := by norm_num
      linarith
    have h2 : |(n2 - N) * g| ≤ V / (V + C * p) * Eb + 8 / 16777216 := by
      rw [abs_mul, abs_of_nonneg g0]
      have := mul_le_mul_of_nonneg_right a5 g0
      have e2 : (Eb * i + 6 * (i / 16777216) + Ω / 16777216) * g = (g * i) * Eb + (6 * (g * i) + g * Ω) / 16777216 := by ring
      have e3 : (g * i) * Eb ≤ V / (V + C * p) * Eb := mul_le_mul_of_nonneg_right gi E0
      linarith
    have h3 : |N * (g - gg p C v)| ≤ (i + Ω) / C * D := by
      rw [abs_mul, hg]
      have l := gg_lip hp0 hC0 v' v
      have : |v' - v| / C ≤ D / C := div_le_div_of_nonneg_right hD hC0.le
      calc |N| * |gg p C v' - gg p C v| ≤ (i + Ω) * (D / C) := mul_le_mul a7 (l.trans this) (abs_nonneg _) (by linarith)
        _ = (i + Ω) / C * D := by ring
    have := abs_add_le (n2 * (G - g) + (n2 - N) * g) (N * (g - gg p C v))
    have := abs_add_le (n2 * (G - g)) ((n2 - N) * g)
    linarith
  have q2 : |n2 * G| ≤ 5 := by
    rw [abs_mul]
    have hG : |G| ≤ g + g / 2 ^ 20 + 1 / 2 ^ 120 := by
      have := abs_sub_abs_le_abs_sub G g
      rw [abs_of_nonneg g0] at this
      linarith
    have : |n2| * |G| ≤ (2 * i + 2 * Ω) * (g + g / 2 ^ 20 + 1 / 2 ^ 120) := mul_le_mul a6 hG (abs_nonneg _) (by linarith)
    have e2 : (2 * i + 2 * Ω) * (g + g / 2 ^ 20 + 1 / 2 ^ 120) = (2 * (g * i) + 2 * (g * Ω)) * (1 + 1 / 2 ^ 20) + (2 * i + 2 * Ω) / 2 ^ 120 := by ring
    have e3 : (2 * (g * i) + 2 * (g * Ω)) * (1 + 1 / 2 ^ 20) ≤ 4 * (1 + 1 / 2 ^ 20) := mul_le_mul_of_nonneg_right (by linarith) (by positivity)
    have e4 : (2 * i + 2 * Ω) / 2 ^ 120 ≤ 16384 / 2 ^ 120 := div_le_div_of_nonneg_right (by linarith) (by positivity)
    have e5 : (4:ℝ) * (1 + 1 / 2 ^ 20) + 16384 / 2 ^ 120 ≤ 5 := by norm_num
    linarith
  obtain ⟨b', eb', bb'⟩ := apx (z := n2 * G) (z' := n2 * G) (c := 5) (d := 0) (6 / 16777216) (by simp) q2 (by rw [n24]; linarith) (by linarith)
  refine ⟨b', ?_, ?_⟩
  · unfold Estimator.nextSlip
    rw [c1, c3, hb]
    dsimp only
    rw [er]
    have hnum : (arith exp).add ((arith exp).mul (.fin b) (.fin rp)) (.fin ω) = .fin n2 := by
      show (arith exp).add (rnd (b * rp)) _ = _
      rw [en1]; exact en2
    rw [hnum, eG, eb']
  · rw [next_slip_gg (by rw [hper]; exact hp0) (by rw [hCe]; exact hC0), hper, hCe, ← hN, ← hi]
    have := abs_sub_le b' (n2 * G) (N * gg p C v)
    have e6 : (5:ℝ) / 2 ^ 20 + 8 / 16777216 + 6 / 16777216 ≤ 1 / 2 ^ 17 := by norm_num
    linarith

/-- Adding up with rounding: every term that is added brings at most the same error. -/
theorem sum_step {s S d d' δ H c : ℝ} {n : ℕ} (hn : n ≤ 2 ^ 22) (hs : |s - S| ≤ n * c) (hd : |d - d'| ≤ δ) (hH : |S + d'| ≤ H) (hH' : H ≤ 2 ^ 64)
    (hc' : c ≤ 2 ^ 64) (h : 4 * ((H + δ) / 2 ^ 24 + δ + 1 / 2 ^ 150) ≤ 3 * c) :
    ∃ x, rnd (s + d) = .fin x ∧ |x - (S + d')| ≤ (n + 1) * c := by
  have hδ : 0 ≤ δ := (abs_nonneg _).trans hd
  have hH0 : 0 ≤ H := (abs_nonneg _).trans hH
  have e0 : (0:ℝ) ≤ (H + δ) / 2 ^ 24 := by positivity
  have e1 : (0:ℝ) < 1 / 2 ^ 150 := by positivity
  have hc : 0 ≤ c := by linarith
  have hn' : (n:ℝ) ≤ 2 ^ 22 := by exact_mod_cast hn
  have hnc : n * c ≤ 2 ^ 22 * c := mul_le_mul_of_nonneg_right hn' hc
  refine apx (d := n * c + δ) _ ?_ hH ?_ ?_
  · have := abs_add_le (s - S) (d - d')
    rw [show s - S + (d - d') = s + d - (S + d') by ring] at this
    linarith
  · have e2 : (H + (n * c + δ)) / 2 ^ 24 = (H + δ) / 2 ^ 24 + n * c / 2 ^ 24 := by ring
    have e3 : n * c / 2 ^ 24 ≤ 2 ^ 22 * c / 2 ^ 24 := div_le_div_of_nonneg_right hnc (by positivity)
    have e4 : (2:ℝ) ^ 22 * c / 2 ^ 24 = c / 4 := by ring
    rw [e2]
    linarith
  · have : δ ≤ c := by linarith
    have e5 : (2:ℝ) ^ 22 * 2 ^ 64 + 2 ^ 64 + 2 ^ 64 ≤ 2 ^ 100 := by norm_num
    have : (2:ℝ) ^ 22 * c ≤ 2 ^ 22 * 2 ^ 64 := mul_le_mul_of_nonneg_left hc' (by positivity)
    linarith

/-- A number to which a small one adds nothing. -/
theorem deaf {m e : ℤ} (h1 : 2 ^ 23 ≤ |m|) (h2 : |m| < 2 ^ 24) (he : -149 ≤ e) {d : ℝ} (hd : |d| < 2 ^ (e - 2)) :
    round24 (m * 2 ^ e + d) = m * 2 ^ e := by
  obtain ⟨z, hz⟩ : ∃ z : ℝ, z = m * 2 ^ e + d := ⟨_, rfl⟩
  rw [← hz]
  have pe := pow_pos' e
  have p2 : (2:ℝ) ^ e = 2 ^ (e - 2) * 4 := by
    rw [show e = e - 2 + 2 by ring, zpow_add₀ (by norm_num)]; norm_num
  have hm1 : (2:ℝ) ^ 23 ≤ |(m:ℝ)| := by exact_mod_cast h1
  have hm2 : |(m:ℝ)| ≤ 2 ^ 24 - 1 := by
    have : |m| ≤ 2 ^ 24 - 1 := by omega
    exact_mod_cast this
  have hma : |(m:ℝ) * 2 ^ e| = |(m:ℝ)| * 2 ^ e := by rw [abs_mul, abs_of_pos pe]
  have u1 := mul_le_mul_of_nonneg_right hm1 pe.le
  have u2 := mul_le_mul_of_nonneg_right hm2 pe.le
  have zl : (2:ℝ) ^ (e + 22) ≤ |z| := by
    have h := abs_sub_abs_le_abs_sub ((m:ℝ) * 2 ^ e) (-d)
    rw [abs_neg, sub_neg_eq_add, ← hz, hma] at h
    have : (2:ℝ) ^ (e + 22) = 2 ^ 22 * 2 ^ e := by rw [add_comm, zpow_add₀ (by norm_num)]; norm_num
    rw [this]
    linarith
  have zu : |z| < (2:ℝ) ^ (e + 24) := by
    have h := abs_add_le ((m:ℝ) * 2 ^ e) d
    rw [← hz, hma] at h
    have : (2:ℝ) ^ (e + 24) = 2 ^ 24 * 2 ^ e := by rw [add_comm, zpow_add₀ (by norm_num)]; norm_num
    rw [this]
    linarith
  have z0 : 0 < |z| := lt_of_lt_of_le (pow_pos' _) zl
  have l1 : e + 22 ≤ Int.log 2 |z| := (Int.zpow_le_iff_le_log (by norm_num) z0).1 (by push_cast; exact zl)
  have l2 : Int.log 2 |z| < e + 24 := (Int.lt_zpow_iff_log_lt (by norm_num) z0).1 (by push_cast; exact zu)
  have hu : ulpExp z = e ∨ ulpExp z = e - 1 := by unfold ulpExp; omega
  obtain ⟨M, hM⟩ : ∃ M : ℤ, (m:ℝ) * 2 ^ e = M * 2 ^ ulpExp z := by
    rcases hu with h | h
    · exact ⟨m, by rw [h]⟩
    · refine ⟨2 * m, ?_⟩
      rw [h, show (2:ℝ) ^ e = 2 ^ (e - 1) * 2 by rw [← zpow_add_one₀ (by norm_num)]; ring_nf]
      push_cast; ring
  have pu := pow_pos' (ulpExp z)
  have hp : (2:ℝ) ^ (e - 2) * 2 ≤ 2 ^ ulpExp z := by
    rw [← zpow_add_one₀ (by norm_num)]
    exact zpow_le_zpow_right₀ (by norm_num) (by omega)
  have hq : |z / 2 ^ ulpExp z - M| < 1 / 2 := by
    rw [show z / 2 ^ ulpExp z - M = d / 2 ^ ulpExp z by
      rw [eq_div_iff pu.ne', sub_mul, div_mul_cancel₀ _ pu.ne', ← hM, hz]; ring, abs_div, abs_of_pos pu, div_lt_iff₀ pu]
    linarith
  have hr : roundEven (z / 2 ^ ulpExp z) = M := by
    have h3 := roundEven_err (z / 2 ^ ulpExp z)
    have h4 := abs_sub_le (roundEven (z / 2 ^ ulpExp z) : ℝ) (z / 2 ^ ulpExp z) M
    have h5 : |(roundEven (z / 2 ^ ulpExp z) : ℝ) - M| < 1 := by linarith
    have h6 : |roundEven (z / 2 ^ ulpExp z) - M| < 1 := by exact_mod_cast h5
    rw [Int.abs_lt_one_iff] at h6
    omega
  rw [hM]
  show (roundEven (z / 2 ^ ulpExp z) : ℝ) * 2 ^ ulpExp z = _
  rw [hr]

end Verif.Proof
