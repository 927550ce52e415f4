import Verif.Proof.Bend
import Mathlib.Analysis.Real.Pi.Bounds
/-!
# The parameters of slaloms in single precision: lemmas for C125
-/
namespace Verif.Proof
open Verif Verif.Spec Verif.Binary32 Verif.Single
open Verif.Run (SlalomKind SlalomDirection)

variable {exp : F → F}

theorem rnd_tiny {z : ℝ} (h : |z| ≤ 1000000) : ∃ x, rnd z = .fin x ∧ |x - z| ≤ |z| / 10000000 + 1 / 10 ^ 20 := by
  obtain ⟨x, e, b⟩ := rnd_err (h.trans (by norm_num))
  refine ⟨x, e, b.trans ?_⟩
  have h1 : |z| / 2 ^ 24 ≤ |z| / 10000000 := div_le_div_of_nonneg_left (abs_nonneg z) (by norm_num) (by norm_num)
  have h2 : (1:ℝ) / 2 ^ 150 ≤ 1 / 10 ^ 20 := by norm_num
  linarith

theorem rnd_up {z : ℝ} (h0 : 0 ≤ z) (h : z ≤ 1000000) : ∃ x, rnd z = .fin x ∧ 0 ≤ x ∧ |x - z| ≤ z / 10000000 + 1 / 10 ^ 20 := by
  obtain ⟨x, e, b⟩ := rnd_tiny (by rwa [abs_of_nonneg h0])
  rw [abs_of_nonneg h0] at b
  exact ⟨x, e, by rw [(rnd_fin e).1]; exact round24_nonneg h0, b⟩

set_option maxHeartbeats 1000000 in
/-- Parameters made of proportions of moderate size. -/
theorem create_formed {s a1 a2 x y ρ θ : ℝ} (s0 : 0.01 ≤ s) (s1 : s ≤ 5) (l1 : 0 ≤ a1 ∧ a1 ≤ 1.2) (l2 : 0 ≤ a2 ∧ a2 ≤ 1.2) (hx : |x| ≤ 1.2) (hy : |y| ≤ 1.2)
    (r0 : 0.3 ≤ ρ) (r1 : ρ ≤ 5) (t0 : 45 ≤ θ) (t1 : θ ≤ 180) (d : SlalomDirection) :
    ∃ vRef, Formed vRef (createOutline (arith exp) (.fin a1) (.fin a2) (.fin x) (.fin y) (.fin ρ) θ (.fin s) d) ∧ |vRef - s * ρ| ≤ s / 1000000 ∧
      (∃ r : ℝ, (createOutline (arith exp) (.fin a1) (.fin a2) (.fin x) (.fin y) (.fin ρ) θ (.fin s) d).lStart = .fin r ∧ |r - s * a1| ≤ s / 1000000) ∧
      ∃ r : ℝ, (createOutline (arith exp) (.fin a1) (.fin a2) (.fin x) (.fin y) (.fin ρ) θ (.fin s) d).lEnd = .fin r ∧ |r - s * a2| ≤ s / 1000000 := by
  have sp : 0 < s := by linarith
  have m : ∀ a c : ℝ, a ≤ c → s * a ≤ s * c := fun a c h => mul_le_mul_of_nonneg_left h sp.le
  have n20 : (1:ℝ) / 10 ^ 20 ≤ s / 10 ^ 18 := by
    rw [div_le_div_iff₀ (by norm_num) (by norm_num)]
    norm_num
    linarith
  have s18 : s / 10 ^ 18 ≤ s / 10000000 := div_le_div_of_nonneg_left sp.le (by norm_num) (by norm_num)
  obtain ⟨b1, e1, p1, q1⟩ := rnd_up (z := s * a1) (mul_nonneg sp.le l1.1) (by nlinarith [l1.2])
  obtain ⟨b2, e2, p2, q2⟩ := rnd_up (z := s * a2) (mul_nonneg sp.le l2.1) (by nlinarith [l2.2])
  have k1 := m _ _ l1.2
  have k2 := m _ _ l2.2
  have k3 := m _ _ r1
  have k4 := m _ _ r0
  obtain ⟨vr, e5, p5, q5⟩ := rnd_up (z := s * ρ) (by positivity) (by linarith)
  have Q1 : |b1 - s * a1| ≤ s / 1000000 := by linarith
  have Q2 : |b2 - s * a2| ≤ s / 1000000 := by linarith
  have Q5 : |vr - s * ρ| ≤ s / 1000000 := by linarith
  have hsx : Bd 10 ((arith exp).mul (.fin s) (.fin x)) :=
    mul' 10 (bd_fin (c := 5) (by rw [abs_of_pos sp]; exact s1)) (bd_fin hx) (by norm_num) (by norm_num)
  have hsy : Bd 10 ((arith exp).mul (.fin s) (.fin y)) :=
    mul' 10 (bd_fin (c := 5) (by rw [abs_of_pos sp]; exact s1)) (bd_fin hy) (by norm_num) (by norm_num)
  have g1 := Real.pi_gt_d6
  have g2 := Real.pi_lt_d6
  norm_num at g1 g2
  obtain ⟨c, ec, c0, qc⟩ := rnd_up (z := Real.pi / 180) (by positivity) (by linarith)
  obtain ⟨qc1, qc2⟩ := abs_le.1 qc
  norm_num at qc1 qc2
  have c1 : 0.0174 ≤ c := by linarith
  have c2 : c ≤ 0.0175 := by linarith
  obtain ⟨th, eth, th0, qth⟩ := rnd_up (z := θ * c) (by positivity) (by nlinarith)
  have u1 : 45 * c ≤ θ * c := mul_le_mul_of_nonneg_right t0 c0
  have u2 : θ * c ≤ 180 * c := mul_le_mul_of_nonneg_right t1 c0
  obtain ⟨qt1, qt2⟩ := abs_le.1 qth
  norm_num at qt1 qt2
  obtain ⟨pi, epi, pi0, qpi⟩ := rnd_up (z := Real.pi) (by positivity) (by linarith)
  obtain ⟨qp1, qp2⟩ := abs_le.1 qpi
  norm_num at qp1 qp2
  have pi1 : 3.14159 ≤ pi := by linarith
  have pi2 : pi ≤ 3.1416 := by linarith
  have rot : ∀ k : ℝ, 0 ≤ k → k ≤ 1200 → ∃ r, (arith exp).mul (.fin k) (.fin pi) = .fin r ∧ |r - k * pi| ≤ k * pi / 10000000 + 1 / 10 ^ 20 := by
    intro k k0 k1
    obtain ⟨r, er, -, qr⟩ := rnd_up (z := k * pi) (by positivity) (by nlinarith)
    exact ⟨r, er, qr⟩
  obtain ⟨d1, ed1, qd1⟩ := rot 3 (by norm_num) (by norm_num)
  obtain ⟨d2, ed2, qd2⟩ := rot 36 (by norm_num) (by norm_num)
  obtain ⟨d3, ed3, qd3⟩ := rot 1200 (by norm_num) (by norm_num)
  obtain ⟨w1, w2⟩ := abs_le.1 qd1
  obtain ⟨w3, w4⟩ := abs_le.1 qd2
  obtain ⟨w5, w6⟩ := abs_le.1 qd3
  norm_num at w1 w2 w3 w4 w5 w6
  have etheta : Single.degree (arith exp) θ = .fin th := by
    unfold Single.degree
    show (arith exp).mul (.fin θ) (rnd (Real.pi / 180)) = _
    rw [ec]
    exact eth
  have e1' : (arith exp).mul (.fin s) (.fin a1) = .fin b1 := e1
  have e2' : (arith exp).mul (.fin s) (.fin a2) = .fin b2 := e2
  have e5' : (arith exp).mul (.fin s) (.fin ρ) = .fin vr := e5
  have epi' : (arith exp).rnd Real.pi = .fin pi := epi
  have b1' : b1 ≤ 10 := by have := (abs_le.1 q1).2; linarith
  have b2' : b2 ≤ 10 := by have := (abs_le.1 q2).2; linarith
  refine ⟨vr, ?_, Q5, ?_⟩
  · unfold createOutline
    dsimp only
    rw [etheta, epi', ed1, ed2, ed3, e1', e2', e5']
    cases d with
    | left =>
      exact ⟨rfl, ⟨d1, rfl, by linarith, by linarith⟩, ⟨d2, rfl, by linarith, by linarith⟩, ⟨d3, rfl, by linarith, by linarith⟩,
        ⟨th, rfl, by rw [abs_of_nonneg th0]; linarith, by rw [abs_of_nonneg th0]; linarith⟩, ⟨b1, rfl, p1, b1'⟩, ⟨b2, rfl, p2, b2'⟩, hsx, hsy⟩
    | right =>
      exact ⟨rfl, ⟨d1, rfl, by linarith, by linarith⟩, ⟨d2, rfl, by linarith, by linarith⟩, ⟨d3, rfl, by linarith, by linarith⟩,
        ⟨-th, rfl, by rw [abs_neg, abs_of_nonneg th0]; linarith, by rw [abs_neg, abs_of_nonneg th0]; linarith⟩, ⟨b1, rfl, p1, b1'⟩, ⟨b2, rfl, p2, b2'⟩, hsx, bd_neg hsy⟩
  · unfold createOutline
    dsimp only
    rw [e1', e2']
    cases d with
    | left => exact ⟨⟨b1, rfl, Q1⟩, b2, rfl, Q2⟩
    | right => exact ⟨⟨b1, rfl, Q1⟩, b2, rfl, Q2⟩

/-- The same with decimal proportions. -/
theorem decimal_formed {s a1 a2 x y ρ θ : ℝ} (s0 : 0.01 ≤ s) (s1 : s ≤ 5) (l1 : 0.15 ≤ a1 ∧ a1 ≤ 1.1) (l2 : 0.15 ≤ a2 ∧ a2 ≤ 1.1) (hx : |x| ≤ 1.1) (hy : |y| ≤ 1.1)
    (r0 : 0.4 ≤ ρ) (r1 : ρ ≤ 4.9) (t0 : 45 ≤ θ) (t1 : θ ≤ 180) (d : SlalomDirection) :
    ∃ vRef, Formed vRef (createOutline (arith exp) ((arith exp).rnd a1) ((arith exp).rnd a2) ((arith exp).rnd x) ((arith exp).rnd y) ((arith exp).rnd ρ) θ (.fin s) d) ∧
      |vRef - s * ρ| ≤ s / 100000 ∧
      (∃ r : ℝ, (createOutline (arith exp) ((arith exp).rnd a1) ((arith exp).rnd a2) ((arith exp).rnd x) ((arith exp).rnd y) ((arith exp).rnd ρ) θ (.fin s) d).lStart = .fin r ∧ 0.14 * s ≤ r) ∧
      ∃ r : ℝ, (createOutline (arith exp) ((arith exp).rnd a1) ((arith exp).rnd a2) ((arith exp).rnd x) ((arith exp).rnd y) ((arith exp).rnd ρ) θ (.fin s) d).lEnd = .fin r ∧ 0.14 * s ≤ r := by
  have sp : 0 < s := by linarith
  obtain ⟨b1, e1, -, q1⟩ := rnd_up (z := a1) (by linarith [l1.1]) (by linarith [l1.2])
  obtain ⟨b2, e2, -, q2⟩ := rnd_up (z := a2) (by linarith [l2.1]) (by linarith [l2.2])
  obtain ⟨x', ex, qx⟩ := rnd_tiny (z := x) (by linarith)
  obtain ⟨y', ey, qy⟩ := rnd_tiny (z := y) (by linarith)
  obtain ⟨r, er, -, qr⟩ := rnd_up (z := ρ) (by linarith) (by linarith)
  have f1 : (arith exp).rnd a1 = .fin b1 := e1
  have f2 : (arith exp).rnd a2 = .fin b2 := e2
  have f3 : (arith exp).rnd x = .fin x' := ex
  have f4 : (arith exp).rnd y = .fin y' := ey
  have f5 : (arith exp).rnd ρ = .fin r := er
  rw [f1, f2, f3, f4, f5]
  obtain ⟨h1, h1'⟩ := abs_le.1 q1
  obtain ⟨h2, h2'⟩ := abs_le.1 q2
  obtain ⟨h3, h3'⟩ := abs_le.1 qr
  norm_num at h1 h1' h2 h2' h3 h3' qx qy
  have ax := abs_sub_abs_le_abs_sub x' x
  have ay := abs_sub_abs_le_abs_sub y' y
  obtain ⟨vRef, F, g1, ⟨u1, w1, g2⟩, u2, w2, g3⟩ := create_formed (exp := exp) (a1 := b1) (a2 := b2) (x := x') (y := y') (ρ := r) s0 s1 (by constructor <;> linarith [l1.1, l1.2])
    (by constructor <;> linarith [l2.1, l2.2]) (by linarith) (by linarith) (by linarith) (by linarith) t0 t1 d
  refine ⟨vRef, F, ?_, ⟨u1, w1, ?_⟩, u2, w2, ?_⟩
  · have : |s * r - s * ρ| ≤ s * (1 / 1000000) := by
      rw [← mul_sub, abs_mul, abs_of_pos sp]
      refine mul_le_mul_of_nonneg_left (qr.trans ?_) sp.le
      norm_num
      linarith
    have t := abs_add_le (vRef - s * r) (s * r - s * ρ)
    rw [show vRef - s * r + (s * r - s * ρ) = vRef - s * ρ by ring] at t
    linarith
  · have := (abs_le.1 g2).1
    have m : s * 0.149 ≤ s * b1 := mul_le_mul_of_nonneg_left (by linarith [l1.1]) sp.le
    linarith
  · have := (abs_le.1 g3).1
    have m : s * 0.149 ≤ s * b2 := mul_le_mul_of_nonneg_left (by linarith [l2.1]) sp.le
    linarith

set_option maxHeartbeats 1000000 in
/-- The slalom of the search. -/
theorem search_formed {s o : ℝ} (s0 : 0.01 ≤ s) (s1 : s ≤ 5) (o0 : 0 ≤ o) (o1 : o ≤ 0.036) (d : SlalomDirection) :
    ∃ vRef, Formed vRef (outline (arith exp) (.fin s) (.fin o) .search90 d) ∧ |vRef - (Slalom.parameters s o .search90 d).vRef| ≤ s / 100000 := by
  have sp : 0 < s := by linarith
  have lit : ∀ z : ℝ, 0 ≤ z → z ≤ 10 → ∃ x, (arith exp).rnd z = .fin x ∧ 0 ≤ x ∧ |x - z| ≤ z / 10000000 + 1 / 10 ^ 20 := by
    intro z z0 z1
    exact rnd_up z0 (by linarith)
  obtain ⟨n, en, n0, qn⟩ := lit 0.09 (by norm_num) (by norm_num)
  obtain ⟨c1, ec1, c10, qc1⟩ := lit 0.055555556 (by norm_num) (by norm_num)
  obtain ⟨c2, ec2, c20, qc2⟩ := lit 0.055555567 (by norm_num) (by norm_num)
  obtain ⟨c3, ec3, c30, qc3⟩ := lit 0.44444445 (by norm_num) (by norm_num)
  obtain ⟨c4, ec4, c40, qc4⟩ := lit 2.6843333 (by norm_num) (by norm_num)
  obtain ⟨c5, ec5, c50, qc5⟩ := lit 6.03975 (by norm_num) (by norm_num)
  rw [abs_le] at qn qc1 qc2 qc3 qc4 qc5
  norm_num at qn qc1 qc2 qc3 qc4 qc5
  obtain ⟨qn1, qn2⟩ := qn
  have np : 0 < n := by linarith
  -- the proportion of the offset
  have on0 : 0 ≤ o / n := div_nonneg o0 np.le
  have on1 : o / n ≤ 0.4001 := by rw [div_le_iff₀ np]; linarith
  have on2 : |o / n - o / 0.09| ≤ 1 / 10000000 := by
    have : o / n - o / 0.09 = o / n * ((0.09 - n) / 0.09) := by field_simp
    rw [this, abs_mul, abs_of_nonneg on0, abs_div, abs_of_pos (show (0:ℝ) < 0.09 by norm_num)]
    have h : |0.09 - n| / 0.09 ≤ 1.1 / 10000000 := by
      rw [div_le_iff₀ (by norm_num), abs_le]
      constructor <;> linarith
    nlinarith [abs_nonneg (0.09 - n), div_nonneg (abs_nonneg (0.09 - n)) (show (0:ℝ) ≤ 0.09 by norm_num)]
  obtain ⟨k, ek, k0, qk⟩ := rnd_up on0 (by linarith)
  have ek' : (arith exp).div (.fin o) ((arith exp).rnd 0.09) = .fin k := by rw [en, div_rnd np.ne', ek]
  obtain ⟨qk1, qk2⟩ := abs_le.1 qk
  obtain ⟨on3, on4⟩ := abs_le.1 on2
  norm_num at qk1 qk2
  have k1 : k ≤ 0.4002 := by linarith
  have kd1 : k - o / 0.09 ≤ 2 / 10000000 := by linarith
  have kd2 : -(2 / 10000000) ≤ k - o / 0.09 := by linarith
  -- half a square less the offset
  obtain ⟨h, eh, h0, qh⟩ := rnd_up (z := 0.5 - k) (by linarith) (by linarith)
  obtain ⟨qh1, qh2⟩ := abs_le.1 qh
  norm_num at qh1 qh2
  have eh' : (arith exp).sub (.fin 0.5) (.fin k) = .fin h := by
    show rnd (0.5 + -k) = _
    rw [← sub_eq_add_neg, eh]
  -- the velocity of reference of the model, as a proportion
  obtain ⟨R, eR, hR1, hR2⟩ : ∃ R, (Slalom.parameters s o .search90 d).vRef = s * R ∧ (o / 0.09 ≤ 0.055555556 → R = 2.6843333) ∧ (¬ o / 0.09 ≤ 0.055555556 → R = (0.5 - o / 0.09) * 6.03975) := by
    by_cases c : o / 0.09 ≤ 0.055555556
    · refine ⟨2.6843333, ?_, fun _ => rfl, fun h => absurd c h⟩
      unfold Slalom.parameters
      dsimp only
      rw [if_pos c]
      cases d <;> rfl
    · refine ⟨(0.5 - o / 0.09) * 6.03975, ?_, fun h => absurd h c, fun _ => rfl⟩
      unfold Slalom.parameters
      dsimp only
      rw [if_neg c]
      cases d <;> rfl
  have key : ∀ ρ vRef : ℝ, |ρ - R| ≤ 3 / 1000000 → |vRef - s * ρ| ≤ s / 1000000 → |vRef - s * R| ≤ s / 100000 := by
    intro ρ vRef h1 h2
    have t := abs_add_le (vRef - s * ρ) (s * ρ - s * R)
    rw [show vRef - s * ρ + (s * ρ - s * R) = vRef - s * R by ring] at t
    have : |s * ρ - s * R| ≤ s * (3 / 1000000) := by
      rw [← mul_sub, abs_mul, abs_of_pos sp]
      exact mul_le_mul_of_nonneg_left h1 sp.le
    linarith
  rw [eR]
  unfold outline
  dsimp only
  rw [ek', ec1]
  have c12 : c1 ≤ c2 := by
    rw [(rnd_fin (show rnd 0.055555556 = .fin c1 from ec1)).1, (rnd_fin (show rnd 0.055555567 = .fin c2 from ec2)).1]
    exact round24_mono (by norm_num)
  by_cases c : k ≤ c1
  · rw [if_pos (show (F.fin k).le (.fin c1) from c), ec2, ec3, ec4, eh']
    obtain ⟨a, ea, a0, qa⟩ := rnd_up (z := c2 - k) (by linarith) (by linarith)
    obtain ⟨b, eb, b0, qb⟩ := rnd_up (z := c1 + k) (by linarith) (by linarith)
    have ea' : (arith exp).sub (.fin c2) (.fin k) = .fin a := by
      show rnd (c2 + -k) = _
      rw [← sub_eq_add_neg, ea]
    have eb' : (arith exp).add (.fin c1) (.fin k) = .fin b := eb
    rw [ea', eb']
    obtain ⟨qa1, qa2⟩ := abs_le.1 qa
    obtain ⟨qb1, qb2⟩ := abs_le.1 qb
    norm_num at qa1 qa2 qb1 qb2
    obtain ⟨vRef, F, g, -⟩ := create_formed (exp := exp) (a1 := a) (a2 := b) (x := h) (y := c3) (ρ := c4) (θ := 90) s0 s1 ⟨a0, by linarith⟩ ⟨b0, by linarith⟩
      (by rw [abs_of_nonneg h0]; linarith) (by rw [abs_of_nonneg c30]; linarith) (by linarith) (by linarith) (by norm_num) (by norm_num) d
    refine ⟨vRef, F, key c4 vRef ?_ g⟩
    by_cases cr : o / 0.09 ≤ 0.055555556
    · rw [hR1 cr, abs_le]
      constructor <;> linarith
    · rw [hR2 cr, abs_le]
      rw [not_le] at cr
      constructor <;> linarith
  · rw [if_neg (show ¬ (F.fin k).le (.fin c1) from c), eh']
    rw [not_le] at c
    obtain ⟨b, eb, b0, qb⟩ := rnd_up (z := k + k) (by linarith) (by linarith)
    have eb' : (arith exp).add (.fin k) (.fin k) = .fin b := eb
    obtain ⟨r, er, r0, qr⟩ := rnd_up (z := h * c5) (by positivity) (by nlinarith)
    have er' : (arith exp).mul (.fin h) ((arith exp).rnd 6.03975) = .fin r := by rw [ec5]; exact er
    rw [eb', er']
    obtain ⟨qb1, qb2⟩ := abs_le.1 qb
    obtain ⟨qr1, qr2⟩ := abs_le.1 qr
    norm_num at qb1 qb2 qr1 qr2
    have m1 : h * 6.039749 ≤ h * c5 := mul_le_mul_of_nonneg_left (by linarith) h0
    have m2 : h * c5 ≤ h * 6.039751 := mul_le_mul_of_nonneg_left (by linarith) h0
    obtain ⟨vRef, F, g, -⟩ := create_formed (exp := exp) (a1 := 0) (a2 := b) (x := h) (y := h) (ρ := r) (θ := 90) s0 s1 (by norm_num) ⟨b0, by linarith⟩
      (by rw [abs_of_nonneg h0]; linarith) (by rw [abs_of_nonneg h0]; linarith) (by linarith) (by linarith) (by norm_num) (by norm_num) d
    refine ⟨vRef, F, key r vRef ?_ g⟩
    by_cases cr : o / 0.09 ≤ 0.055555556
    · rw [hR1 cr, abs_le]
      constructor <;> linarith
    · rw [hR2 cr, abs_le]
      rw [not_le] at cr
      constructor <;> linarith

end Verif.Proof
