import Verif.Proof.SingleSim
/-!
# C131: the simulator in single precision keeps within bounds, for ever
-/
namespace Verif.Props
open Verif Verif.Spec Verif.Single Verif.Binary32 Verif.Proof

variable {exp : F → F}

/-- What the voltages can drive the speed to, roundings included. -/
noncomputable def driven (k M : ℝ) : ℝ := |k| * M * (1 + 1 / 10 ^ 6) + 1 / 10 ^ 20

theorem trans_settle {V K a b η N : ℝ} (hV : V = 23 / 10 * K + 1 / 10 ^ 6) (K0 : 0 ≤ K) (hab : a + b = 1) (a0 : 0 ≤ a) (hb : 1 / 1001 ≤ b)
    (η0 : 0 ≤ η) (hη : η ≤ 1 / 10) (hηa : η * a ≤ b / 2) (hN : N ≤ V * a * (1 + 1 / 10 ^ 6) + K * b * (1 + 4 / 10 ^ 4) + 1 / 10 ^ 20) :
    N * (1 + η) * (1 + 4 / 10 ^ 7) + 1 / 10 ^ 20 ≤ V := by
  have V0 : 0 ≤ V := by rw [hV]; positivity
  have hP : V * a = V - V * b := by rw [show a = 1 - b by linarith]; ring
  have h1 : V * (η * a) ≤ V * (b / 2) := mul_le_mul_of_nonneg_left hηa V0
  have Q0 : 0 ≤ K * b := mul_nonneg K0 (by linarith)
  have h2 : K * b * η ≤ K * b * (1 / 10) := mul_le_mul_of_nonneg_left hη Q0
  have h3 : V * (1 / 1001) ≤ V * b := mul_le_mul_of_nonneg_left hb V0
  have h4 : V * b = 23 / 10 * (K * b) + 1 / 10 ^ 6 * b := by rw [hV]; ring
  have h5 : N * (1 + η) ≤ (V * a * (1 + 1 / 10 ^ 6) + K * b * (1 + 4 / 10 ^ 4) + 1 / 10 ^ 20) * (1 + η) := mul_le_mul_of_nonneg_right hN (by linarith)
  have h6 : (V * a * (1 + 1 / 10 ^ 6) + K * b * (1 + 4 / 10 ^ 4) + 1 / 10 ^ 20) * (1 + η) =
    (V * a + V * (η * a)) * (1 + 1 / 10 ^ 6) + (K * b + K * b * η) * (1 + 4 / 10 ^ 4) + 1 / 10 ^ 20 * (1 + η) := by ring
  norm_num at *
  linarith

theorem rot_settle {V K a b N : ℝ} (hV : V = 101 / 100 * K + 1 / 10 ^ 6) (K0 : 0 ≤ K) (hab : a + b = 1) (hb : 1 / 1001 ≤ b)
    (hN : N ≤ V * a * (1 + 1 / 10 ^ 6) + K * b * (1 + 4 / 10 ^ 4) + 1 / 10 ^ 20) : N ≤ V := by
  have V0 : 0 ≤ V := by rw [hV]; positivity
  have hP : V * a = V - V * b := by rw [show a = 1 - b by linarith]; ring
  have Q0 : 0 ≤ K * b := mul_nonneg K0 (by linarith)
  have h3 : V * (1 / 1001) ≤ V * b := mul_le_mul_of_nonneg_left hb V0
  have h4 : V * b = 101 / 100 * (K * b) + 1 / 10 ^ 6 * b := by rw [hV]; ring
  norm_num at *
  linarith

theorem volts_mag {k M r l : ℝ} (hk : |k| ≤ 1000) (M0 : 0 ≤ M) (hM : M ≤ 1000) (hr : |r| ≤ M) (hl : |l| ≤ M) :
    (∃ g, (arith exp).mul (.fin k) ((arith exp).div ((arith exp).add (.fin r) (.fin l)) (.fin 2)) = .fin g ∧ |g| ≤ driven k M) ∧
    ∃ g, (arith exp).mul (.fin k) ((arith exp).div ((arith exp).sub (.fin r) (.fin l)) (.fin 2)) = .fin g ∧ |g| ≤ driven k M := by
  have k0 := abs_nonneg k
  have hkM : 0 ≤ |k| * M := mul_nonneg k0 M0
  have fin : ∀ z : ℝ, |z| ≤ (M + M) * (1 + 1 / 10000000) + 1 / 10 ^ 40 →
      ∃ g, (arith exp).mul (.fin k) ((arith exp).div (.fin z) (.fin 2)) = .fin g ∧ |g| ≤ driven k M := by
    intro z hz
    obtain ⟨h, eh, bh⟩ := half_mag (exp := exp) hz (by norm_num; linarith)
    have bh' : |h| ≤ M * (1 + 3 / 10 ^ 7) + 1 / 10 ^ 39 := by norm_num at bh ⊢; linarith
    have hc : |k| * (M * (1 + 3 / 10 ^ 7) + 1 / 10 ^ 39) ≤ 1000 * 1002 := mul_le_mul hk (by norm_num; linarith) (by positivity) (by norm_num)
    obtain ⟨g, eg, bg⟩ := mul_mag (exp := exp) (le_refl |k|) bh' (by norm_num at hc ⊢; linarith)
    refine ⟨g, by rw [eh, eg], bg.trans ?_⟩
    unfold driven
    have : |k| * (M * (1 + 3 / 10 ^ 7) + 1 / 10 ^ 39) = |k| * M * (1 + 3 / 10 ^ 7) + |k| * (1 / 10 ^ 39) := by ring
    rw [this]
    norm_num at *
    linarith
  obtain ⟨p, ep, bp⟩ := add_mag (exp := exp) hr hl (by norm_num; linarith)
  obtain ⟨m, em, bm⟩ := sub_mag (exp := exp) hr hl (by norm_num; linarith)
  rw [ep, em]
  exact ⟨fin p bp, fin m bm⟩

/-- The state of a simulator that never leaves its bounds. -/
structure Calm (exp : F → F) (L : Lib) (V Ω : ℝ) (s : State) : Prop where
  px : Upto (2 ^ 24) s.x.x
  py : Upto (2 ^ 24) s.y.x
  pt : Upto (2 ^ 24) s.theta.x
  vx : Upto 260 s.x.v
  vy : Upto 260 s.y.v
  vt : Upto Ω s.theta.v
  vu : Upto V (transVel (arith exp) L s)
  ax : Upto (10 ^ 7) s.x.a
  ay : Upto (10 ^ 7) s.y.a
  at' : Upto (10 ^ 7) s.theta.a

theorem Upto.mono {a b : ℝ} {f : F} (h : Upto a f) (hab : a ≤ b) : Upto b f := h.imp fun _ g => ⟨g.1, g.2.trans hab⟩

theorem abs_le_of_circle {c s η : ℝ} (h : c * c + s * s ≤ 1 + η) (hη : η ≤ 1 / 10) : |c| ≤ 105 / 100 ∧ |s| ≤ 105 / 100 := by
  constructor <;> refine abs_le_of_sq_le_sq ?_ (by norm_num) <;> nlinarith [mul_self_nonneg c, mul_self_nonneg s]

/-- The velocity along the axis of the mouse, computed from components that were computed from it. -/
theorem project_mag {v N c s η : ℝ} (hv : |v| ≤ N) (hN : N ≤ 250) (h : c * c + s * s ≤ 1 + η) (η0 : 0 ≤ η) (hη : η ≤ 1 / 10) :
    ∃ xv yv u, (arith exp).mul (.fin v) (.fin c) = .fin xv ∧ (arith exp).mul (.fin v) (.fin s) = .fin yv ∧
      |xv| ≤ 105 / 100 * N + 1 / 10 ^ 3 ∧ |yv| ≤ 105 / 100 * N + 1 / 10 ^ 3 ∧
      (arith exp).add ((arith exp).mul (.fin xv) (.fin c)) ((arith exp).mul (.fin yv) (.fin s)) = .fin u ∧
      |u| ≤ N * (1 + η) * (1 + 4 / 10 ^ 7) + 1 / 10 ^ 20 := by
  have N0 := (abs_nonneg v).trans hv
  obtain ⟨hc, hs⟩ := abs_le_of_circle h hη
  have c0 := abs_nonneg c
  have s0 := abs_nonneg s
  have hNc : N * |c| ≤ N * (105 / 100) := mul_le_mul_of_nonneg_left hc N0
  have hNs : N * |s| ≤ N * (105 / 100) := mul_le_mul_of_nonneg_left hs N0
  have hNc0 : 0 ≤ N * |c| := by positivity
  have hNs0 : 0 ≤ N * |s| := by positivity
  obtain ⟨xv, ex, bx⟩ := mul_mag (exp := exp) hv (le_refl |c|) (by norm_num; linarith)
  obtain ⟨yv, ey, by'⟩ := mul_mag (exp := exp) hv (le_refl |s|) (by norm_num; linarith)
  have part : ∀ {z d : ℝ}, |z| ≤ N * |d| * (1 + 1 / 10000000) + 1 / 10 ^ 40 → |d| ≤ 105 / 100 → N * |d| ≤ N * (105 / 100) →
      ∃ m, (arith exp).mul (.fin z) (.fin d) = .fin m ∧ |m| ≤ N * (d * d) * (1 + 25 / 10 ^ 8) + 1 / 10 ^ 30 := by
    intro z d hz hd hNd
    have d0 := abs_nonneg d
    have e1 : (N * |d| * (1 + 1 / 10000000) + 1 / 10 ^ 40) * |d| = N * (d * d) * (1 + 1 / 10000000) + 1 / 10 ^ 40 * |d| := by
      rw [← abs_mul_abs_self d]; ring
    have e2 : N * (d * d) ≤ 250 * (105 / 100 * (105 / 100)) := by
      refine mul_le_mul hN ?_ (mul_self_nonneg d) (by norm_num)
      rw [← abs_mul_abs_self d]
      exact mul_le_mul hd hd d0 (by norm_num)
    have e3 : 0 ≤ N * (d * d) := mul_nonneg N0 (mul_self_nonneg d)
    obtain ⟨m, em, bm⟩ := mul_mag (exp := exp) hz (le_refl |d|) (by rw [e1]; norm_num at *; linarith)
    refine ⟨m, em, bm.trans ?_⟩
    rw [e1]
    norm_num at *
    linarith
  obtain ⟨m, em, bm⟩ := part bx hc hNc
  obtain ⟨n, en, bn⟩ := part by' hs hNs
  have key : N * (c * c) + N * (s * s) ≤ N * (1 + η) := by
    rw [← mul_add]; exact mul_le_mul_of_nonneg_left h N0
  have hNη : N * (1 + η) ≤ 250 * (11 / 10) := mul_le_mul hN (by linarith) (by linarith) (by norm_num)
  have k0 : 0 ≤ N * (1 + η) := mul_nonneg N0 (by linarith)
  obtain ⟨u, eu, bu⟩ := add_mag (exp := exp) bm bn (by norm_num at *; linarith)
  refine ⟨xv, yv, u, ex, ey, ?_, ?_, by rw [em, en, eu], bu.trans ?_⟩
  · norm_num at *; linarith
  · norm_num at *; linarith
  · norm_num at *; linarith

/-- One step keeps within the bounds. -/
theorem step_calm {L : Lib} {η M T kt tt kr tr w : ℝ} (hL : CircleTrig L η) {s : Simulator} (H : SimFit s η M T kt tt kr tr w)
    (hr : Upto M s.rightVoltage) (hl : Upto M s.leftVoltage)
    (hc : Calm exp L (23 / 10 * driven kt M + 1 / 10 ^ 6) (101 / 100 * driven kr M + 1 / 10 ^ 6) s.current) :
    Calm exp L (23 / 10 * driven kt M + 1 / 10 ^ 6) (101 / 100 * driven kr M + 1 / 10 ^ 6) (s.step (arith exp) L).current := by
  obtain ⟨walls, cur, last, rv, lv, mv, per, k1, t1, k2, t2, wi⟩ := s
  obtain ⟨⟨-, M0, M1⟩, ⟨eT, T0, T1⟩, ⟨ekt, kt1, ktM⟩, ⟨ett, tt0, tt1⟩, ⟨ekr, kr1, krM⟩, ⟨etr, tr0, tr1⟩, -, ⟨η0, η1, ηt⟩⟩ := H
  dsimp only at eT ekt ett ekr etr hr hl hc
  subst eT ekt ett ekr etr
  obtain ⟨r, rfl, br⟩ := hr
  obtain ⟨l, rfl, bl⟩ := hl
  obtain ⟨⟨cx, cxv, cxa⟩, ⟨cy, cyv, cya⟩, ⟨ct, ctv, cta⟩⟩ := cur
  obtain ⟨⟨x, ex, bx⟩, ⟨y, ey, by'⟩, ⟨θ, eθ, bθ⟩, ⟨vx, evx, bvx⟩, ⟨vy, evy, bvy⟩, ⟨ω, eω, bω⟩, ⟨u, eu, bu⟩, -, -, -⟩ := hc
  dsimp only at ex ey eθ evx evy eω
  subst ex ey eθ evx evy eω
  obtain ⟨Kt, hKt⟩ : ∃ K, K = driven kt M := ⟨_, rfl⟩
  obtain ⟨Kr, hKr⟩ : ∃ K, K = driven kr M := ⟨_, rfl⟩
  obtain ⟨V, hV⟩ : ∃ V, V = 23 / 10 * Kt + 1 / 10 ^ 6 := ⟨_, rfl⟩
  obtain ⟨Ω, hΩ⟩ : ∃ V, V = 101 / 100 * Kr + 1 / 10 ^ 6 := ⟨_, rfl⟩
  have Kt0 : 0 ≤ Kt := by rw [hKt]; unfold driven; positivity
  have Kr0 : 0 ≤ Kr := by rw [hKr]; unfold driven; positivity
  have Kt1 : Kt ≤ 100 := by rw [hKt]; unfold driven; norm_num; linarith
  have Kr1 : Kr ≤ 309 := by rw [hKr]; unfold driven; norm_num; linarith
  have V1 : V ≤ 231 := by rw [hV]; norm_num; linarith
  have Ω1 : Ω ≤ 313 := by rw [hΩ]; norm_num; linarith
  obtain ⟨⟨g, eg, bg⟩, -⟩ := volts_mag (exp := exp) kt1 M0 M1 br bl
  obtain ⟨-, ⟨g', eg', bg'⟩⟩ := volts_mag (exp := exp) kr1 M0 M1 br bl
  rw [← hKt] at bg bu
  rw [← hKr] at bg' bω
  rw [← hV] at bu
  rw [← hΩ] at bω
  rw [← hKt, ← hKr, ← hV, ← hΩ]
  have V0 := (abs_nonneg u).trans bu
  have Ω0 := (abs_nonneg ω).trans bω
  obtain ⟨α, n, eα, en, bn⟩ := filter_mag (exp := exp) T0 T1 tt0 tt1 bu (by norm_num; linarith) bg (by norm_num; linarith)
  obtain ⟨α', n', eα', en', bn'⟩ := filter_mag (exp := exp) T0 T1 tr0 tr1 bω (by norm_num; linarith) bg' (by norm_num; linarith)
  have Tp : 0 < T := by linarith
  have hb1 : 1 / 1001 ≤ T / (tt + T) := by rw [le_div_iff₀ (by linarith)]; linarith
  have hb2 : 1 / 1001 ≤ T / (tr + T) := by rw [le_div_iff₀ (by linarith)]; linarith
  have hab1 : tt / (tt + T) + T / (tt + T) = 1 := by rw [← add_div]; exact div_self (by linarith)
  have hab2 : tr / (tr + T) + T / (tr + T) = 1 := by rw [← add_div]; exact div_self (by linarith)
  have ha1 : 0 ≤ tt / (tt + T) := by positivity
  have hηa : η * (tt / (tt + T)) ≤ T / (tt + T) / 2 := by
    rw [← mul_div_assoc, div_div, mul_comm (tt + T) 2, ← div_div]
    exact div_le_div_of_nonneg_right ηt (by linarith)
  have hVN := trans_settle hV Kt0 hab1 ha1 hb1 η0 η1 hηa (le_refl _)
  have hΩN := bn'.trans (rot_settle hΩ Kr0 hab2 hb2 (le_refl _))
  obtain ⟨N, hN⟩ : ∃ N, N = V * (tt / (tt + T)) * (1 + 1 / 10 ^ 6) + Kt * (T / (tt + T)) * (1 + 4 / 10 ^ 4) + 1 / 10 ^ 20 := ⟨_, rfl⟩
  rw [← hN] at hVN bn
  have N0 := (abs_nonneg n).trans bn
  have NV : N ≤ V := by
    have := mul_nonneg N0 η0
    norm_num at hVN
    nlinarith
  have eNT : (⟨walls, ⟨⟨.fin x, .fin vx, cxa⟩, ⟨.fin y, .fin vy, cya⟩, ⟨.fin θ, .fin ω, cta⟩⟩, last, .fin r, .fin l, mv, .fin T, .fin kt, .fin tt,
      .fin kr, .fin tr, wi⟩ : Simulator).nextTransVel (arith exp) L = .fin n := by
    unfold Simulator.nextTransVel lowPass
    dsimp only
    rw [eu, eg, eα, en]
  have eNR : (⟨walls, ⟨⟨.fin x, .fin vx, cxa⟩, ⟨.fin y, .fin vy, cya⟩, ⟨.fin θ, .fin ω, cta⟩⟩, last, .fin r, .fin l, mv, .fin T, .fin kt, .fin tt,
      .fin kr, .fin tr, wi⟩ : Simulator).nextRotVel (arith exp) = .fin n' := by
    unfold Simulator.nextRotVel lowPass
    dsimp only
    rw [eg', eα', en']
  -- the angle
  have hT : |T| ≤ 1 / 400 := by rw [abs_of_pos Tp]; exact T1
  obtain ⟨dθ, edθ, bdθ⟩ := mul_mag (exp := exp) hΩN hT (by norm_num; linarith)
  obtain ⟨θ', eθ', bθ'⟩ := saturate (exp := exp) bθ (show |dθ| ≤ 1 by norm_num at bdθ; linarith)
  obtain ⟨aθ, eaθ, baθ⟩ := sub_mag (exp := exp) hΩN bω (by norm_num; linarith)
  obtain ⟨aθ', eaθ', baθ'⟩ := div_mag (exp := exp) (p := 10 ^ 3 - 100) (T := T) (show |aθ| ≤ _ by norm_num at baθ ⊢; linarith) T0 (by norm_num)
  obtain ⟨c, sn, ec, es, hcs⟩ := hL θ bθ
  obtain ⟨c', sn', ec', es', hcs'⟩ := hL θ' bθ'
  obtain ⟨hc1, hs1⟩ := abs_le_of_circle hcs η1
  obtain ⟨xv, yv, u', exv, eyv, bxv, byv, eu', bu'⟩ := project_mag (exp := exp) bn (by linarith) hcs' η0 η1
  -- the position
  have move : ∀ {p d q : ℝ}, |p| ≤ 2 ^ 24 → |d| ≤ 105 / 100 → |q| ≤ 105 / 100 * N + 1 / 10 ^ 3 →
      ∃ p', (arith exp).add (.fin p) ((arith exp).div ((arith exp).mul ((arith exp).add ((arith exp).mul (.fin u) (.fin d)) (.fin q)) (.fin T)) (.fin 2)) =
        .fin p' ∧ |p'| ≤ 2 ^ 24 := by
    intro p d q hp hd hq
    obtain ⟨m, em, bm⟩ := mul_mag (exp := exp) bu hd (by norm_num; linarith)
    obtain ⟨σ, eσ, bσ⟩ := add_mag (exp := exp) bm hq (by norm_num; linarith)
    obtain ⟨f, ef, bf⟩ := mul_mag (exp := exp) bσ hT (by norm_num; linarith)
    obtain ⟨h, eh, bh⟩ := half_mag (exp := exp) bf (by norm_num; linarith)
    obtain ⟨p', ep, bp⟩ := saturate (exp := exp) hp (show |h| ≤ 1 by norm_num at bh; linarith)
    exact ⟨p', by rw [em, eσ, ef, eh, ep], bp⟩
  have accel : ∀ {q v : ℝ}, |q| ≤ 105 / 100 * N + 1 / 10 ^ 3 → |v| ≤ 260 →
      ∃ a, (arith exp).div ((arith exp).sub (.fin q) (.fin v)) (.fin T) = .fin a ∧ |a| ≤ 10 ^ 7 := by
    intro q v hq hv
    obtain ⟨m, em, bm⟩ := sub_mag (exp := exp) hq hv (by norm_num; linarith)
    obtain ⟨f, ef, bf⟩ := div_mag (exp := exp) (p := 10 ^ 3 - 100) (T := T) (show |m| ≤ _ by norm_num at bm ⊢; linarith) T0 (by norm_num)
    exact ⟨f, by rw [em, ef], by norm_num at bf ⊢; linarith⟩
  obtain ⟨x', ex', bx'⟩ := move bx hc1 bxv
  obtain ⟨y', ey', by2⟩ := move by' hs1 byv
  obtain ⟨xa, exa, bxa⟩ := accel bxv bvx
  obtain ⟨ya, eya, bya⟩ := accel byv bvy
  have est : ((⟨walls, ⟨⟨.fin x, .fin vx, cxa⟩, ⟨.fin y, .fin vy, cya⟩, ⟨.fin θ, .fin ω, cta⟩⟩, last, .fin r, .fin l, mv, .fin T, .fin kt, .fin tt,
      .fin kr, .fin tr, wi⟩ : Simulator).step (arith exp) L).current =
      ⟨⟨.fin x', .fin xv, .fin xa⟩, ⟨.fin y', .fin yv, .fin ya⟩, ⟨.fin θ', .fin n', .fin aθ'⟩⟩ := by
    unfold Simulator.step
    dsimp only
    rw [eNT, eNR, eu, edθ, eθ', eaθ, eaθ', ec, es, ec', es', exv, eyv, ex', ey', exa, eya]
  rw [est]
  refine ⟨⟨_, rfl, bx'⟩, ⟨_, rfl, by2⟩, ⟨_, rfl, bθ'⟩, ⟨_, rfl, by norm_num at bxv ⊢; linarith⟩, ⟨_, rfl, by norm_num at byv ⊢; linarith⟩,
    ⟨_, rfl, hΩN⟩, ⟨u', ?_, bu'.trans hVN⟩, ⟨_, rfl, bxa⟩, ⟨_, rfl, bya⟩, ⟨_, rfl, by norm_num at baθ' ⊢; linarith⟩⟩
  unfold transVel
  dsimp only
  rw [ec', es', eu']

end Verif.Props
