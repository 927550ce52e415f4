import Verif.Spec.Bend
import Verif.Proof.Journey
import Verif.Props.Clock
import Verif.Props.Slalom
/-!
# Slaloms in single precision: lemmas for C125
-/
namespace Verif.Proof
open Verif Verif.Spec Verif.Binary32 Verif.Single Verif.Props

variable {exp : F → F} {L : Lib} {V a j D w p : ℝ} {g : Gen}

theorem brief_period (h : Brief p) : IsPeriod p :=
  ⟨le_trans (by norm_num) h.low, h.high.trans (by norm_num)⟩

theorem brief_pos (h : Brief p) : 0 < p := (brief_period h).pos

/-! ## The mean over a period -/

/-- All headings and rotations of a curve. -/
structure Heading (c : Overall) : Prop where
  at_ : ∀ t : ℝ, BdAxis 730 101.1 2565 300000 (c.calculate (arith exp) (.fin t))

theorem heading_of {tEnd vEnd : F} {x y : ℝ} (H : Swings V a j g) (hD : D ≤ 4) {c : Overall} (h : Whole (exp := exp) V a j D x y c tEnd vEnd) : Heading (exp := exp) c := by
  obtain ⟨G, h1, h2, h3⟩ := H
  refine ⟨fun t => ?_⟩
  obtain ⟨b1, b2, b3, b4⟩ := h.target t
  have j2 := G.jerk.2
  norm_num at j2
  exact ⟨bd_weaken b1 (by linarith), bd_weaken b2 (by linarith), bd_weaken b3 (by linarith), bd_weaken b4 (by linarith)⟩

theorem node_ok {t k : ℝ} (ht : |t| ≤ 1000) (hk : |k| ≤ 1) (hp : |p| ≤ 1) :
    ∃ r : ℝ, (arith exp).add (.fin t) ((arith exp).mul ((arith exp).rnd k) (.fin p)) = .fin r := by
  obtain ⟨z, ez, bz⟩ := rnd_bd hk (by norm_num)
  have e : (arith exp).rnd k = .fin z := ez
  have hz : |z| ≤ 1.1 := bz.trans (by norm_num)
  rw [e]
  have l90 : (10000:ℝ) ≤ 2 ^ 90 := by norm_num
  obtain ⟨r, er, -⟩ := add' (exp := exp) 1100 (bd_fin ht) (mul' (exp := exp) 2 (bd_fin hz) (bd_fin hp) (by norm_num) (by linarith)) (by norm_num) (by linarith)
  exact ⟨r, er⟩

theorem mean_ok {f : F → F} (hf : ∀ r : ℝ, Bd 1.01 (f (.fin r))) {b : Bend} (hb : Heading (exp := exp) b.calculator) (hp : b.clock.period = .fin p) (hp' : |p| ≤ 1) {t : ℝ} (ht : |t| ≤ 1000) :
    Bd 1.05 (b.mean (arith exp) f (.fin t)) := by
  unfold Bend.mean
  dsimp only
  rw [hp]
  obtain ⟨r1, e1⟩ := node_ok (exp := exp) (k := 0.21132487) ht (by norm_num [abs_of_pos]) hp'
  obtain ⟨r2, e2⟩ := node_ok (exp := exp) (k := 0.7886751) ht (by norm_num [abs_of_pos]) hp'
  rw [e1, e2]
  obtain ⟨⟨x1, h1, -⟩, -, -, -⟩ := hb.at_ r1
  obtain ⟨⟨x2, h2, -⟩, -, -, -⟩ := hb.at_ r2
  rw [h1, h2]
  have l90 : (10000:ℝ) ≤ 2 ^ 90 := by norm_num
  have half : Bd 0.5 (.fin 0.5) := ⟨_, rfl, by norm_num [abs_of_pos]⟩
  have zero : Bd 0 (.fin 0) := ⟨0, rfl, by rw [abs_zero]⟩
  have m1 := mul' (exp := exp) 0.515 half (hf x1) (by norm_num) (by linarith)
  have m2 := mul' (exp := exp) 0.515 half (hf x2) (by norm_num) (by linarith)
  exact add' 1.05 (add' 0.522 zero m1 (by norm_num) (by linarith)) m2 (by norm_num) (by linarith)

/-- One step of a coordinate. -/
theorem step_ok (hp : Brief p) (hw : |w| ≤ 2) {x : ℝ} (hx : |x| ≤ 300) {m : F} (hm : Bd 1.05 m) :
    ∃ z : ℝ, (arith exp).add (.fin x) ((arith exp).mul ((arith exp).mul (.fin w) (.fin p)) m) = .fin z ∧ |z - x| ≤ (1.06 * |w| + 0.04) * p := by
  have p0 := brief_pos hp
  have p1 := hp.low
  have w0 := abs_nonneg w
  norm_num at p1
  have q0 : 0 ≤ |w| * p := mul_nonneg w0 p0.le
  have q2 : |w| * p ≤ 2 := by nlinarith [hp.high]
  have t140 : (1:ℝ) / 2 ^ 140 ≤ p / 2 ^ 100 := by
    rw [le_div_iff₀ (by positivity)]
    refine le_trans ?_ p1
    norm_num
  have p100 : p / 2 ^ 100 ≤ p / 2 ^ 30 := div_le_div_of_nonneg_left p0.le (by positivity) (by norm_num)
  have l100 : (10:ℝ) ≤ 2 ^ 100 := by norm_num
  have k1 : |w| * p / 2 ^ 20 ≤ |w| * p / 1000 := div_le_div_of_nonneg_left q0 (by norm_num) (by norm_num)
  have s := bd_mul (exp := exp) (1.001 * (|w| * p) + p / 2 ^ 30) (bd_fin (le_refl |w|)) (bd_fin (le_of_eq (abs_of_pos p0))) (by linarith) (by linarith)
  have p30 : p / 2 ^ 30 ≤ p / 1000000 := div_le_div_of_nonneg_left p0.le (by norm_num) (by norm_num)
  have r0 : 0 ≤ (1.001 * (|w| * p) + p / 2 ^ 30) * 1.05 := by positivity
  have k2 : (1.001 * (|w| * p) + p / 2 ^ 30) * 1.05 / 2 ^ 20 ≤ (1.001 * (|w| * p) + p / 2 ^ 30) * 1.05 / 1000 := div_le_div_of_nonneg_left r0 (by norm_num) (by norm_num)
  have hi := hp.high
  obtain ⟨i, ei, bi⟩ := bd_mul (exp := exp) (1.06 * (|w| * p) + p / 100000) s hm (by linarith) (by linarith)
  rw [ei]
  have hs : |x + i| ≤ 304 := (abs_add_le x i).trans (by linarith)
  obtain ⟨z, ez, bz⟩ := rnd_err (z := x + i) (hs.trans (by norm_num))
  refine ⟨z, ez, ?_⟩
  have e1 : |x + i| / 2 ^ 24 ≤ 304 / 2 ^ 24 := div_le_div_of_nonneg_right hs (by positivity)
  have e2 : (304:ℝ) / 2 ^ 24 + 1 / 2 ^ 150 ≤ 0.038 * (1 / 2048) := by norm_num
  have e3 : |z - x| ≤ |z - (x + i)| + |i| := by
    have := abs_add_le (z - (x + i)) i
    rwa [show z - (x + i) + i = z - x by ring] at this
  linarith

/-! ## The states of a curve -/

/-- The state after `k` calls. -/
noncomputable def bendAt (A : Arith) (L : Lib) (b : Bend) : ℕ → Bend
  | 0 => b
  | k + 1 => ((bendAt A L b k).next A L).2

/-- The size of a coordinate at time `t`. -/
noncomputable def farthest (w t : ℝ) : ℝ := 10 + (1.2 * |w| + 0.1) * t

structure BendInv (c : Overall) (T w p t : ℝ) (b : Bend) : Prop where
  calculator : b.calculator = c
  clock : b.clock = ⟨.fin t, .fin T, .fin p⟩
  v : b.v = .fin w
  x : Bd (farthest w t) b.x
  y : Bd (farthest w t) b.y

theorem far_le {t : ℝ} (hw : |w| ≤ 2) (h0 : 0 ≤ t) (h1 : t ≤ 112) : farthest w t ≤ 300 := by
  unfold farthest
  nlinarith [abs_nonneg w]

theorem bend_next {b : Bend} {c : Overall} {T : ℝ} (hU : Circular L) (hc : Heading (exp := exp) c) (hp : Brief p) (hw : |w| ≤ 2) (hT : T ≤ 112) {k : ℕ}
    (h : BendInv c T w p (clock32 p k) b) (hk : clock32 p k ≤ T) :
    ∃ b', b.next (arith exp) L = (some (b.target (arith exp) L (.fin (clock32 p k))), b') ∧ BendInv c T w p (clock32 p (k + 1)) b' ∧
      Close ((1.06 * |w| + 0.04) * p) b.x b'.x ∧ Close ((1.06 * |w| + 0.04) * p) b.y b'.y := by
  have hP := brief_period hp
  have p0 := brief_pos hp
  have t0 := (clock_bound hP k).1
  have hfar := far_le hw t0 (hk.trans hT)
  obtain ⟨cx, eC, eV, ⟨x, ex, bx⟩, ⟨y, ey, by_⟩⟩ := h
  have hb : Heading (exp := exp) b.calculator := by rw [cx]; exact hc
  have hper : b.clock.period = .fin p := by rw [eC]
  have pa : |p| ≤ 1 := by rw [abs_of_pos p0]; exact hp.high
  have ta : |clock32 p k| ≤ 1000 := by rw [abs_of_nonneg t0]; linarith
  have mx := mean_ok (exp := exp) hU.cos hb hper pa ta
  have my := mean_ok (exp := exp) hU.sin hb hper pa ta
  obtain ⟨x', ex', bx'⟩ := step_ok (exp := exp) hp hw (bx.trans hfar) mx
  obtain ⟨y', ey', by'⟩ := step_ok (exp := exp) hp hw (by_.trans hfar) my
  have hstep : farthest w (clock32 p k) + (1.06 * |w| + 0.04) * p ≤ farthest w (clock32 p (k + 1)) := by
    have e := (abs_le.1 (clock_err hP k)).1
    have l := hp.low
    norm_num at l
    have d : (clock32 p k + p) / 2 ^ 24 ≤ 0.02 * p := by
      rw [div_le_iff₀ (by positivity)]
      have := hp.high
      norm_num
      linarith
    have g1 : 0.98 * p ≤ clock32 p (k + 1) - clock32 p k := by linarith
    have g2 := mul_le_mul_of_nonneg_left g1 (show 0 ≤ 1.2 * |w| + 0.1 by positivity)
    have g3 : 0 ≤ |w| * p := mul_nonneg (abs_nonneg w) p0.le
    unfold farthest
    linarith
  refine ⟨⟨c, ⟨.fin (clock32 p (k + 1)), .fin T, .fin p⟩, .fin x', .fin y', .fin w⟩, ?_, ⟨rfl, rfl, rfl, ⟨x', rfl, ?_⟩, ⟨y', rfl, ?_⟩⟩, ⟨x, x', ex, rfl, bx'⟩, ⟨y, y', ey, rfl, by'⟩⟩
  · unfold Bend.next
    rw [eC, clock_next exp hP (.fin T) k (not_lt.2 hk)]
    dsimp only
    rw [ex, ey, eV, ex', ey', cx]
  · have := abs_sub_abs_le_abs_sub x' x
    linarith
  · have := abs_sub_abs_le_abs_sub y' y
    linarith

theorem bend_stop {b : Bend} {c : Overall} {T t : ℝ} (h : BendInv c T w p t b) (hk : T < t) : b.next (arith exp) L = (none, b) := by
  unfold Bend.next Clock.next
  rw [h.clock, if_pos (show (F.fin T).lt (.fin t) from hk)]

/-- The size of a target of a curve. -/
theorem bend_tame {b : Bend} {c : Overall} {T t : ℝ} (hU : Circular L) (hc : Heading (exp := exp) c) (hw : |w| ≤ 2) (h : BendInv c T w p t b) (h0 : 0 ≤ t) (h1 : t ≤ 112) :
    Tame (b.target (arith exp) L (.fin t)) ∧ (b.target (arith exp) L (.fin t)).theta = c.calculate (arith exp) (.fin t) ∧
      (b.target (arith exp) L (.fin t)).x.x = b.x ∧ (b.target (arith exp) L (.fin t)).y.x = b.y ∧
      Bd (1.03 * |w| + 0.002) (b.target (arith exp) L (.fin t)).x.v ∧ Bd (1.03 * |w| + 0.002) (b.target (arith exp) L (.fin t)).y.v := by
  obtain ⟨cx, eC, eV, bx, by_⟩ := h
  have hfar := far_le hw h0 h1
  obtain ⟨b1, b2, b3, b4⟩ := hc.at_ t
  have l90 : (1000000:ℝ) ≤ 2 ^ 90 := by norm_num
  obtain ⟨θ, eθ, bθ⟩ := b1
  have s := hU.sin θ
  have co := hU.cos θ
  have W : Bd |w| (.fin w) := bd_fin le_rfl
  have W2 : Bd 2 (.fin w) := bd_fin hw
  have hvx : Bd (1.03 * |w| + 0.002) ((arith exp).mul (.fin w) (L.cos (.fin θ))) := mul' _ W co (by linarith [abs_nonneg w]) (by linarith)
  have hvy : Bd (1.03 * |w| + 0.002) ((arith exp).mul (.fin w) (L.sin (.fin θ))) := mul' _ W s (by linarith [abs_nonneg w]) (by linarith)
  have sq := mul' (exp := exp) 10324 b2 b2 (by norm_num) (by linarith)
  unfold Bend.target
  dsimp only
  rw [cx, eV]
  refine ⟨⟨⟨bd_weaken bx hfar, ?_, ?_, ?_⟩, ⟨bd_weaken by_ hfar, ?_, ?_, ?_⟩, ⟨?_, bd_weaken b2 (by norm_num), bd_weaken b3 (by norm_num), b4⟩⟩, rfl, rfl, rfl, ?_, ?_⟩
  · rw [eθ]; exact bd_weaken hvx (by linarith)
  · rw [eθ]; exact mul' 490 (mul' 2.1 (bd_neg W2) s (by norm_num) (by linarith)) b2 (by norm_num) (by linarith)
  · rw [eθ]
    exact mul' 27200 (bd_neg W2) (add' 13300 (mul' 10540 co sq (by norm_num) (by linarith)) (mul' 2620 s b3 (by norm_num) (by linarith)) (by norm_num) (by linarith)) (by norm_num) (by linarith)
  · rw [eθ]; exact bd_weaken hvy (by linarith)
  · rw [eθ]; exact mul' 490 (mul' 2.1 W2 co (by norm_num) (by linarith)) b2 (by norm_num) (by linarith)
  · rw [eθ]
    exact mul' 27200 W2 (add' 13300 (mul' 10540 (bd_neg s) sq (by norm_num) (by linarith)) (mul' 2620 co b3 (by norm_num) (by linarith)) (by norm_num) (by linarith)) (by norm_num) (by linarith)
  · exact ⟨θ, eθ, bθ.trans (by norm_num)⟩
  · rw [eθ]; exact hvx
  · rw [eθ]; exact hvy

/-- The states of a curve until it ends. -/
theorem bend_states {b : Bend} {c : Overall} {T : ℝ} (hU : Circular L) (hc : Heading (exp := exp) c) (hp : Brief p) (hw : |w| ≤ 2) (hT : T ≤ 112)
    (h : BendInv c T w p 0 b) (N : ℕ) (hN : ∀ k, k < N → clock32 p k ≤ T) :
    ∀ k, k ≤ N → BendInv c T w p (clock32 p k) (bendAt (arith exp) L b k) := by
  intro k
  induction k with
  | zero => intro _; exact h
  | succ k ih =>
    intro hk
    obtain ⟨b', e, i, -⟩ := bend_next (exp := exp) hU hc hp hw hT (ih (by omega)) (hN k (by omega))
    show BendInv c T w p _ ((bendAt (arith exp) L b k).next (arith exp) L).2
    rw [e]
    exact i

theorem bend_produces {b : Bend} {c : Overall} {T : ℝ} (hU : Circular L) (hc : Heading (exp := exp) c) (hp : Brief p) (hw : |w| ≤ 2) (hT0 : 0 ≤ T) (hT : T ≤ 112)
    (h : BendInv c T w p 0 b) : ∃ N, 0 < N ∧ (∀ k, k < N → clock32 p k ≤ T) ∧ T < clock32 p N ∧
      Produces (Bend.next (arith exp) L) b ((List.range N).map fun k => (bendAt (arith exp) L b k).target (arith exp) L (.fin (clock32 p k))) := by
  have hP := brief_period hp
  obtain ⟨M, s, hs, -, hM⟩ := C120_stands exp hP
  have hex : ∃ N, T < clock32 p N := by
    refine ⟨M, ?_⟩
    have := hM M le_rfl
    rw [ticks_eq exp hP, F.fin.injEq] at this
    have l := hp.low
    norm_num at l hs
    linarith
  classical
  have hlt : ∀ k, k < Nat.find hex → clock32 p k ≤ T := fun k hk => not_lt.1 (Nat.find_min hex hk)
  refine ⟨Nat.find hex, ?_, hlt, Nat.find_spec hex, ?_⟩
  · refine Nat.pos_of_ne_zero fun h0 => ?_
    have := Nat.find_spec hex
    rw [h0] at this
    exact absurd this (not_lt.2 hT0)
  have inv := bend_states (exp := exp) hU hc hp hw hT h (Nat.find hex) hlt
  have stop : ∀ k, Nat.find hex ≤ k → bendAt (arith exp) L b k = bendAt (arith exp) L b (Nat.find hex) := by
    intro k hk
    induction k, hk using Nat.le_induction with
    | base => rfl
    | succ k hk ih =>
      show ((bendAt (arith exp) L b k).next (arith exp) L).2 = _
      rw [ih, bend_stop (inv _ le_rfl) (Nat.find_spec hex)]
  refine produces_of fun n => ?_
  have key := out_finite (Bend.next (arith exp) L) (bendAt (arith exp) L b) (fun k => (bendAt (arith exp) L b k).target (arith exp) L (.fin (clock32 p k)))
    (Nat.find hex) (fun k hk => by
      obtain ⟨b', e, -⟩ := bend_next (exp := exp) hU hc hp hw hT (inv k hk.le) (hlt k hk)
      show _ = (_, ((bendAt (arith exp) L b k).next (arith exp) L).2)
      rw [e]) (fun k hk => by
      rw [stop k hk]
      exact bend_stop (inv _ le_rfl) (Nat.find_spec hex)) n 0
  simp only [zero_add] at key
  exact key

/-! ## The limits of the rotation -/

set_option maxHeartbeats 2000000 in
theorem swing_ok {vRef v : ℝ} {q : Outline} (Q : Formed vRef q) (S : Suitable vRef v) :
    ∃ V a j, Swings V a j (q.turn (arith exp) (.fin v)) := by
  obtain ⟨er, ⟨d1, e1, l1, u1⟩, ⟨d2, e2, l2, u2⟩, ⟨d3, e3, l3, u3⟩, -⟩ := Q
  obtain ⟨r0, v0, v2, hs, hf⟩ := S
  have k0 : 0.13 ≤ v / vRef := by rw [le_div_iff₀ r0]; exact hs
  have k1 : v / vRef ≤ 3.79 := by rw [div_le_iff₀ r0]; exact hf
  have err : ∀ z : ℝ, 0 ≤ z → z ≤ 1000000 → ∃ x, rnd z = .fin x ∧ |x - z| ≤ z / 1000000 + 1 / 1000000 := by
    intro z z0 z1
    obtain ⟨x, e, b⟩ := rnd_err (z := z) (by rw [abs_of_nonneg z0]; exact z1.trans (by norm_num))
    refine ⟨x, e, b.trans ?_⟩
    rw [abs_of_nonneg z0]
    have : z / 2 ^ 24 ≤ z / 1000000 := div_le_div_of_nonneg_left z0 (by norm_num) (by norm_num)
    have : (1:ℝ) / 2 ^ 150 ≤ 1 / 1000000 := by norm_num
    linarith
  obtain ⟨k, ek, bk⟩ := err (v / vRef) (by linarith) (by linarith)
  obtain ⟨bk1, bk2⟩ := abs_le.1 bk
  have c0 : 0.1299 ≤ k := by linarith
  have c1 : k ≤ 3.7901 := by linarith
  obtain ⟨V, eV, bV⟩ := err (k * d1) (by nlinarith) (by nlinarith)
  obtain ⟨k2, ek2, bk2'⟩ := err (k * k) (by nlinarith) (by nlinarith)
  obtain ⟨a2, b2⟩ := abs_le.1 bk2'
  have s0 : 0.0168 ≤ k2 := by nlinarith
  have s1 : k2 ≤ 14.366 := by nlinarith
  obtain ⟨A, eA, bA⟩ := err (k2 * d2) (by nlinarith) (by nlinarith)
  obtain ⟨k3, ek3, bk3⟩ := err (k2 * k) (by nlinarith) (by nlinarith)
  obtain ⟨a3, b3⟩ := abs_le.1 bk3
  have m0 : 0.0021 ≤ k3 := by nlinarith
  have m1 : k3 ≤ 54.46 := by nlinarith
  obtain ⟨J, eJ, bJ⟩ := err (k3 * d3) (by nlinarith) (by nlinarith)
  obtain ⟨V1, V2⟩ := abs_le.1 bV
  obtain ⟨A1, A2⟩ := abs_le.1 bA
  obtain ⟨J1, J2⟩ := abs_le.1 bJ
  have et : q.turn (arith exp) (.fin v) = ⟨.fin V, .fin A, .fin J⟩ := by
    unfold Outline.turn
    dsimp only
    rw [er, e1, e2, e3, div_rnd r0.ne', ek]
    show Gen.mk (rnd (k * d1)) ((arith exp).mul (rnd (k * k)) _) ((arith exp).mul ((arith exp).mul (rnd (k * k)) _) _) = _
    rw [eV, ek2]
    show Gen.mk _ (rnd (k2 * d2)) ((arith exp).mul (rnd (k2 * k)) _) = _
    rw [eA, ek3]
    show Gen.mk _ _ (rnd (k3 * d3)) = _
    rw [eJ]
  have hV0 : 1.2 ≤ V := by nlinarith
  have hV1 : V ≤ 36 := by nlinarith
  refine ⟨V, A, J, ⟨by rw [et], by rw [et], by rw [et], ?_, ⟨by norm_num; linarith, by norm_num; linarith⟩, ⟨?_, ?_⟩, ⟨?_, ?_⟩⟩, by linarith, hV1, ?_⟩
  · rw [(rnd_fin eV).1, round24_idem]
  · -- `k d1 / 2 ≤ k² d2`
    have t1 : k * d1 ≤ k * 9.45 := mul_le_mul_of_nonneg_left u1 (by linarith)
    have t2 : k2 * 113 ≤ k2 * d2 := mul_le_mul_of_nonneg_left l2 (by linarith)
    have t3 : 0.1299 * k ≤ k * k := by nlinarith
    linarith
  · have : k2 * d2 ≤ k2 * 113.2 := mul_le_mul_of_nonneg_left u2 (by linarith)
    norm_num
    linarith
  · have t1 : k * d1 ≤ k * 9.45 := mul_le_mul_of_nonneg_left u1 (by linarith)
    have t2 : k3 * 3769 ≤ k3 * d3 := mul_le_mul_of_nonneg_left l3 (by linarith)
    have t3 : 0.0168 * k ≤ k2 * k := mul_le_mul_of_nonneg_right s0 (by linarith)
    linarith
  · have : k3 * d3 ≤ k3 * 3771 := mul_le_mul_of_nonneg_left u3 (by linarith)
    norm_num
    linarith
  · have : k2 * d2 ≤ k2 * 113.2 := mul_le_mul_of_nonneg_left u2 (by linarith)
    linarith

end Verif.Proof
