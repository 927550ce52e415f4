import Verif.Props.Straight
/-!
# C43: how far a straight may step back at its start
-/
namespace Verif.Props
open Verif Verif.Control Verif.Straight Verif.Spec Verif.StraightP

variable {g : Gen} {vs ve : ℝ}

/-- Changing the speed in two goes takes no less time. -/
theorem rampTime_add {a j x y : ℝ} (ha : 0 < a) (hj : 0 < j) (hx : 0 ≤ x) (hy : 0 ≤ y) : rampTime a j (x + y) ≤ rampTime a j x + rampTime a j y := by
  have hc : 0 < a / j := by positivity
  have hac : a ^ 2 / j = a * (a / j) := by ring
  -- a short ramp, and what it covers at the largest acceleration
  have small (z : ℝ) (hz : 0 ≤ z) (h : z ≤ a ^ 2 / j) : z / a ≤ Real.sqrt (z / j) ∧ Real.sqrt (z / j) ≤ a / j ∧ z / a * (a / j) = Real.sqrt (z / j) ^ 2 := by
    have e : Real.sqrt (z / j) ^ 2 = z / j := Real.sq_sqrt (by positivity)
    have h1 : Real.sqrt (z / j) ≤ a / j := by
      rw [Real.sqrt_le_left hc.le, div_pow, div_le_div_iff₀ hj (by positivity)]
      rw [le_div_iff₀ hj] at h
      nlinarith
    have e2 : z / a * (a / j) = Real.sqrt (z / j) ^ 2 := by rw [e]; field_simp
    refine ⟨?_, h1, e2⟩
    have h0 := Real.sqrt_nonneg (z / j)
    by_contra hn
    have : Real.sqrt (z / j) * (a / j) < z / a * (a / j) := mul_lt_mul_of_pos_right (not_le.1 hn) hc
    nlinarith
  unfold rampTime
  by_cases h1 : a ^ 2 / j ≤ x
  · rw [if_pos h1, if_pos (by linarith), add_div]
    split
    · linarith
    · rename_i h2
      obtain ⟨s1, -, -⟩ := small y hy (by linarith)
      have := Real.sqrt_nonneg (y / j)
      linarith
  · by_cases h2 : a ^ 2 / j ≤ y
    · rw [if_neg h1, if_pos h2, if_pos (by linarith), add_div]
      obtain ⟨s1, -, -⟩ := small x hx (by linarith)
      have := Real.sqrt_nonneg (x / j)
      linarith
    · rw [if_neg h1, if_neg h2]
      obtain ⟨u1, u2, u3⟩ := small x hx (by linarith)
      obtain ⟨w1, w2, w3⟩ := small y hy (by linarith)
      have u0 := Real.sqrt_nonneg (x / j)
      have w0 := Real.sqrt_nonneg (y / j)
      have eu : Real.sqrt (x / j) ^ 2 = x / j := Real.sq_sqrt (by positivity)
      have ew : Real.sqrt (y / j) ^ 2 = y / j := Real.sq_sqrt (by positivity)
      split
      · rename_i h3
        have h4 : (a / j) ^ 2 ≤ Real.sqrt (x / j) ^ 2 + Real.sqrt (y / j) ^ 2 := by
          rw [eu, ew, div_pow, ← add_div, div_le_div_iff₀ (by positivity) hj]
          rw [div_le_iff₀ hj] at h3
          nlinarith
        have h5 : ((x + y) / a + a / j) * (a / j) = Real.sqrt (x / j) ^ 2 + Real.sqrt (y / j) ^ 2 + (a / j) ^ 2 := by
          rw [← u3, ← w3]; ring
        refine le_of_mul_le_mul_right (a := a / j) ?_ hc
        rw [h5]
        generalize Real.sqrt (x / j) = u at *
        generalize Real.sqrt (y / j) = w at *
        generalize a / j = c at *
        have k1 : c - u ≤ w := by
          by_contra hn
          have : w < c - u := not_le.1 hn
          nlinarith
        nlinarith
      · have := Real.sqrt_le_sqrt (show (x + y) / j ≤ (Real.sqrt (x / j) + Real.sqrt (y / j)) ^ 2 by rw [add_sq, eu, ew, add_div]; nlinarith)
        rw [Real.sqrt_sq (by linarith)] at this
        linarith

/-- Slowing down a little less saves little distance. -/
theorem rampDist_near (ha : 0 < g.aMax) (hj : 0 < g.jMax) {v m r : ℝ} (hm : 0 ≤ m) (hr : 0 ≤ r) (h : m + r ≤ v) :
    rampDist g v m ≤ rampDist g v (m + r) + v * rampTime g.aMax g.jMax r := by
  unfold rampDist
  rw [abs_sub_comm, abs_of_nonneg (by linarith), abs_sub_comm, abs_of_nonneg (by linarith)]
  have h1 := rampTime_add ha hj (x := v - (m + r)) (y := r) (by linarith) hr
  rw [show v - (m + r) + r = v - m by ring] at h1
  have h2 := rampTime_nonneg ha hj (show 0 ≤ v - (m + r) by linarith)
  have h3 := rampTime_nonneg ha hj hr
  have h4 := mul_le_mul_of_nonneg_left h1 (show 0 ≤ (v + m) / 2 by linarith)
  have h5 := mul_nonneg hr h2
  have h6 := mul_nonneg (show 0 ≤ (v - m) / 2 by linarith) h3
  nlinarith

/-- Down to half the speed, slowing down less takes less distance. -/
theorem rampDist_anti (ha : 0 < g.aMax) (hj : 0 < g.jMax) {v m m' : ℝ} (hv : 0 ≤ v) (hm : v / 2 ≤ m) (hmm : m ≤ m') (hm' : m' ≤ v) :
    rampDist g v m' ≤ rampDist g v m := by
  have lin (x : ℝ) (hx : x ≤ v - g.aMax ^ 2 / g.jMax) : rampDist g v x = (v + x) / 2 * ((v - x) / g.aMax + g.aMax / g.jMax) := by
    have : 0 < g.aMax ^ 2 / g.jMax := by positivity
    unfold rampDist rampTime
    rw [abs_sub_comm, abs_of_nonneg (by linarith), if_pos (by linarith)]
  have root (x : ℝ) (hx : v - g.aMax ^ 2 / g.jMax ≤ x) (hx' : x ≤ v) : rampDist g v x = (v + x) * Real.sqrt ((v - x) / g.jMax) := by
    unfold rampDist rampTime
    rw [abs_sub_comm, abs_of_nonneg (by linarith)]
    split
    · have : v - x = g.aMax ^ 2 / g.jMax := by linarith
      rw [this, sqrt_sq_div ha hj]
      field_simp
      ring
    · ring
  have below (x y : ℝ) (hx : v / 2 ≤ x) (hxy : x ≤ y) (hy : y ≤ v - g.aMax ^ 2 / g.jMax) : rampDist g v y ≤ rampDist g v x := by
    rw [lin x (by linarith), lin y hy]
    have h1 : g.aMax / g.jMax ≤ (x + y) / g.aMax := by
      rw [le_div_iff₀ ha]
      have : g.aMax / g.jMax * g.aMax = g.aMax ^ 2 / g.jMax := by ring
      linarith
    have h2 := mul_nonneg (show 0 ≤ (y - x) / 2 by linarith) (sub_nonneg.2 h1)
    have e : (v + x) / 2 * ((v - x) / g.aMax + g.aMax / g.jMax) - (v + y) / 2 * ((v - y) / g.aMax + g.aMax / g.jMax) =
        (y - x) / 2 * ((x + y) / g.aMax - g.aMax / g.jMax) := by
      field_simp; ring
    linarith
  have above (x y : ℝ) (hx : v / 2 ≤ x) (hxa : v - g.aMax ^ 2 / g.jMax ≤ x) (hxy : x ≤ y) (hy : y ≤ v) : rampDist g v y ≤ rampDist g v x := by
    rw [root x hxa (by linarith), root y (by linarith) hy]
    rw [← pow_le_pow_iff_left₀ (mul_nonneg (by linarith) (Real.sqrt_nonneg _)) (mul_nonneg (by linarith) (Real.sqrt_nonneg _)) two_ne_zero]
    rw [mul_pow, mul_pow, Real.sq_sqrt (div_nonneg (by linarith) hj.le), Real.sq_sqrt (div_nonneg (by linarith) hj.le), ← mul_div_assoc, ← mul_div_assoc]
    refine div_le_div_of_nonneg_right ?_ hj.le
    have : 0 ≤ (y - x) * (-v ^ 2 + v * (x + y) + x ^ 2 + x * y + y ^ 2) := by
      refine mul_nonneg (by linarith) ?_
      have := mul_nonneg hv (show 0 ≤ x + y - v by linarith)
      have := mul_nonneg (show 0 ≤ x by linarith) (show 0 ≤ y by linarith)
      nlinarith [sq_nonneg x, sq_nonneg y]
    nlinarith
  rcases le_total m' (v - g.aMax ^ 2 / g.jMax) with h1 | h1
  · exact below m m' hm hmm h1
  rcases le_total (v - g.aMax ^ 2 / g.jMax) m with h2 | h2
  · exact above m m' hm h2 hmm hm'
  · exact (above _ m' (by linarith) le_rfl h1 hm').trans (below m _ hm h2 le_rfl)

/-- C43: asked to stop, or not to lose more than half its speed, the mouse is not sent back at the start by more than what it covers in the time in
which it could change its speed by the resolution of the search. -/
theorem C43_small_jump (h : Request g vs ve) (hve : ve = 0 ∨ vs / 2 ≤ ve) (xs dist : ℝ) :
    rampDist g vs (g.generate xs dist vs ve).2.2 ≤ |dist| + vs * rampTime g.aMax g.jMax (resolution vs) := by
  have hw := resolution_nonneg h.start0
  have hJ := mul_nonneg h.start0 (rampTime_nonneg h.a h.j hw)
  rcases lt_or_ge vs ve with hlt | hle
  · have := (C42_terminal_up h hlt xs dist).2.2.1
    linarith
  obtain ⟨v, p, rest, tA, tC, tD, P⟩ := plan h dist
  have e : (g.generate xs dist vs ve).2.2 = g.aim vs ve |dist| := by rw [generate_eq P]; exact P.hv
  rw [e]
  obtain ⟨h1, h2, h3, h4⟩ := reach_down h hle (d := |dist|)
  have near (m : ℝ) (hm : m ≤ g.reachable vs ve |dist| + resolution vs) (hm' : g.reachable vs ve |dist| ≤ m) :
      rampDist g vs m ≤ |dist| + vs * rampTime g.aMax g.jMax (resolution vs) := by
    have k := rampDist_near h.a h.j (v := vs) (m := m) (r := g.reachable vs ve |dist| + resolution vs - m) (by linarith) (by linarith) (by linarith)
    rw [add_sub_cancel] at k
    have k2 := mul_le_mul_of_nonneg_left (rampTime_mono h.a h.j (show g.reachable vs ve |dist| + resolution vs - m ≤ resolution vs by linarith)) h.start0
    rcases h4 with h4 | h4
    · linarith
    · rw [h4, rampDist_self h.a h.j] at k
      have := abs_nonneg dist
      rw [h4] at k2
      linarith
  have ea : g.aim vs ve |dist| = if g.reachable vs ve |dist| > ve then g.reachable vs ve |dist| else ve := by
    unfold Gen.aim
    rw [if_neg (not_lt.2 hle)]
  rw [ea]
  split
  · exact near _ (by linarith) le_rfl
  rename_i hr
  rw [not_lt] at hr
  rcases hve with rfl | hve
  · exact near _ (by linarith) hr
  rcases le_total ve (g.reachable vs ve |dist| + resolution vs) with hc | hc
  · exact near _ hc hr
  -- the requested velocity is above the search result: it fits
  have first : vs / 2 ≤ g.reachable vs ve |dist| + resolution vs ∨ rampDist g vs (vs / 2) < |dist| := by
    by_cases hu : g.accDist vs ((0 + vs) / 2) < |dist|
    · right
      rw [← accDist_eq]
      rwa [zero_add] at hu
    · left
      unfold Gen.reachable
      rw [if_neg (not_lt.2 hle)]
      show vs / 2 ≤ (bisect (fun mid => ¬ g.accDist vs mid < |dist|) (24 + 1) 0 vs).1 + resolution vs
      rw [bisect]
      rw [if_pos hu]
      have := (bisect_spec (fun mid => ¬ g.accDist vs mid < |dist|) 24 ((0 + vs) / 2) vs (by have := h.start0; linarith)).1
      linarith
  rcases first with hf | hf
  · have := rampDist_anti h.a h.j h.start0 hf hc hle
    rcases h4 with h4 | h4
    · linarith
    · rw [h4] at hc
      rw [le_antisymm hle hc, rampDist_self h.a h.j]
      have := abs_nonneg dist
      linarith
  · have := rampDist_anti h.a h.j h.start0 le_rfl hve hle
    linarith

/-- Half the speed is asked for on 14 millimeters: not enough,
but at most 37 micrometers are missing. -/
example (xs : ℝ) : rampDist ⟨1, 10, 100⟩ (1 / 2) (Gen.generate ⟨1, 10, 100⟩ xs 0.014 (1 / 2) (1 / 4)).2.2 ≤ 0.014 + 0.000037 := by
  have h := C43_small_jump (g := ⟨1, 10, 100⟩) (vs := 1 / 2) (ve := 1 / 4) (by constructor <;> norm_num) (.inr (by norm_num)) xs 0.014
  have hs : Real.sqrt (1 / 67108864 / 100) ≤ 0.000037 := by
    rw [Real.sqrt_le_left (by norm_num)]; norm_num
  norm_num [resolution, rampTime] at h hs ⊢
  linarith

theorem bisect_down (up : ℝ → Prop) (n : Nat) : ∀ high, (∀ k, ¬ up (high / 2 ^ (k + 1))) → (bisect up n 0 high).1 = 0 := by
  induction n with
  | zero => intro high _; rfl
  | succ n ih =>
    intro high h
    rw [bisect]
    have h0 := h 0
    rw [zero_add, pow_one] at h0
    rw [zero_add, if_neg h0]
    refine ih _ fun k => ?_
    rw [div_div, ← pow_succ']
    exact h (k + 1)

/-- Otherwise more can be missing: a slow mouse that is asked for a third of its speed within a distance that is one part in 500 too short for that
is promised this speed nevertheless, and is sent back at the start by what is missing. -/
theorem C43_large_jump (h : Request g vs (vs / 3)) (hvs : 0 < vs) (hlow : vs ≤ g.aMax ^ 2 / g.jMax) (xs : ℝ) :
    ∃ dist, 0 < dist ∧ (g.generate xs dist vs (vs / 3)).2.2 = vs / 3 ∧ 1.002 * dist ≤ rampDist g vs (vs / 3) := by
  have hj := h.j
  have hr (x : ℝ) (h0 : 0 ≤ x) (hx : x ≤ vs) : 0 ≤ rampDist g vs x ∧ rampDist g vs x ^ 2 = (vs + x) ^ 2 * (vs - x) / g.jMax := by
    refine ⟨rampDist_nonneg h.a h.j hvs.le h0, ?_⟩
    unfold rampDist rampTime
    rw [abs_sub_comm, abs_of_nonneg (by linarith)]
    have e : Real.sqrt ((vs - x) / g.jMax) ^ 2 = (vs - x) / g.jMax := Real.sq_sqrt (div_nonneg (by linarith) hj.le)
    split
    · rename_i hge
      have hx' : vs - x = g.aMax ^ 2 / g.jMax := by linarith
      have ha := h.a
      rw [hx']
      field_simp
      ring
    · rw [mul_pow, mul_pow, e]
      ring
  have hc : 0 < vs ^ 3 / g.jMax := by positivity
  have hp : 0 < 1.18 * (vs ^ 3 / g.jMax) := by positivity
  refine ⟨Real.sqrt (1.18 * (vs ^ 3 / g.jMax)), Real.sqrt_pos.2 hp, ?_, ?_⟩
  · obtain ⟨v, p, rest, tA, tC, tD, P⟩ := plan h (Real.sqrt (1.18 * (vs ^ 3 / g.jMax)))
    have e : (g.generate xs (Real.sqrt (1.18 * (vs ^ 3 / g.jMax))) vs (vs / 3)).2.2 = g.aim vs (vs / 3) |Real.sqrt (1.18 * (vs ^ 3 / g.jMax))| := by
      rw [generate_eq P]; exact P.hv
    rw [e, abs_of_nonneg (Real.sqrt_nonneg _)]
    have k : g.reachable vs (vs / 3) (Real.sqrt (1.18 * (vs ^ 3 / g.jMax))) = 0 := by
      unfold Gen.reachable
      rw [if_neg (by linarith)]
      refine bisect_down _ _ _ fun k => ?_
      rw [not_not, accDist_eq, Real.lt_sqrt (hr _ (by positivity) (div_le_self hvs.le (one_le_pow₀ one_le_two))).1,
        (hr _ (by positivity) (div_le_self hvs.le (one_le_pow₀ one_le_two))).2, ← mul_div_assoc]
      refine div_lt_div_of_pos_right ?_ hj
      set y : ℝ := 1 / 2 ^ (k + 1) with hy
      have e : vs / 2 ^ (k + 1) = vs * y := by rw [hy]; ring
      have hy0 : 0 < y := by positivity
      have hyy : y = 1 / 2 ∨ y ≤ 1 / 4 := by
        rcases k with _ | k
        · left; rw [hy]; norm_num
        · right
          rw [hy, div_le_div_iff₀ (by positivity) (by norm_num), pow_succ, pow_succ]
          have : (1:ℝ) ≤ 2 ^ k := one_le_pow₀ one_le_two
          linarith
      rw [e]
      have : (1 + y) ^ 2 * (1 - y) < 1.18 := by
        rcases hyy with hyy | hyy
        · rw [hyy]; norm_num
        · nlinarith [sq_nonneg (y - 1 / 4), mul_pos hy0 hy0, mul_nonneg hy0.le (sub_nonneg.2 hyy)]
      have := mul_lt_mul_of_pos_left this (show 0 < vs ^ 3 by positivity)
      nlinarith
    unfold Gen.aim
    rw [if_neg (by linarith), k, if_neg (by linarith)]
  · rw [← pow_le_pow_iff_left₀ (by positivity) (hr _ (by linarith) (by linarith)).1 two_ne_zero, (hr _ (by linarith) (by linarith)).2, mul_pow, Real.sq_sqrt hp.le]
    rw [show (vs + vs / 3) ^ 2 * (vs - vs / 3) / g.jMax = 32 / 27 * (vs ^ 3 / g.jMax) by ring]
    nlinarith

example : ∃ dist, 0 < dist ∧ (Gen.generate ⟨1, 10, 100⟩ 0 dist (3 / 4) (1 / 4)).2.2 = 1 / 4 ∧ 1.002 * dist ≤ rampDist ⟨1, 10, 100⟩ (3 / 4) (1 / 4) := by
  have := C43_large_jump (g := ⟨1, 10, 100⟩) (vs := 3 / 4) (by constructor <;> norm_num) (by norm_num) (by norm_num) 0
  norm_num at this ⊢
  exact this

end Verif.Props
