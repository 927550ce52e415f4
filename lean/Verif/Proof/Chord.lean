import Verif.Proof.Numeric
import Verif.Proof.Profile
import Verif.Spec.Slalom
/-!
# The length of the curves of the slalom table

The limits of the table are 3π, 36π and 1200π; the heading of such a curve divided by π is piecewise a polynomial with rational coefficients.
-/
namespace Verif.ChordP
open Verif Verif.Control Verif.Straight Verif.Spec Verif.StraightP Verif.Num

/-- The limits at the reference speed. -/
noncomputable def g0 : Gen := ⟨3 * Real.pi, 36 * Real.pi, 1200 * Real.pi⟩

theorem g0_req : Request g0 0 0 := by
  have := Real.pi_pos
  constructor <;> simp only [g0, le_refl] <;> positivity

theorem cast_le' {a b : ℚ} (h : a ≤ b) : (a : ℝ) ≤ b := Rat.cast_le.2 h

theorem ramp0 {m : ℝ} (h : 27 / 25 ≤ m) : rampTime g0.aMax g0.jMax (Real.pi * m) = m / 36 + 3 / 100 := by
  have hp := Real.pi_pos
  unfold rampTime g0
  dsimp only
  rw [if_pos]
  · field_simp; ring
  · rw [div_le_iff₀ (by positivity)]
    nlinarith [mul_pos hp hp]

/-! ## The search for the largest velocity -/

def upQ (q m : ℚ) : Bool := m < 27 / 25 || m * (m / 36 + 3 / 100) ≤ q

def bisectQ (up : ℚ → Bool) : Nat → ℚ → ℚ → ℚ × ℚ
  | 0, l, h => (l, h)
  | n + 1, l, h => if up ((l + h) / 2) then bisectQ up n ((l + h) / 2) h else bisectQ up n l ((l + h) / 2)

/-- The largest velocity divided by π, for a turn by `π q`. -/
def rho (q : ℚ) : ℚ := (bisectQ (upQ q) 25 0 3).1

theorem twice (m : ℝ) (hm : 0 ≤ m) : g0.accDist 0 (Real.pi * m) + g0.accDist (Real.pi * m) 0 =
    Real.pi * m * rampTime g0.aMax g0.jMax (Real.pi * m) := by
  have hp := Real.pi_pos
  have h0 : 0 ≤ Real.pi * m := by positivity
  rw [accDist_eq, accDist_eq]
  unfold rampDist
  rw [sub_zero, zero_sub, abs_neg, abs_of_nonneg h0]
  ring

theorem up_iff {q m : ℚ} (hq : 1 / 4 ≤ q) (hm : 0 ≤ m) :
    g0.accDist 0 (Real.pi * m) + g0.accDist (Real.pi * m) 0 ≤ Real.pi * q ↔ upQ q m = true := by
  have hp := Real.pi_pos
  have hm' : (0 : ℝ) ≤ m := by exact_mod_cast hm
  have hq' : (1 / 4 : ℝ) ≤ q := by simpa using cast_le' hq
  rw [twice _ hm']
  unfold upQ
  rw [Bool.or_eq_true, decide_eq_true_eq, decide_eq_true_eq, mul_assoc, mul_le_mul_iff_right₀ hp]
  by_cases h : m < 27 / 25
  · have h' : (m : ℝ) ≤ 27 / 25 := by simpa using cast_le' h.le
    refine iff_of_true ?_ (.inl h)
    have h1 := rampTime_mono g0_req.a g0_req.j (mul_le_mul_of_nonneg_left h' hp.le)
    rw [ramp0 le_rfl] at h1
    have h2 := rampTime_nonneg g0_req.a g0_req.j (mul_nonneg hp.le hm')
    nlinarith
  · have h' : (27 / 25 : ℝ) ≤ m := by simpa using cast_le' (not_lt.1 h)
    rw [ramp0 h']
    have e : (m : ℝ) * ((m : ℝ) / 36 + 3 / 100) = ((m * (m / 36 + 3 / 100) : ℚ) : ℝ) := by push_cast; ring
    rw [e, Rat.cast_le, or_iff_right h]

theorem bisect_cast {up : ℝ → Prop} {upq : ℚ → Bool} (h : ∀ m : ℚ, 0 ≤ m → (up (Real.pi * m) ↔ upq m = true)) (n : Nat) :
    ∀ lo hi : ℚ, 0 ≤ lo → lo ≤ hi → bisect up n (Real.pi * lo) (Real.pi * hi) =
      (Real.pi * ((bisectQ upq n lo hi).1 : ℚ), Real.pi * ((bisectQ upq n lo hi).2 : ℚ)) := by
  induction n with
  | zero => intro lo hi _ _; rfl
  | succ n ih =>
    intro lo hi h0 h1
    have hm : 0 ≤ (lo + hi) / 2 := by linarith
    unfold bisect bisectQ
    dsimp only
    have e : (Real.pi * lo + Real.pi * hi) / 2 = Real.pi * (((lo + hi) / 2 : ℚ) : ℝ) := by push_cast; ring
    rw [e]
    by_cases hu : up (Real.pi * (((lo + hi) / 2 : ℚ) : ℝ))
    · rw [if_pos hu, if_pos ((h _ hm).1 hu), ih _ _ hm (by linarith)]
    · rw [if_neg hu, if_neg (fun x => hu ((h _ hm).2 x)), ih _ _ h0 (by linarith)]

theorem peak0 {q : ℚ} (hq : 1 / 4 ≤ q) : g0.peak 0 0 (Real.pi * q) = Real.pi * (rho q : ℚ) := by
  unfold Gen.peak
  rw [if_neg (lt_irrefl _)]
  have := bisect_cast (up := fun mid => g0.accDist 0 mid + g0.accDist mid 0 ≤ Real.pi * q) (fun m hm => up_iff hq hm) LOOP_COUNT 0 3 le_rfl (by norm_num)
  rw [Rat.cast_zero, mul_zero] at this
  have e : g0.vMax = Real.pi * ((3 : ℚ) : ℝ) := by simp [g0, mul_comm]
  rw [e]
  exact congrArg Prod.fst this

/-! ## The heading -/

/-- Duration of either ramp and of the part between. -/
def tRamp (q : ℚ) : ℚ := rho q / 36 + 3 / 100
def tMid (q : ℚ) : ℚ := (q - rho q * tRamp q) / rho q

/-- What has to be checked about a turn. -/
def good (q : ℚ) : Prop := 1 / 4 ≤ q ∧ q ≤ 1 ∧ 27 / 25 ≤ rho q ∧ rho q * tRamp q ≤ q

instance (q : ℚ) : Decidable (good q) := inferInstanceAs (Decidable (_ ∧ _))

/-- The heading of the curve with the limits `g0` that turns by `π q`. -/
noncomputable def heading (q : ℚ) (s : ℝ) : ℝ := ((g0.generate 0 (Real.pi * q) 0 0).1.calculate s).x

theorem acc0 {m : ℝ} (h : 27 / 25 ≤ m) : (g0.acceleration 0 0 (Real.pi * m)).1 =
    ⟨0, 0, Real.pi * m * (m / 36 + 3 / 100) / 2, Real.pi * m, 36 * Real.pi, 1200 * Real.pi, 3 / 100, m / 36, m / 36 + 3 / 100⟩ := by
  have hp := Real.pi_pos
  have h0 : 0 ≤ Real.pi * m := by have : 0 ≤ m := by linarith
                                  positivity
  have e1 : 36 * Real.pi / (1200 * Real.pi) = 3 / 100 := by field_simp; norm_num
  have e2 : Real.pi * m / (36 * Real.pi) = m / 36 := by field_simp
  unfold Gen.acceleration
  simp only [g0, sub_zero, abs_of_nonneg h0, e1, e2]
  rw [if_pos (by nlinarith), if_pos h0]
  simp only [AccCalc.mk.injEq, true_and, zero_add]
  refine ⟨?_, ?_, ?_⟩ <;> ring

theorem shape {q : ℚ} (hq : good q) :
    (g0.generate 0 (Real.pi * q) 0 0).2.1 = .fin (2 * tRamp q + tMid q : ℝ) ∧
    (∀ s : ℝ, 0 ≤ s → s ≤ (3 / 100 : ℚ) → heading q (0 + s) = Real.pi * (200 * s ^ 3)) ∧
    (∀ s : ℝ, 0 ≤ s → s ≤ (rho q / 36 - 3 / 100 : ℚ) →
      heading q ((3 / 100 : ℚ) + s) = Real.pi * (200 * (3 / 100) ^ 3 + 27 / 50 * s + 18 * s ^ 2)) ∧
    (∀ s : ℝ, 0 ≤ s → s ≤ (3 / 100 : ℚ) →
      heading q ((rho q / 36 : ℚ) + s) = Real.pi * (rho q * tRamp q / 2 - rho q * (3 / 100 - s) + 200 * (3 / 100 - s) ^ 3)) ∧
    (∀ s : ℝ, 0 ≤ s → s ≤ (tMid q / 2 : ℚ) → heading q ((tRamp q : ℚ) + s) = Real.pi * (rho q * tRamp q / 2 + rho q * s)) := by
  obtain ⟨q1, q2, q3, q4⟩ := hq
  have hp := Real.pi_pos
  have r3 : (27 / 25 : ℝ) ≤ (rho q : ℚ) := by simpa using cast_le' q3
  have r4 : ((rho q : ℚ) : ℝ) * tRamp q ≤ q := by exact_mod_cast q4
  have r1 : (1 / 4 : ℝ) ≤ q := by simpa using cast_le' q1
  have hd : 0 ≤ Real.pi * q := by positivity
  obtain ⟨v, p, rest, tA, tC, tD, P⟩ := plan g0_req (Real.pi * q)
  obtain ⟨hv, hD, hr⟩ := rest_fields P
  have hP := P.hp
  rw [hv, abs_of_nonneg hd, peak0 q1] at hP
  have hpp : 0 < p := by rw [hP]; positivity
  have hA : tA = tRamp q := by
    rw [P.htA, sub_zero, abs_of_pos hpp, hP, ramp0 r3]; unfold tRamp; push_cast; ring
  have hrd : rampDist g0 0 p = Real.pi * (rho q * tRamp q / 2) := by
    unfold rampDist
    rw [sub_zero, abs_of_pos hpp, hP, ramp0 r3]; unfold tRamp; push_cast; ring
  have hrd' : rampDist g0 p v = Real.pi * (rho q * tRamp q / 2) := by
    rw [hv, ← hrd]; unfold rampDist; rw [abs_sub_comm]; ring
  have hC : tC = tMid q := by
    rw [P.htC, P.hrest, hrd, hrd', abs_of_nonneg hd, hP]
    have : (Real.pi * q - Real.pi * (rho q * tRamp q / 2) - Real.pi * (rho q * tRamp q / 2)) / (Real.pi * rho q) = (tMid q : ℝ) := by
      have : ((rho q : ℚ) : ℝ) ≠ 0 := by positivity
      unfold tMid; push_cast; field_simp; ring_nf
    rw [this, max_eq_right]
    unfold tMid; push_cast
    exact div_nonneg (by linarith) (by linarith)
  obtain ⟨he, hu⟩ := finite P hpp 0
  have hdir : direction (Real.pi * q) = 1 := by unfold direction; rw [if_neg (not_lt.2 hd)]
  have hh (s : ℝ) : heading q s = (U g0 0 0 |Real.pi * q| v p tA tC tD s).x := by
    unfold heading
    rw [calc_eq g0_req, hu, hdir]; simp
  have hR : (tRamp q : ℝ) = rho q / 36 + 3 / 100 := by unfold tRamp; push_cast; ring
  have hac := acc0 r3
  rw [← hP] at hac
  have key (s : ℝ) (h0 : 0 ≤ s) (h1 : s ≤ tRamp q) : heading q s = ((g0.acceleration 0 0 p).1.calculate s).x := by
    rw [hh]; unfold U; rw [if_neg (not_lt.2 h0), if_pos (by rw [hA]; exact h1)]
  refine ⟨?_, ?_, ?_, ?_, ?_⟩
  · rw [congrArg Prod.fst he, hD, hA, hC]; congr 1; push_cast; ring
  · intro s h0 h1
    push_cast at h1
    rw [zero_add, key s h0 (by rw [hR]; linarith), hac]
    unfold AccCalc.calculate
    rw [if_neg (not_lt.2 h0), if_pos h1]
    dsimp only; ring
  · intro s h0 h1
    push_cast at h1 ⊢
    rw [key _ (by linarith) (by rw [hR]; linarith), hac]
    unfold AccCalc.calculate
    rw [if_neg (by linarith)]
    by_cases hs : s = 0
    · rw [if_pos (by rw [hs]; linarith), hs]; dsimp only; ring
    · have hs : 0 < s := lt_of_le_of_ne h0 (Ne.symm hs)
      dsimp only
      rw [if_neg (by linarith), if_pos (by linarith)]
      dsimp only; ring
  · intro s h0 h1
    push_cast at h1 ⊢
    rw [key _ (by linarith) (by rw [hR]; linarith), hac]
    unfold AccCalc.calculate
    rw [if_neg (by linarith)]
    dsimp only
    rw [hR]
    by_cases hs : s = 0
    · by_cases h : (rho q : ℝ) / 36 ≤ 3 / 100
      · have : ((rho q : ℚ) : ℝ) = 27 / 25 := by linarith
        rw [if_pos (by rw [hs]; linarith), hs, this]; dsimp only; norm_num; ring
      · rw [if_neg (by rw [hs, add_zero]; exact h), if_pos (by rw [hs]; linarith), hs]; dsimp only; ring
    · have hs : 0 < s := lt_of_le_of_ne h0 (Ne.symm hs)
      rw [if_neg (by linarith), if_neg (by linarith), if_pos (by linarith)]
      dsimp only; rw [hP]; ring
  · intro s h0 h1
    push_cast at h1
    by_cases hs : s = 0
    · rw [hs, add_zero, key _ (by rw [hR]; linarith) le_rfl, hac]
      have := acc_end (accA P 0).1
      rw [hac] at this
      dsimp only at this
      rw [hR]
      rw [this.1, hP]; ring
    · have hs : 0 < s := lt_of_le_of_ne h0 (Ne.symm hs)
      rw [hh]; unfold U
      have : (0:ℝ) ≤ tRamp q := by rw [hR]; linarith
      rw [if_neg (by linarith), if_neg (by rw [hA]; linarith), if_pos (by rw [hA, hC]; linarith)]
      dsimp only
      rw [hrd, hA, hP]; ring

/-! ## The length -/

/-- Approximation of half the distance between the ends of the curve. -/
def halfChord (q : ℚ) : ℚ :=
  cosInt [q / 2, 0, 0, -200] (3 / 100) + cosInt [q / 2 - 200 * (3 / 100) ^ 3, -27 / 50, -18] (rho q / 36 - 3 / 100) +
  cosInt (comp [q / 2 - rho q * tRamp q / 2, rho q, 0, -200] [3 / 100, -1]) (3 / 100) +
  cosInt [q / 2 - rho q * tRamp q / 2, -rho q] (tMid q / 2)

theorem heading_range {q : ℚ} (hq : good q) (s : ℝ) (h0 : 0 ≤ s) (h1 : s ≤ 2 * tRamp q + tMid q) :
    0 ≤ heading q s ∧ heading q s ≤ Real.pi * q := by
  have r1 : (1 / 4 : ℝ) ≤ q := by simpa using cast_le' hq.1
  have hd : 0 ≤ Real.pi * q := by have := Real.pi_pos; positivity
  have hm : Monotone (heading q) := by
    refine monotone_of_deriv_nonneg (fun s => (rest_deriv g0_req 0 (Real.pi * q) s).differentiableAt) fun s => ?_
    rw [show deriv (heading q) s = _ from (rest_deriv g0_req 0 (Real.pi * q) s).deriv, calc_eq g0_req]
    have hdir : direction (Real.pi * q) = 1 := by unfold direction; rw [if_neg (not_lt.2 hd)]
    rw [hdir]
    dsimp only
    rw [mul_one]
    obtain ⟨v, p, rest, tA, tC, tD, P⟩ := plan g0_req (Real.pi * q)
    rcases p0 P with hp | hp
    · exact ((stuck P hp 0).2.2.2.2 s).2.1.ge
    · rw [(finite P hp 0).2]; exact (U_bounds P 0 s).1.1
  obtain ⟨-, e0, e1⟩ := rest_ends g0_req 0 (Real.pi * q) _ (shape hq).1
  constructor
  · have := hm h0
    rwa [show heading q 0 = 0 from e0] at this
  · have := hm h1
    rwa [show heading q (2 * tRamp q + tMid q) = 0 + Real.pi * q from e1, zero_add] at this

/-- The distance between the ends of the path, along the bisector of the turn. -/
theorem chord {q : ℚ} (hq : good q) {X Y : ℝ → ℝ} (hF : Follows 1 (heading q) X Y) :
    |(X (2 * tRamp q + tMid q) - X 0) * Real.cos (Real.pi * q / 2) + (Y (2 * tRamp q + tMid q) - Y 0) * Real.sin (Real.pi * q / 2)
      - 2 * (halfChord q : ℚ)| ≤ 3e-10 * (2 * tRamp q + tMid q) := by
  obtain ⟨hT, s1, s2, s3, s4⟩ := shape hq
  have hrange := heading_range hq
  obtain ⟨q1, q2, q3, q4⟩ := id hq
  have hpi := Real.pi_pos
  have r1 : (1 / 4 : ℝ) ≤ q := by simpa using cast_le' q1
  have r2 : (q : ℝ) ≤ 1 := by simpa using cast_le' q2
  have hR : (tRamp q : ℝ) = rho q / 36 + 3 / 100 := by unfold tRamp; push_cast; ring
  have r3 : (27 / 25 : ℝ) ≤ (rho q : ℚ) := by simpa using cast_le' q3
  have hM' : 0 ≤ tMid q := by
    unfold tMid
    exact div_nonneg (by linarith) (by linarith)
  have hM : (0 : ℝ) ≤ tMid q := by simpa using cast_le' hM'
  have hsym := fun s => (rest_symm g0_req 0 (Real.pi * q) _ hT s).1
  generalize hTT : (2 * tRamp q + tMid q : ℝ) = T at *
  have hsym : ∀ s, heading q (T - s) = Real.pi * q - heading q s := fun s => by
    have := hsym s; rw [mul_zero, zero_add] at this; exact this
  let G : ℝ → ℝ := fun s => X s * Real.cos (Real.pi * q / 2) + Y s * Real.sin (Real.pi * q / 2)
  have hG (s : ℝ) : HasDerivAt G (Real.cos (Real.pi * q / 2 - heading q s)) s := by
    refine (((hF s).1.mul_const _).add ((hF s).2.mul_const _)).congr_deriv ?_
    rw [Real.cos_sub]; ring
  have hhalf : G T + G 0 = 2 * G (T / 2) := by
    have hsub (s : ℝ) : HasDerivAt (fun s : ℝ => T - s) (-1) s := by simpa using (hasDerivAt_id s).const_sub T
    have key (s : ℝ) : HasDerivAt (fun s => G s + G (T - s)) 0 s := by
      refine ((hG s).add ((hG (T - s)).comp s (hsub s))).congr_deriv ?_
      rw [hsym s, show Real.pi * q / 2 - (Real.pi * q - heading q s) = -(Real.pi * q / 2 - heading q s) by ring, Real.cos_neg]
      ring
    have := const_of_deriv key T (T / 2)
    rw [sub_self, show T - T / 2 = T / 2 by ring] at this
    linarith
  have piece (p : List ℚ) (len : ℚ) (a : ℝ) (hl : 0 ≤ len) (ha : 0 ≤ a) (hT' : a + len ≤ T)
      (he : ∀ s : ℝ, 0 ≤ s → s ≤ len → heading q (a + s) = Real.pi * (q / 2) - Real.pi * ev p s) :
      |G (a + len) - G a - (cosInt p len : ℚ)| ≤ 3e-10 * len := by
    refine cosInt_spec hl (fun s h0 h1 => ?_) (fun s h0 h1 => ?_)
    · have := hG (a + s)
      rw [he s h0 h1] at this
      exact this.congr_deriv (by congr 1; ring)
    · obtain ⟨k1, k2⟩ := hrange (a + s) (by linarith) (by linarith)
      rw [he s h0 h1] at k1 k2
      rw [abs_le]
      constructor
      · have : Real.pi * (-ev p s) ≤ Real.pi * (q / 2) := by linarith
        have := (mul_le_mul_iff_right₀ hpi).1 this
        linarith
      · have : Real.pi * ev p s ≤ Real.pi * (q / 2) := by linarith
        have := (mul_le_mul_iff_right₀ hpi).1 this
        linarith
  have p1 := piece [q / 2, 0, 0, -200] (3 / 100) 0 (by norm_num) le_rfl (by push_cast; linarith) (fun s h0 h1 => by
    rw [s1 s h0 h1]; simp only [ev]; push_cast; ring)
  have p2 := piece [q / 2 - 200 * (3 / 100) ^ 3, -27 / 50, -18] (rho q / 36 - 3 / 100) (3 / 100 : ℚ) (by linarith) (by push_cast; norm_num)
    (by push_cast; linarith) (fun s h0 h1 => by
    rw [s2 s h0 h1]; simp only [ev]; push_cast; ring)
  have p3 := piece (comp [q / 2 - rho q * tRamp q / 2, rho q, 0, -200] [3 / 100, -1]) (3 / 100) (rho q / 36 : ℚ) (by norm_num)
    (by push_cast; linarith) (by push_cast; linarith) (fun s h0 h1 => by
    rw [s3 s h0 h1, ev_comp]; simp only [ev]; push_cast; ring)
  have p4 := piece [q / 2 - rho q * tRamp q / 2, -rho q] (tMid q / 2) (tRamp q : ℚ) (by linarith)
    (by linarith) (by push_cast; linarith) (fun s h0 h1 => by
    rw [s4 s h0 h1]; simp only [ev]; push_cast; ring)
  have e1 : (0 : ℝ) + (3 / 100 : ℚ) = (3 / 100 : ℚ) := zero_add _
  have e2 : ((3 / 100 : ℚ) : ℝ) + (rho q / 36 - 3 / 100 : ℚ) = (rho q / 36 : ℚ) := by push_cast; ring
  have e3 : ((rho q / 36 : ℚ) : ℝ) + (3 / 100 : ℚ) = (tRamp q : ℚ) := by rw [hR]; push_cast; ring
  have e4 : ((tRamp q : ℚ) : ℝ) + (tMid q / 2 : ℚ) = T / 2 := by push_cast; linarith
  rw [e1] at p1
  rw [e2] at p2
  rw [e3] at p3
  rw [e4] at p4
  have hc : ((halfChord q : ℚ) : ℝ) = (cosInt [q / 2, 0, 0, -200] (3 / 100) : ℚ) +
      (cosInt [q / 2 - 200 * (3 / 100) ^ 3, -27 / 50, -18] (rho q / 36 - 3 / 100) : ℚ) +
      (cosInt (comp [q / 2 - rho q * tRamp q / 2, rho q, 0, -200] [3 / 100, -1]) (3 / 100) : ℚ) +
      (cosInt [q / 2 - rho q * tRamp q / 2, -rho q] (tMid q / 2) : ℚ) := by unfold halfChord; push_cast; ring
  have goal : (X T - X 0) * Real.cos (Real.pi * q / 2) + (Y T - Y 0) * Real.sin (Real.pi * q / 2) = 2 * (G (T / 2) - G 0) := by
    have : G T - G 0 = 2 * (G (T / 2) - G 0) := by linarith
    rw [← this]; simp only [G]; ring
  rw [goal, hc]
  rw [abs_le] at p1 p2 p3 p4 ⊢
  push_cast at p1 p2 p3 p4
  obtain ⟨a1, b1⟩ := p1
  obtain ⟨a2, b2⟩ := p2
  obtain ⟨a3, b3⟩ := p3
  obtain ⟨a4, b4⟩ := p4
  constructor <;> linarith

/-- The four turns of the table. -/
theorem good_table : good (1 / 4) ∧ good (1 / 2) ∧ good (3 / 4) ∧ good 1 := by decide +kernel

theorem chord_table :
    (0.190444062 ≤ 2 * halfChord (1 / 4) ∧ 2 * halfChord (1 / 4) ≤ 0.190444063) ∧
    (0.234150928 ≤ 2 * halfChord (1 / 2) ∧ 2 * halfChord (1 / 2) ≤ 0.234150929) ∧
    (0.244878925 ≤ 2 * halfChord (3 / 4) ∧ 2 * halfChord (3 / 4) ≤ 0.244878926) ∧
    (0.218326325 ≤ 2 * halfChord 1 ∧ 2 * halfChord 1 ≤ 0.218326326) := by decide +kernel

theorem time_table : 2 * tRamp (1 / 4) + tMid (1 / 4) ≤ 1 / 2 ∧ 2 * tRamp (1 / 2) + tMid (1 / 2) ≤ 1 / 2 ∧
    2 * tRamp (3 / 4) + tMid (3 / 4) ≤ 1 / 2 ∧ 2 * tRamp 1 + tMid 1 ≤ 1 / 2 := by decide +kernel

end Verif.ChordP
