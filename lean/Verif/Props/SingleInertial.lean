import Verif.Props.SingleSensors
/-!
# C128: the inertial sensor in single precision

Why there are two calibrations: the sum of a thousand readings is only right up to ten millionths of itself for every addition, that is a ten-thousandth of the mean. The second one
sums what the first one left over, which is small.
-/
namespace Verif.Props
open Verif Verif.Single Verif.Spec Verif.Binary32 Verif.Proof

variable {exp : F → F}

/-- The number a floating point number is. -/
noncomputable def number : F → ℝ
  | .fin r => r
  | _ => 0

/-! ## Raw values -/

theorem raw_abs {r : Int} (h : Raw r) : |(r : ℝ)| ≤ 2 ^ 15 := by
  have : |r| ≤ 2 ^ 15 := by
    rw [abs_le]
    constructor <;> linarith [h.1, h.2]
  exact_mod_cast this

/-- C128: what the driver puts together from two bytes is such a raw value. -/
theorem C128_raw (higher lower : Nat) : Raw (Imu.connect higher lower) := by
  unfold Imu.connect Raw
  dsimp only
  have := Nat.mod_lt (higher <<< 8 ||| lower) (show 0 < 2 ^ 16 by norm_num)
  split_ifs <;> omega

/-- A raw value multiplied by a small constant. -/
theorem scale_ok {k : ℝ} (k0 : 1 / 10000 ≤ k) (k1 : k ≤ 1) {r : Int} (h : Raw r) :
    ∃ x : ℝ, (arith exp).mul ((arith exp).rnd k) (.fin r) = .fin x ∧ |x - k * r| ≤ 21 / 100000000 * |k * (r : ℝ)| := by
  obtain ⟨d, ed, bd⟩ := rnd_factor (z := k) (by norm_num at k0 ⊢; linarith) (by linarith)
  rw [show (arith exp).rnd k = _ from ed]
  have hr := raw_abs h
  have l := abs_le.1 bd
  have hk0 : 0 ≤ k * (1 + d) := mul_nonneg (by linarith) (by linarith [l.1])
  have hk : k * (1 + d) ≤ 1 * 2 := mul_le_mul k1 (by linarith [l.2]) (by linarith [l.1]) (by norm_num)
  have ha : |k * (1 + d) * (r : ℝ)| ≤ 2 * 2 ^ 15 := by
    rw [abs_mul, abs_of_nonneg hk0]
    exact mul_le_mul (by linarith) hr (abs_nonneg _) (by norm_num)
  obtain ⟨x, ex, bx⟩ := rnd_tiny (z := k * (1 + d) * (r : ℝ)) (ha.trans (by norm_num))
  refine ⟨x, ex, ?_⟩
  by_cases h0 : r = 0
  · subst h0
    rw [Int.cast_zero, mul_zero, rnd_same round24_zero (by norm_num)] at ex
    cases ex
    simp
  · have h1 : (1:ℝ) ≤ |(r : ℝ)| := by exact_mod_cast Int.one_le_abs h0
    have t := abs_add_le (x - k * (1 + d) * r) (k * r * d)
    have e : x - k * (1 + d) * r + k * r * d = x - k * r := by ring
    rw [e, abs_mul (k * (r : ℝ)) d] at t
    have t2 := mul_le_mul_of_nonneg_left bd (abs_nonneg (k * (r : ℝ)))
    have e2 : k * (1 + d) * (r : ℝ) = k * r * (1 + d) := by ring
    rw [e2, abs_mul (k * (r : ℝ)), abs_of_nonneg (show 0 ≤ 1 + d by linarith [l.1])] at bx
    have t3 := mul_le_mul_of_nonneg_left (show 1 + d ≤ 1 + 101 / 1000000000 by linarith [l.2]) (abs_nonneg (k * (r : ℝ)))
    have t4 : 1 / 10000 * 1 ≤ |k * (r : ℝ)| := by
      rw [abs_mul, abs_of_nonneg (show 0 ≤ k by linarith)]
      exact mul_le_mul k0 h1 (by norm_num) (by linarith)
    generalize |k * (r : ℝ)| = X at *
    rw [e2] at t
    norm_num at bx t t2 t3 t4 ⊢
    linarith

/-- C128: the raw angular velocity of the gyroscope: a number, right up to five ten-millionths of itself, between -35 and 35. -/
theorem C128_gyro {r : Int} (h : Raw r) : ∃ x : ℝ, toGyro (arith exp) r = .fin x ∧ |x - Imu.toGyro r| ≤ 5 / 10000000 * |Imu.toGyro r| ∧ |x| ≤ 35 := by
  obtain ⟨y, ey, b1⟩ := scale_ok (exp := exp) (k := 0.0010642251) (by norm_num) (by norm_num) h
  obtain ⟨d, ed, bd⟩ := rnd_factor (z := (0.99:ℝ)) (by norm_num) (by norm_num)
  have hr := raw_abs h
  have l := abs_le.1 bd
  unfold toGyro
  rw [ey, show (arith exp).rnd 0.99 = _ from ed]
  obtain ⟨X, hX⟩ : ∃ X : ℝ, X = 0.0010642251 * (r : ℝ) := ⟨_, rfl⟩
  rw [← hX] at b1
  have hXs : |X| ≤ 0.0010642251 * 2 ^ 15 := by
    rw [hX, abs_mul, abs_of_pos (by norm_num)]
    exact mul_le_mul_of_nonneg_left hr (by norm_num)
  norm_num at hXs
  have hy : |y| ≤ |X| * (1 + 21 / 100000000) := by
    have := abs_add_le (y - X) X
    rw [sub_add_cancel] at this
    linarith
  have c0 : (0:ℝ) ≤ 0.99 * (1 + d) := mul_nonneg (by norm_num) (by linarith [l.1])
  have c1 : (0.99:ℝ) * (1 + d) ≤ 0.99 + 1 / 1000000 := by linarith [l.2]
  have hm : |y * (0.99 * (1 + d))| ≤ |y| * (0.99 + 1 / 1000000) := by
    rw [abs_mul, abs_of_nonneg c0]
    exact mul_le_mul_of_nonneg_left c1 (abs_nonneg y)
  norm_num at hm
  obtain ⟨x, ex, bx⟩ := rnd_tiny (z := y * (0.99 * (1 + d))) (by norm_num; linarith)
  have e0 : Imu.toGyro r = X * 0.99 := by rw [hX]; rfl
  refine ⟨x, ex, ?_, ?_⟩
  · rw [e0]
    by_cases h0 : r = 0
    · have X0 : X = 0 := by rw [hX, h0]; simp
      rw [X0, sub_zero, abs_zero, mul_zero] at b1
      have y0 : y = 0 := abs_nonpos_iff.1 b1
      rw [y0, zero_mul, rnd_same round24_zero (by norm_num)] at ex
      cases ex
      rw [X0]
      simp
    · have h1 : (1:ℝ) ≤ |(r : ℝ)| := by exact_mod_cast Int.one_le_abs h0
      have hX1 : 0.0010642251 * 1 ≤ |X| := by
        rw [hX, abs_mul, abs_of_pos (a := (0.0010642251:ℝ)) (by norm_num)]
        exact mul_le_mul_of_nonneg_left h1 (by norm_num)
      have t := abs_add_three (x - y * (0.99 * (1 + d))) ((y - X) * (0.99 * (1 + d))) (X * (0.99 * d))
      have e : x - y * (0.99 * (1 + d)) + (y - X) * (0.99 * (1 + d)) + X * (0.99 * d) = x - X * 0.99 := by ring
      rw [e, abs_mul (y - X), abs_mul X, abs_mul 0.99 d, abs_of_nonneg c0, abs_of_pos (show (0:ℝ) < 0.99 by norm_num)] at t
      have t1 : |y - X| * (0.99 * (1 + d)) ≤ 21 / 100000000 * |X| * (0.99 + 1 / 1000000) := mul_le_mul b1 c1 c0 (by positivity)
      have t2 : |X| * (0.99 * |d|) ≤ |X| * (0.99 * (101 / 1000000000)) := mul_le_mul_of_nonneg_left (by linarith) (abs_nonneg X)
      rw [abs_mul X, abs_of_pos (show (0:ℝ) < 0.99 by norm_num)]
      norm_num at t t1 t2 bx hX1 ⊢
      linarith
  · have := abs_add_le (x - y * (0.99 * (1 + d))) (y * (0.99 * (1 + d)))
    rw [sub_add_cancel] at this
    norm_num at this bx ⊢
    linarith

/-- C128: the raw acceleration: a number, right up to three ten-millionths of itself, between -20 and 20. -/
theorem C128_accel {r : Int} (h : Raw r) : ∃ x : ℝ, toAccel (arith exp) r = .fin x ∧ |x - Imu.toAccel r| ≤ 3 / 10000000 * |Imu.toAccel r| ∧ |x| ≤ 20 := by
  obtain ⟨y, ey, b1⟩ := scale_ok (exp := exp) (k := 0.0005985504) (by norm_num) (by norm_num) h
  have hr := raw_abs h
  refine ⟨y, ey, ?_, ?_⟩
  · refine b1.trans ?_
    show _ ≤ 3 / 10000000 * |0.0005985504 * (r : ℝ)|
    exact mul_le_mul_of_nonneg_right (by norm_num) (abs_nonneg _)
  · have t := abs_add_le (y - 0.0005985504 * (r : ℝ)) (0.0005985504 * (r : ℝ))
    rw [sub_add_cancel] at t
    have : |0.0005985504 * (r : ℝ)| ≤ 0.0005985504 * 2 ^ 15 := by
      rw [abs_mul, abs_of_pos (a := (0.0005985504:ℝ)) (by norm_num)]
      exact mul_le_mul_of_nonneg_left hr (by norm_num)
    norm_num at this t b1 ⊢
    linarith

/-! ## Sums -/

theorem map_near {f g : Int → ℝ} {e : ℝ} : ∀ l : List Int, (∀ x ∈ l, |f x - g x| ≤ e) → |(l.map f).sum - (l.map g).sum| ≤ l.length * e
  | [], _ => by simp
  | x :: l, h => by
    have ih := map_near l fun y hy => h y (List.mem_cons_of_mem _ hy)
    have h1 := h x List.mem_cons_self
    rw [List.map_cons, List.map_cons, List.sum_cons, List.sum_cons, List.length_cons]
    push_cast
    obtain ⟨a1, a2⟩ := abs_le.1 ih
    obtain ⟨a3, a4⟩ := abs_le.1 h1
    rw [abs_le]
    constructor <;> linarith

theorem map_const_sum (c : ℝ) (l : List Int) : (l.map fun _ => c).sum = l.length * c := by
  rw [List.map_const', List.sum_replicate, nsmul_eq_mul]

/-- The sum of readings of at most `D`. -/
theorem total_near {read : Int → F} {g : Int → ℝ} {D : ℝ} (D0 : 0 ≤ D) (D1 : D ≤ 100) : ∀ (l : List Int) (i s t : ℝ), (∀ r ∈ l, read r = .fin (g r) ∧ |g r| ≤ D) → 0 ≤ i →
    i + l.length ≤ 1000 → |t| ≤ i * D → |s - t| ≤ i * (102 / 1000000 * D + 2 / 10 ^ 20) →
    ∃ s' : ℝ, total (arith exp) read l (.fin s) = .fin s' ∧ |s' - (t + (l.map g).sum)| ≤ (i + l.length) * (102 / 1000000 * D + 2 / 10 ^ 20)
  | [], i, s, t, _, _, _, _, h => ⟨s, rfl, by simpa using h⟩
  | r :: l, i, s, t, hl, i0, hi, ht, h => by
    obtain ⟨e1, h1⟩ := hl r List.mem_cons_self
    rw [List.length_cons] at hi ⊢
    push_cast at hi ⊢
    have l0 : (0:ℝ) ≤ l.length := by positivity
    unfold total
    rw [e1]
    obtain ⟨κ, hκ⟩ : ∃ κ, κ = 102 / 1000000 * D + 2 / 10 ^ 20 := ⟨_, rfl⟩
    rw [← hκ] at h ⊢
    have κ0 : 0 ≤ κ := by rw [hκ]; positivity
    have i1 : i * D ≤ 999 * D := mul_le_mul_of_nonneg_right (by linarith) D0
    have i2 : i * κ ≤ 999 * κ := mul_le_mul_of_nonneg_right (by linarith) κ0
    have hs : |s + g r| ≤ 1000 * D + 1000 * κ := by
      obtain ⟨a1, a2⟩ := abs_le.1 h
      obtain ⟨a3, a4⟩ := abs_le.1 h1
      obtain ⟨a5, a6⟩ := abs_le.1 ht
      rw [abs_le]
      constructor <;> linarith
    obtain ⟨s', es, bs⟩ := rnd_tiny (z := s + g r) (hs.trans (by rw [hκ]; norm_num; linarith))
    rw [show (arith exp).add (.fin s) (.fin (g r)) = .fin s' from es]
    have bs' : |s' - (s + g r)| ≤ κ := by
      refine bs.trans ?_
      have : |s + g r| / 10000000 ≤ (1000 * D + 1000 * κ) / 10000000 := div_le_div_of_nonneg_right hs (by norm_num)
      norm_num at hκ this ⊢
      linarith
    obtain ⟨s2, e2, b2⟩ := total_near D0 D1 l (i + 1) s' (t + g r) (fun x hx => hl x (List.mem_cons_of_mem _ hx)) (by linarith) (by linarith) (by
      obtain ⟨a3, a4⟩ := abs_le.1 h1
      obtain ⟨a5, a6⟩ := abs_le.1 ht
      rw [abs_le]
      constructor <;> linarith) (by
      rw [← hκ]
      obtain ⟨a1, a2⟩ := abs_le.1 h
      obtain ⟨a3, a4⟩ := abs_le.1 bs'
      rw [abs_le]
      constructor <;> linarith)
    rw [← hκ] at b2
    refine ⟨s2, e2, ?_⟩
    rw [List.map_cons, List.sum_cons, ← add_assoc]
    convert b2 using 2
    ring

/-- One calibration: the new offset. -/
noncomputable def settle (A : Arith) (conv : Int → F) (o : F) (l : List Int) : F := A.add o (A.div (total A (fun raw => A.sub (conv raw) o) l (.fin 0)) (.fin 1000))

theorem settle_ok {conv : Int → F} {f : Int → ℝ} {o D : ℝ} (D0 : 0 ≤ D) (D1 : D ≤ 99) (ho : |o| ≤ 100) {l : List Int} (hl : l.length = 1000)
    (hf : ∀ r ∈ l, conv r = .fin (f r) ∧ |f r - o| ≤ D) :
    ∃ o' : ℝ, settle (arith exp) conv (.fin o) l = .fin o' ∧ |o' - mean (l.map f)| ≤ 104 / 1000000 * D + |o'| * (101 / 1000000000) + 1 / 10 ^ 15 := by
  -- the readings
  have hread : ∀ r ∈ l, ∃ y : ℝ, (arith exp).sub (conv r) (.fin o) = .fin y ∧ |y - (f r - o)| ≤ D / 10000000 + 1 / 10 ^ 20 := by
    intro r hr
    obtain ⟨e, h⟩ := hf r hr
    obtain ⟨y, ey, b⟩ := rnd_tiny (z := f r - o) (by linarith)
    refine ⟨y, ?_, b.trans (by linarith)⟩
    rw [e]
    show rnd (f r + -o) = _
    rw [← sub_eq_add_neg, ey]
  obtain ⟨g, hg⟩ : ∃ g : Int → ℝ, g = fun r => number ((arith exp).sub (conv r) (.fin o)) := ⟨_, rfl⟩
  have hg1 : ∀ r ∈ l, (arith exp).sub (conv r) (.fin o) = .fin (g r) ∧ |g r - (f r - o)| ≤ D / 10000000 + 1 / 10 ^ 20 := by
    intro r hr
    obtain ⟨y, ey, b⟩ := hread r hr
    have e : g r = y := by rw [hg]; dsimp only; rw [ey]; rfl
    rw [e]
    exact ⟨ey, b⟩
  obtain ⟨E, hE⟩ : ∃ E, E = D + (D / 10000000 + 1 / 10 ^ 20) := ⟨_, rfl⟩
  have hg2 : ∀ r ∈ l, (arith exp).sub (conv r) (.fin o) = .fin (g r) ∧ |g r| ≤ E := by
    intro r hr
    obtain ⟨e, b⟩ := hg1 r hr
    have t := abs_add_le (g r - (f r - o)) (f r - o)
    rw [sub_add_cancel] at t
    refine ⟨e, ?_⟩
    have := (hf r hr).2
    rw [hE]
    linarith
  have E0 : 0 ≤ E := by rw [hE]; positivity
  obtain ⟨s, es, bs⟩ := total_near (exp := exp) (read := fun raw => (arith exp).sub (conv raw) (.fin o)) E0 (by rw [hE]; norm_num; linarith) l 0 0 0 hg2 le_rfl
    (by rw [hl]; norm_num) (by simp) (by simp)
  rw [zero_add, zero_add, hl] at bs
  push_cast at bs
  -- the true sum
  have hm : |(l.map g).sum - (l.map fun r => f r - o).sum| ≤ l.length * (D / 10000000 + 1 / 10 ^ 20) := map_near l fun r hr => (hg1 r hr).2
  have hd : (l.map fun r => f r - o).sum = (l.map f).sum - l.length * o := by
    rw [← map_const_sum o l]
    clear hf hread hg1 hg2 hm es bs hl
    induction l with
    | nil => simp
    | cons x l ih => simp only [List.map_cons, List.sum_cons] at ih ⊢; rw [ih]; ring
  rw [hd, hl] at hm
  push_cast at hm
  have hgS : |(l.map g).sum| ≤ 1000 * E := by
    have := map_near (f := g) (g := fun _ => 0) (e := E) l (fun r hr => by rw [sub_zero]; exact (hg2 r hr).2)
    rw [map_const_sum, hl] at this
    simpa using this
  -- the division
  have hs : |s| ≤ 1000 * (E + (102 / 1000000 * E + 2 / 10 ^ 20)) := by
    have := abs_add_le (s - (l.map g).sum) (l.map g).sum
    rw [sub_add_cancel] at this
    linarith
  have hs' : |s / 1000| ≤ E + (102 / 1000000 * E + 2 / 10 ^ 20) := by
    rw [abs_div, abs_of_pos (show (0:ℝ) < 1000 by norm_num), div_le_iff₀ (by norm_num)]
    linarith
  have hE2 : E ≤ 99.1 := by rw [hE]; norm_num; linarith
  obtain ⟨q, eq, bq⟩ := rnd_tiny (z := s / 1000) (hs'.trans (by norm_num at hE2 ⊢; linarith))
  have hq : |q| ≤ 101 := by
    have := abs_add_le (q - s / 1000) (s / 1000)
    rw [sub_add_cancel] at this
    norm_num at hE2 hs' bq this ⊢
    linarith
  have hoq : |o + q| ≤ 1000000 := (abs_add_le o q).trans (by linarith)
  obtain ⟨o', eo, bo⟩ := rnd_tiny hoq
  refine ⟨o', ?_, ?_⟩
  · unfold settle
    rw [es, div_rnd (by norm_num), eq]
    exact eo
  · have ho' : |o + q| ≤ |o'| * (1 + 1001 / 10000000000) + 1 / 10 ^ 19 := by
      have t := abs_add_le (-(o' - (o + q))) o'
      rw [abs_neg, show -(o' - (o + q)) + o' = o + q by ring] at t
      norm_num at bo t ⊢
      have := abs_nonneg o'
      linarith
    unfold mean
    rw [List.length_map, hl]
    push_cast
    obtain ⟨a1, a2⟩ := abs_le.1 bo
    obtain ⟨a3, a4⟩ := abs_le.1 bq
    obtain ⟨a5, a6⟩ := abs_le.1 bs
    obtain ⟨a7, a8⟩ := abs_le.1 hm
    have o0 := abs_nonneg o'
    generalize (l.map f).sum = P at *
    generalize (l.map g).sum = Q at *
    generalize |o'| = O at *
    generalize |o + q| = O2 at *
    generalize |s / 1000| = O3 at *
    norm_num at *
    rw [abs_le]
    constructor <;> linarith

theorem mean_near {f g : Int → ℝ} {e : ℝ} {l : List Int} (hl : l.length = 1000) (h : ∀ x ∈ l, |f x - g x| ≤ e) : |mean (l.map f) - mean (l.map g)| ≤ e := by
  have := map_near l h
  unfold mean
  rw [List.length_map, List.length_map, hl] at *
  push_cast at this ⊢
  rw [← sub_div, abs_div, abs_of_pos (show (0:ℝ) < 1000 by norm_num), div_le_iff₀ (by norm_num)]
  linarith

theorem mean_of_const {c : ℝ} {l : List Int} (hl : l.length = 1000) : mean (l.map fun _ => c) = c := by
  unfold mean
  rw [map_const_sum, List.length_map, hl]
  push_cast
  ring

/-- Two calibrations at rest. -/
theorem settled_ok {conv : Int → F} {f G : Int → ℝ} {L δ : ℝ} (L0 : 1 / 1000 ≤ L) (L1 : L ≤ 40) (δ0 : 0 ≤ δ) (δ1 : δ ≤ 40) {l l' : List Int} (hl : l.length = 1000) (hl' : l'.length = 1000)
    (hf : ∀ r, r ∈ l ∨ r ∈ l' → conv r = .fin (f r) ∧ |f r - G r| ≤ 5 / 10000000 * |G r| ∧ |G r| ≤ L) (hδ : ∀ r ∈ l, ∀ r' ∈ l', |G r' - G r| ≤ δ) :
    ∃ o : ℝ, settle (arith exp) conv (settle (arith exp) conv (.fin 0) l) l' = .fin o ∧ |o - mean (l'.map G)| ≤ 105 / 1000000 * δ + 7 / 10000000 * L := by
  have hfL : ∀ r, r ∈ l ∨ r ∈ l' → |f r - G r| ≤ 5 / 10000000 * L := fun r hr => (hf r hr).2.1.trans (mul_le_mul_of_nonneg_left (hf r hr).2.2 (by norm_num))
  -- the first one
  have m1 : |mean (l.map f) - mean (l.map G)| ≤ 5 / 10000000 * L := mean_near hl fun r hr => hfL r (.inl hr)
  have m1' : |mean (l.map G)| ≤ L := by
    have := mean_near (f := G) (g := fun _ => 0) (e := L) hl (fun r hr => by rw [sub_zero]; exact (hf r (.inl hr)).2.2)
    rwa [mean_of_const hl, sub_zero] at this
  obtain ⟨o, eo, bo⟩ := settle_ok (exp := exp) (conv := conv) (f := f) (o := 0) (D := L * (1 + 5 / 10000000)) (by linarith) (by linarith) (by norm_num) hl (fun r hr => by
    refine ⟨(hf r (.inl hr)).1, ?_⟩
    have t := abs_add_le (f r - G r) (G r)
    rw [sub_add_cancel] at t
    have t1 := hfL r (.inl hr)
    have t2 := (hf r (.inl hr)).2.2
    rw [sub_zero]
    linarith)
  have O1 : |o| ≤ L * 1.001 := by
    obtain ⟨a1, a2⟩ := abs_le.1 m1
    obtain ⟨a3, a4⟩ := abs_le.1 m1'
    obtain ⟨a5, a6⟩ := abs_le.1 bo
    rcases abs_cases o with ⟨e, h⟩ | ⟨e, h⟩
    · rw [e] at a5 a6 ⊢
      norm_num at *
      linarith
    · rw [e] at a5 a6 ⊢
      norm_num at *
      linarith
  have bo' : |o - mean (l.map f)| ≤ 1042 / 10000000 * L := by
    norm_num at bo O1 L0 ⊢
    linarith
  rw [eo]
  -- the second one
  have m2 : |mean (l'.map f) - mean (l'.map G)| ≤ 5 / 10000000 * L := mean_near hl' fun r hr => hfL r (.inr hr)
  have m2' : |mean (l'.map G)| ≤ L := by
    have := mean_near (f := G) (g := fun _ => 0) (e := L) hl' (fun r hr => by rw [sub_zero]; exact (hf r (.inr hr)).2.2)
    rwa [mean_of_const hl', sub_zero] at this
  obtain ⟨o', eo', b'⟩ := settle_ok (exp := exp) (conv := conv) (f := f) (o := o) (D := δ + 106 / 1000000 * L) (by linarith) (by linarith) (by linarith) hl' (fun r hr => by
    refine ⟨(hf r (.inr hr)).1, ?_⟩
    have t1 := hfL r (.inr hr)
    have t2 : |G r - mean (l.map G)| ≤ δ := by
      have := mean_near (f := fun _ => G r) (g := G) hl (fun x hx => hδ x hx r hr)
      rwa [mean_of_const hl] at this
    obtain ⟨a1, a2⟩ := abs_le.1 m1
    obtain ⟨a3, a4⟩ := abs_le.1 bo'
    obtain ⟨a5, a6⟩ := abs_le.1 t1
    obtain ⟨a7, a8⟩ := abs_le.1 t2
    rw [abs_le]
    constructor <;> linarith)
  refine ⟨o', eo', ?_⟩
  obtain ⟨a1, a2⟩ := abs_le.1 m2
  obtain ⟨a3, a4⟩ := abs_le.1 m2'
  obtain ⟨a5, a6⟩ := abs_le.1 b'
  have O2 : |o'| ≤ L * 1.001 + δ / 1000 := by
    rcases abs_cases o' with ⟨e, h⟩ | ⟨e, h⟩
    · rw [e] at a5 a6 ⊢
      norm_num at *
      linarith
    · rw [e] at a5 a6 ⊢
      norm_num at *
      linarith
  norm_num at a5 a6 O2 L0 ⊢
  rw [abs_le]
  constructor <;> linarith

/-- The two calibrations of `init` with any values. -/
theorem settled_bounded {conv : Int → F} {f : Int → ℝ} {B : ℝ} (B0 : 1 ≤ B) (B1 : B ≤ 40) {l l' : List Int} (hl : l.length = 1000) (hl' : l'.length = 1000)
    (hf : ∀ r, r ∈ l ∨ r ∈ l' → conv r = .fin (f r) ∧ |f r| ≤ B) :
    ∃ o : ℝ, settle (arith exp) conv (settle (arith exp) conv (.fin 0) l) l' = .fin o ∧ |o| ≤ B * 1.001 := by
  have m1 : |mean (l.map f)| ≤ B := by
    have := mean_near (f := f) (g := fun _ => 0) (e := B) hl (fun r hr => by rw [sub_zero]; exact (hf r (.inl hr)).2)
    rwa [mean_of_const hl, sub_zero] at this
  have m2 : |mean (l'.map f)| ≤ B := by
    have := mean_near (f := f) (g := fun _ => 0) (e := B) hl' (fun r hr => by rw [sub_zero]; exact (hf r (.inr hr)).2)
    rwa [mean_of_const hl', sub_zero] at this
  obtain ⟨o, eo, bo⟩ := settle_ok (exp := exp) (conv := conv) (f := f) (o := 0) (D := B) (by linarith) (by linarith) (by norm_num) hl
    (fun r hr => ⟨(hf r (.inl hr)).1, by rw [sub_zero]; exact (hf r (.inl hr)).2⟩)
  have O1 : |o| ≤ B * 1.001 := by
    have t := abs_add_le (o - mean (l.map f)) (mean (l.map f))
    rw [sub_add_cancel] at t
    norm_num at *
    linarith
  rw [eo]
  obtain ⟨o', eo', b'⟩ := settle_ok (exp := exp) (conv := conv) (f := f) (o := o) (D := B * 2.001) (by norm_num at *; linarith) (by norm_num at *; linarith) (by norm_num at *; linarith) hl'
    (fun r hr => ⟨(hf r (.inr hr)).1, by
      have := abs_sub (f r) o
      have := (hf r (.inr hr)).2
      norm_num at *
      linarith⟩)
  refine ⟨o', eo', ?_⟩
  have t := abs_add_le (o' - mean (l'.map f)) (mean (l'.map f))
  rw [sub_add_cancel] at t
  norm_num at *
  linarith

/-! ## The sensor -/

theorem init_gyro (A : Arith) (accels gyros accels' gyros' : List Int) :
    (Inertial.init A accels gyros accels' gyros').gyroOffset = settle A (toGyro A) (settle A (toGyro A) (.fin 0) gyros) gyros' := rfl

theorem init_accel (A : Arith) (accels gyros accels' gyros' : List Int) :
    (Inertial.init A accels gyros accels' gyros').accelOffset = settle A (fun r => (toAccel A r).neg) (settle A (fun r => (toAccel A r).neg) (.fin 0) accels) accels' := rfl

theorem gyro_number {r : Int} (h : Raw r) : toGyro (arith exp) r = .fin (number (toGyro (arith exp) r)) ∧
    |number (toGyro (arith exp) r) - Imu.toGyro r| ≤ 5 / 10000000 * |Imu.toGyro r| ∧ |number (toGyro (arith exp) r)| ≤ 35 := by
  obtain ⟨x, ex, h1, h2⟩ := C128_gyro (exp := exp) h
  rw [ex]
  exact ⟨rfl, h1, h2⟩

theorem accel_number {r : Int} (h : Raw r) : (toAccel (arith exp) r).neg = .fin (number (toAccel (arith exp) r).neg) ∧
    |number (toAccel (arith exp) r).neg - -Imu.toAccel r| ≤ 5 / 10000000 * |-Imu.toAccel r| ∧ |number (toAccel (arith exp) r).neg| ≤ 20 := by
  obtain ⟨x, ex, h1, h2⟩ := C128_accel (exp := exp) h
  rw [ex]
  refine ⟨rfl, ?_, ?_⟩
  · show |-x - -Imu.toAccel r| ≤ _
    rw [abs_neg (Imu.toAccel r), show -x - -Imu.toAccel r = -(x - Imu.toAccel r) by ring, abs_neg]
    exact h1.trans (mul_le_mul_of_nonneg_right (by norm_num) (abs_nonneg _))
  · show |-x| ≤ 20
    rwa [abs_neg]

/-- A reading after the calibrations. -/
theorem reading_near {x X o m L δ : ℝ} (L0 : 1 / 1000 ≤ L) (L1 : L ≤ 40) (δ0 : 0 ≤ δ) (δ1 : δ ≤ 40) (hx : |x - X| ≤ 5 / 10000000 * |X|) (hX : |X| ≤ 100) (hm : |m| ≤ L)
    (ho : |o - m| ≤ 105 / 1000000 * δ + 7 / 10000000 * L) :
    ∃ w : ℝ, (arith exp).sub (.fin x) (.fin o) = .fin w ∧ |w - (X - m)| ≤ 11 / 100000 * δ + 1 / 1000000 * L + 7 / 10000000 * |X| := by
  have h1 : |x - o| ≤ |X| * (1 + 5 / 10000000) + L * (1 + 7 / 10000000) + 105 / 1000000 * δ := by
    have t := abs_add_three (x - X) (X - m) (-(o - m))
    rw [abs_neg, show x - X + (X - m) + -(o - m) = x - o by ring] at t
    have := abs_sub X m
    linarith
  obtain ⟨w, ew, bw⟩ := rnd_tiny (z := x - o) (h1.trans (by linarith))
  refine ⟨w, ?_, ?_⟩
  · show rnd (x + -o) = _
    rw [← sub_eq_add_neg, ew]
  · have t := abs_add_three (w - (x - o)) (x - X) (-(o - m))
    rw [abs_neg, show w - (x - o) + (x - X) + -(o - m) = w - (X - m) by ring] at t
    norm_num at *
    have := abs_nonneg X
    linarith

/-- C128: the gyroscope after `init`, in single precision. When the readings of both calibrations are at most `L` and differ by at most `δ` (a mouse at rest), every later angular
velocity is a number, off from the raw one in real numbers less the mean of the second calibration by at most 0.00011 `δ` + 10⁻⁶ `L` + 7 10⁻⁷ of the raw one. -/
theorem C128_gyro_rest {L δ : ℝ} (L0 : 1 / 1000 ≤ L) (L1 : L ≤ 40) (δ0 : 0 ≤ δ) (δ1 : δ ≤ 40) (accels accels' : List Int) {gyros gyros' : List Int} (hl : gyros.length = 1000)
    (hl' : gyros'.length = 1000) (hr : ∀ r, r ∈ gyros ∨ r ∈ gyros' → Raw r ∧ |Imu.toGyro r| ≤ L) (hδ : ∀ r ∈ gyros, ∀ r' ∈ gyros', |Imu.toGyro r' - Imu.toGyro r| ≤ δ) {r : Int} (h : Raw r) :
    ∃ w : ℝ, (Inertial.init (arith exp) accels gyros accels' gyros').angularVelocity (arith exp) r = .fin w ∧
      |w - (Imu.toGyro r - mean (gyros'.map Imu.toGyro))| ≤ 11 / 100000 * δ + 1 / 1000000 * L + 7 / 10000000 * |Imu.toGyro r| := by
  obtain ⟨o, eo, bo⟩ := settled_ok (exp := exp) (conv := toGyro (arith exp)) (f := fun r => number (toGyro (arith exp) r)) (G := Imu.toGyro) L0 L1 δ0 δ1 hl hl'
    (fun r hr' => ⟨(gyro_number (hr r hr').1).1, (gyro_number (hr r hr').1).2.1, (hr r hr').2⟩) hδ
  obtain ⟨e, b1, b2⟩ := gyro_number (exp := exp) h
  have m2 : |mean (gyros'.map Imu.toGyro)| ≤ L := by
    have := mean_near (f := Imu.toGyro) (g := fun _ => 0) (e := L) hl' (fun r hr' => by rw [sub_zero]; exact (hr r (.inr hr')).2)
    rwa [mean_of_const hl', sub_zero] at this
  have hX : |Imu.toGyro r| ≤ 100 := by
    have t := abs_add_le (-(number (toGyro (arith exp) r) - Imu.toGyro r)) (number (toGyro (arith exp) r))
    rw [abs_neg, show -(number (toGyro (arith exp) r) - Imu.toGyro r) + number (toGyro (arith exp) r) = Imu.toGyro r by ring] at t
    linarith
  unfold Inertial.angularVelocity
  rw [init_gyro, eo, e]
  exact reading_near L0 L1 δ0 δ1 b1 hX m2 bo

/-- C128: the same for the accelerometer, whose raw values are taken negative. -/
theorem C128_accel_rest {L δ : ℝ} (L0 : 1 / 1000 ≤ L) (L1 : L ≤ 40) (δ0 : 0 ≤ δ) (δ1 : δ ≤ 40) {accels accels' : List Int} (gyros gyros' : List Int) (hl : accels.length = 1000)
    (hl' : accels'.length = 1000) (hr : ∀ r, r ∈ accels ∨ r ∈ accels' → Raw r ∧ |Imu.toAccel r| ≤ L) (hδ : ∀ r ∈ accels, ∀ r' ∈ accels', |Imu.toAccel r' - Imu.toAccel r| ≤ δ) {r : Int} (h : Raw r) :
    ∃ w : ℝ, (Inertial.init (arith exp) accels gyros accels' gyros').translationalAcceleration (arith exp) r = .fin w ∧
      |w - (-Imu.toAccel r - mean (accels'.map fun r => -Imu.toAccel r))| ≤ 11 / 100000 * δ + 1 / 1000000 * L + 7 / 10000000 * |Imu.toAccel r| := by
  obtain ⟨o, eo, bo⟩ := settled_ok (exp := exp) (conv := fun r => (toAccel (arith exp) r).neg) (f := fun r => number (toAccel (arith exp) r).neg) (G := fun r => -Imu.toAccel r)
    L0 L1 δ0 δ1 hl hl' (fun r hr' => ⟨(accel_number (hr r hr').1).1, (accel_number (hr r hr').1).2.1, by rw [abs_neg]; exact (hr r hr').2⟩)
    (fun r h1 r' h2 => by rw [show -Imu.toAccel r' - -Imu.toAccel r = -(Imu.toAccel r' - Imu.toAccel r) by ring, abs_neg]; exact hδ r h1 r' h2)
  obtain ⟨e, b1, b2⟩ := accel_number (exp := exp) h
  have m2 : |mean (accels'.map fun r => -Imu.toAccel r)| ≤ L := by
    have := mean_near (f := fun r => -Imu.toAccel r) (g := fun _ => 0) (e := L) hl' (fun r hr' => by rw [sub_zero, abs_neg]; exact (hr r (.inr hr')).2)
    rwa [mean_of_const hl', sub_zero] at this
  have hX : |-Imu.toAccel r| ≤ 100 := by
    have t := abs_add_le (-(number (toAccel (arith exp) r).neg - -Imu.toAccel r)) (number (toAccel (arith exp) r).neg)
    rw [abs_neg, show -(number (toAccel (arith exp) r).neg - -Imu.toAccel r) + number (toAccel (arith exp) r).neg = -Imu.toAccel r by ring] at t
    linarith
  unfold Inertial.translationalAcceleration
  rw [init_accel, eo, e]
  have := reading_near (exp := exp) L0 L1 δ0 δ1 b1 hX m2 bo
  rwa [abs_neg (Imu.toAccel r)] at this

/-- C128: however the mouse is moved during the calibrations, what the sensor says afterwards is a number: at most 71 rad/s and 41 m/s². -/
theorem C128_inertial_bounded {accels gyros accels' gyros' : List Int} (h1 : accels.length = 1000) (h2 : gyros.length = 1000) (h3 : accels'.length = 1000) (h4 : gyros'.length = 1000)
    (hr : ∀ r, r ∈ accels ∨ r ∈ gyros ∨ r ∈ accels' ∨ r ∈ gyros' → Raw r) {r : Int} (h : Raw r) :
    (∃ w : ℝ, (Inertial.init (arith exp) accels gyros accels' gyros').angularVelocity (arith exp) r = .fin w ∧ |w| ≤ 71) ∧
      ∃ a : ℝ, (Inertial.init (arith exp) accels gyros accels' gyros').translationalAcceleration (arith exp) r = .fin a ∧ |a| ≤ 41 := by
  have final : ∀ x o B : ℝ, 1 ≤ B → B ≤ 40 → |x| ≤ B → |o| ≤ B * 1.001 → ∃ w : ℝ, (arith exp).sub (.fin x) (.fin o) = .fin w ∧ |w| ≤ B * 2.002 := by
    intro x o B B0 B1 hx ho
    have hxo := abs_sub x o
    obtain ⟨w, ew, bw⟩ := rnd_tiny (z := x - o) (by norm_num at ho; linarith)
    refine ⟨w, ?_, ?_⟩
    · show rnd (x + -o) = _
      rw [← sub_eq_add_neg, ew]
    · have t := abs_add_le (w - (x - o)) (x - o)
      rw [sub_add_cancel] at t
      norm_num at *
      linarith
  constructor
  · obtain ⟨o, eo, bo⟩ := settled_bounded (exp := exp) (conv := toGyro (arith exp)) (f := fun r => number (toGyro (arith exp) r)) (B := 35) (by norm_num) (by norm_num) h2 h4
      (fun r hr' => by
        have := gyro_number (exp := exp) (hr r (by tauto))
        exact ⟨this.1, this.2.2⟩)
    obtain ⟨e, -, b2⟩ := gyro_number (exp := exp) h
    unfold Inertial.angularVelocity
    rw [init_gyro, eo, e]
    obtain ⟨w, ew, bw⟩ := final _ _ 35 (by norm_num) (by norm_num) b2 bo
    exact ⟨w, ew, bw.trans (by norm_num)⟩
  · obtain ⟨o, eo, bo⟩ := settled_bounded (exp := exp) (conv := fun r => (toAccel (arith exp) r).neg) (f := fun r => number (toAccel (arith exp) r).neg) (B := 20) (by norm_num) (by norm_num) h1 h3
      (fun r hr' => by
        have := accel_number (exp := exp) (hr r (by tauto))
        exact ⟨this.1, this.2.2⟩)
    obtain ⟨e, -, b2⟩ := accel_number (exp := exp) h
    unfold Inertial.translationalAcceleration
    rw [init_accel, eo, e]
    obtain ⟨w, ew, bw⟩ := final _ _ 20 (by norm_num) (by norm_num) b2 bo
    exact ⟨w, ew, bw.trans (by norm_num)⟩

/-- A gyroscope at rest that always says 100: afterwards it says 0, up to 0.2 millionths of a radian per second. -/
example (exp : F → F) (accels accels' : List Int) :
    ∃ w : ℝ, (Inertial.init (arith exp) accels (List.replicate 1000 100) accels' (List.replicate 1000 100)).angularVelocity (arith exp) 100 = .fin w ∧ |w| ≤ 2 / 10000000 := by
  have e : Imu.toGyro 100 = 0.1053582849 := by unfold Imu.toGyro; norm_num
  have all : ∀ r, r ∈ List.replicate 1000 (100:Int) → r = 100 := fun r hr => List.eq_of_mem_replicate hr
  obtain ⟨w, ew, bw⟩ := C128_gyro_rest (exp := exp) (L := 0.1053582849) (δ := 0) (by norm_num) (by norm_num) le_rfl (by norm_num) accels accels' (gyros := List.replicate 1000 100)
    (gyros' := List.replicate 1000 100) (List.length_replicate) (List.length_replicate)
    (fun r hr => by
      have : r = 100 := hr.elim (all r) (all r)
      subst this
      exact ⟨by constructor <;> norm_num, by rw [e, abs_of_pos (by norm_num)]⟩)
    (fun r hr r' hr' => by rw [all r hr, all r' hr']; simp)
    (r := 100) (by constructor <;> norm_num)
  refine ⟨w, ew, ?_⟩
  have em : mean ((List.replicate 1000 (100:Int)).map Imu.toGyro) = Imu.toGyro 100 := by
    unfold mean
    rw [List.map_replicate, List.sum_replicate, List.length_replicate, nsmul_eq_mul]
    push_cast
    ring
  rw [em, sub_self, sub_zero, e, abs_of_pos (show (0:ℝ) < 0.1053582849 by norm_num)] at bw
  exact bw.trans (by norm_num)

/-! ## Without rounding -/

theorem exact_total (read : Int → F) (g : Int → ℝ) : ∀ (l : List Int) (s : ℝ), (∀ r ∈ l, read r = .fin (g r)) → total exact read l (.fin s) = .fin (s + (l.map g).sum)
  | [], s, _ => by simp [total]
  | r :: l, s, h => by
    unfold total
    rw [h r List.mem_cons_self, exact_add, exact_total read g l _ fun x hx => h x (List.mem_cons_of_mem _ hx), List.map_cons, List.sum_cons, add_assoc]

theorem exact_voltageSum (r : ℝ) (adc : Nat → Option Nat) : ∀ (n k : Nat) (s : ℝ), voltageSum exact (.fin r) adc n k (.fin s) = (Voltmeter.sumLoop r adc n k s).map .fin
  | 0, _, _ => rfl
  | n + 1, k, s => by
    unfold voltageSum Voltmeter.sumLoop
    cases adc k with
    | none => rfl
    | some v =>
      show voltageSum exact (.fin r) adc n (k + 1) (exact.add (.fin s) (exact.div (.fin (v * 3.3 * r)) (.fin 4096))) = Except.map F.fin (Voltmeter.sumLoop r adc n (k + 1) (s + v * 3.3 * r / 4096))
      rw [exact_div _ _ (by norm_num), exact_add, exact_voltageSum]

/-- A voltmeter in real numbers as one in floating point numbers. -/
def meterOf (m : Voltmeter.Voltmeter) : Single.Voltmeter := ⟨.fin m.voltage, .fin m.alpha, .fin m.ratio⟩

/-- C128: the models in floating point arithmetic are those in real numbers when nothing is rounded (with a battery voltage that is not zero, and a filter that exists). -/
theorem C128_model :
    (∀ before count, encoderAngle exact before count = (Encoder.angle before count).map fun x => (x.1, .fin (2 * Real.pi * x.2))) ∧
    (∀ d : Nat, metres exact d = .fin (d / 1000)) ∧
    (∀ r, toGyro exact r = .fin (Imu.toGyro r)) ∧ (∀ r, toAccel exact r = .fin (Imu.toAccel r)) ∧
    (∀ (a g : ℝ) accels gyros, (⟨.fin a, .fin g⟩ : Inertial).calibrate exact accels gyros =
      ⟨.fin (a + (accels.map fun r => -Imu.toAccel r - a).sum / 1000), .fin (g + (gyros.map fun r => Imu.toGyro r - g).sum / 1000)⟩) ∧
    (∀ adc (p f r : ℝ), 2 * Real.pi * (p * f) + 1 ≠ 0 → Single.Voltmeter.new exact adc (.fin p) (.fin f) (.fin r) = (Voltmeter.new adc p f r).map meterOf) ∧
    (∀ m reading, (meterOf m).update exact reading = (Voltmeter.updateVoltage m reading).map meterOf) ∧
    ∀ (max1 max2 : Nat) (v b : ℝ), b ≠ 0 → motorDuties exact max1 max2 (.fin v) (.fin b) = Motor.apply max1 max2 v b := by
  have hg : ∀ r, toGyro exact r = .fin (Imu.toGyro r) := fun _ => rfl
  have ha : ∀ r, toAccel exact r = .fin (Imu.toAccel r) := fun _ => rfl
  refine ⟨fun before count => ?_, fun d => ?_, hg, ha, fun a g accels gyros => ?_, fun adc p f r h => ?_, fun m reading => ?_, fun max1 max2 v b hb => ?_⟩
  · unfold encoderAngle Encoder.angle
    cases Encoder.relative before count with
    | error e => rfl
    | ok x =>
      obtain ⟨after, rel⟩ := x
      show Except.ok (after, revolutions exact rel) = Except.ok (after, F.fin (2 * Real.pi * Encoder.revolutions rel))
      unfold revolutions Encoder.revolutions
      rw [exact_div _ _ (by norm_num)]
      show Except.ok (after, F.fin ((rel : ℝ) / 1024 * (2 * Real.pi))) = _
      rw [mul_comm]
  · exact exact_div _ _ (by norm_num)
  · unfold Inertial.calibrate
    dsimp only
    rw [exact_total _ (fun r => -Imu.toAccel r - a) accels 0 (fun r _ => by unfold Inertial.translationalAcceleration; rw [ha]; rfl),
      exact_total _ (fun r => Imu.toGyro r - g) gyros 0 (fun r _ => by unfold Inertial.angularVelocity; rw [hg]; rfl), exact_div _ _ (by norm_num), exact_div _ _ (by norm_num),
      exact_add, exact_add, zero_add, zero_add]
  · unfold Single.Voltmeter.new Voltmeter.new
    dsimp only
    rw [exact_voltageSum]
    have e : exact.div (.fin 1) (exact.add (exact.mul (exact.mul (.fin 2) (exact.rnd Real.pi)) (exact.mul (.fin p) (.fin f))) (.fin 1)) = .fin (1 / (2 * Real.pi * (p * f) + 1)) :=
      exact_div _ _ h
    rw [e]
    cases Voltmeter.sumLoop r adc 100 0 0 with
    | error e => rfl
    | ok t =>
      show Except.ok (Single.Voltmeter.mk (exact.div (.fin t) (.fin 100)) _ _) = _
      rw [exact_div _ _ (by norm_num)]
      rfl
  · cases reading with
    | none => rfl
    | some n =>
      unfold Single.Voltmeter.update
      show Except.ok (Single.Voltmeter.mk (exact.add (exact.mul (.fin m.alpha) (.fin m.voltage)) (exact.mul (exact.sub (.fin 1) (.fin m.alpha)) (exact.div (.fin (n * 3.3 * m.ratio)) (.fin 4096)))) _ _) = _
      rw [exact_div _ _ (by norm_num)]
      rfl
  · unfold motorDuties Motor.apply
    have key : ∀ x : ℝ, (open Classical in if (F.fin 1).lt (.fin x) then F.fin 1 else .fin x) = .fin (open Classical in if 1 < x then 1 else x) := by
      intro x
      by_cases hx : 1 < x
      · rw [if_pos (show (F.fin 1).lt (.fin x) from hx), if_pos hx]
      · rw [if_neg (show ¬ (F.fin 1).lt (.fin x) from hx), if_neg hx]
    rw [exact_div _ _ hb]
    by_cases hv : 0 < v
    · rw [if_pos (show (F.fin 0).lt (.fin v) from hv), if_pos hv]
      dsimp only
      rw [key]
      rfl
    · rw [if_neg (show ¬ (F.fin 0).lt (.fin v) from hv), if_neg hv]
      dsimp only
      rw [show (F.fin (v / b)).neg = .fin (-(v / b)) from rfl, key]
      rfl

end Verif.Props
