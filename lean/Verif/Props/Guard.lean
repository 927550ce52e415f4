import Verif.Spec.Guard
import Verif.Props.Single
/-!
# C122: the supervisor in single precision
-/
namespace Verif.Props
open Verif Verif.Spec Verif.Single Verif.Binary32 Verif.Proof

variable {exp : F → F} {L : Platform} {w x y : ℝ} {g : Supervisor} {s : State} {i : Input}

/-! ## Pillars -/

theorem remquof_ok (hL : SoundPlatform L) (hg : Reasonable w g) (hx : WithinMaze w x) : ∃ (d : ℕ) (r : F),
    Single.remquof (arith exp) L (.fin x) g.squareWidth = .ok ((d : ℤ), r) ∧ d ≤ 103 ∧ (d : ℝ) * w ≤ 9 := by
  have h1 := hg.low
  have h2 := hg.high
  have h3 := hx.low
  obtain ⟨mw, e1, b1⟩ := hL.mm w
  obtain ⟨mx, e2, b2⟩ := hL.mm x
  have hw0 : (0:ℝ) < w := lt_of_lt_of_le (by norm_num) h1
  have hx0 : (0:ℝ) < x := lt_of_lt_of_le (by norm_num) h3
  rw [abs_of_pos hw0, abs_le] at b1
  rw [abs_of_pos hx0, abs_le] at b2
  have ht : (65535:ℝ) ≤ L.top := by
    have := hL.top
    exact_mod_cast this
  have fw : (⌊mw⌋₊ : ℝ) ≤ mw := Nat.floor_le (by linarith)
  have fx : (⌊mx⌋₊ : ℝ) ≤ mx := Nat.floor_le (by linarith)
  have lw : mw < ⌊mw⌋₊ + 1 := Nat.lt_floor_add_one mw
  have ew : min ⌊mw⌋₊ L.top = ⌊mw⌋₊ := by
    refine min_eq_left ?_
    have : (⌊mw⌋₊ : ℝ) ≤ L.top := by linarith [ht]
    exact_mod_cast this
  have ex : min ⌊mx⌋₊ L.top = ⌊mx⌋₊ := by
    refine min_eq_left ?_
    have := hx.far
    have : (⌊mx⌋₊ : ℝ) ≤ L.top := by linarith [ht]
    exact_mod_cast this
  have hlow : 967 * w ≤ (⌊mw⌋₊ : ℝ) := by norm_num at h1; linarith
  have hpos : ⌊mw⌋₊ ≠ 0 := by
    intro h
    rw [h] at hlow
    push_cast at hlow
    linarith
  have hdiv : ((⌊mx⌋₊ / ⌊mw⌋₊ : ℕ) : ℝ) * ⌊mw⌋₊ ≤ ⌊mx⌋₊ := by exact_mod_cast Nat.div_mul_le_self _ _
  have hd0 : (0:ℝ) ≤ ((⌊mx⌋₊ / ⌊mw⌋₊ : ℕ) : ℝ) := Nat.cast_nonneg _
  have hd1 : ((⌊mx⌋₊ / ⌊mw⌋₊ : ℕ) : ℝ) * (967 * w) ≤ 1001 * x :=
    (mul_le_mul_of_nonneg_left hlow hd0).trans (by linarith)
  have hd : ⌊mx⌋₊ / ⌊mw⌋₊ ≤ 103 := by
    have h4 : ((⌊mx⌋₊ / ⌊mw⌋₊ : ℕ) : ℝ) < 104 := by
      by_contra hc
      have := mul_le_mul_of_nonneg_right (not_lt.1 hc) (show 0 ≤ 967 * w by linarith)
      have := hx.high
      linarith
    have : ⌊mx⌋₊ / ⌊mw⌋₊ < 104 := by exact_mod_cast h4
    omega
  refine ⟨⌊mx⌋₊ / ⌊mw⌋₊, (arith exp).sub (.fin x) ((arith exp).mul (.fin w) ((arith exp).rnd ((⌊mx⌋₊ / ⌊mw⌋₊ : ℕ) : ℝ))), ?_, hd, ?_⟩
  · unfold Single.remquof
    rw [hg.width, e1, e2]
    simp only [asUsize, ew, ex, if_neg hpos]
    rw [show Control.wrapI8 (⌊mx⌋₊ / ⌊mw⌋₊) = ((⌊mx⌋₊ / ⌊mw⌋₊ : ℕ) : ℤ) from by
      unfold Control.wrapI8
      rw [Nat.mod_eq_of_lt (by omega), if_pos (by omega)]]
  · have := hx.far
    linarith

/-- A pillar whose coordinates are computed from these multiples of the width. -/
def Multiples (w : ℝ) (p : F × F) : Prop :=
  ∃ n m : ℕ, p = (.fin (round24 (n * w)), .fin (round24 (m * w))) ∧ (n : ℝ) * w ≤ 10 ∧ (m : ℝ) * w ≤ 10

theorem place_ok (hg : Reasonable w g) {a b : ℤ} (ha : -1 ≤ a ∧ a ≤ 105 ∧ (a + 1) * w ≤ 10) (hb : -1 ≤ b ∧ b ≤ 105 ∧ (b + 1) * w ≤ 10) :
    ∃ p, g.place (arith exp) (a, b) = .ok p ∧ Multiples w p := by
  have hw0 : (0:ℝ) < w := lt_of_lt_of_le (by norm_num) hg.low
  have key : ∀ a : ℤ, -1 ≤ a → a ≤ 105 → (a + 1) * w ≤ 10 →
      ∃ n : ℕ, Control.addI8 a 1 = .ok n ∧ (arith exp).mul ((arith exp).rnd (n : ℤ)) g.squareWidth = .fin (round24 (n * w)) ∧ n * w ≤ 10 := by
    intro a h1 h2 h3
    obtain ⟨n, hn⟩ := Int.eq_ofNat_of_zero_le (show 0 ≤ a + 1 by omega)
    have hn' : (a : ℝ) + 1 = n := by exact_mod_cast hn
    have hle : n ≤ 106 := by omega
    have hnw : (n : ℝ) * w ≤ 10 := by rw [← hn']; exact h3
    refine ⟨n, ?_, ?_, hnw⟩
    · unfold Control.addI8
      rw [if_pos (by omega), hn]
    · have e : (arith exp).rnd (((n : ℤ)) : ℝ) = .fin n := by
        have := rnd_fix (m := n) (e := 0) (by rw [abs_of_nonneg (by omega)]; omega) (by norm_num)
          (by simp only [zpow_zero, mul_one]; rw [abs_of_nonneg (by positivity)]; push_cast
              have : (n : ℝ) ≤ 106 := by exact_mod_cast hle
              exact lt_of_le_of_lt this (by norm_num))
        simp only [zpow_zero, mul_one] at this
        exact_mod_cast this
      rw [e, hg.width]
      show rnd (n * w) = _
      refine rnd_of_lt ?_
      have h5 : |(n : ℝ) * w| ≤ 2 ^ (4:ℤ) := by rw [abs_of_nonneg (by positivity)]; norm_num; linarith
      exact (round24_abs_le (round24_two (by norm_num)) h5).trans_lt (by norm_num)
  obtain ⟨n, e1, f1, g1⟩ := key a ha.1 ha.2.1 ha.2.2
  obtain ⟨m, e2, f2, g2⟩ := key b hb.1 hb.2.1 hb.2.2
  refine ⟨_, ?_, n, m, rfl, g1, g2⟩
  unfold Supervisor.place
  simp only [e1, e2, bind, Except.bind, pure, Except.pure, f1, f2]

theorem mapM_ok {α β : Type} (f : α → R β) (P : β → Prop) : ∀ l : List α, (∀ a ∈ l, ∃ b, f a = .ok b ∧ P b) →
    ∃ l', l.mapM f = .ok l' ∧ l'.length = l.length ∧ ∀ b ∈ l', P b
  | [], _ => ⟨[], rfl, rfl, by simp⟩
  | a :: l, h => by
    obtain ⟨b, h1, h2⟩ := h a (by simp)
    obtain ⟨l', h3, h4, h5⟩ := mapM_ok f P l fun a ha => h a (by simp [ha])
    refine ⟨b :: l', ?_, by simp [h4], ?_⟩
    · rw [List.mapM_cons, h1, h3]; rfl
    · intro c hc
      rcases List.mem_cons.1 hc with rfl | hc
      · exact h2
      · exact h5 c hc

theorem pillars_ok (hL : SoundPlatform L) (hg : Reasonable w g) (hx : WithinMaze w x) (hy : WithinMaze w y) :
    ∃ ps, g.nearestPillars (arith exp) L (.fin x) (.fin y) = .ok ps ∧ ps ≠ [] ∧ ∀ p ∈ ps, Multiples w p := by
  obtain ⟨dx, rx, e1, b1, c1⟩ := remquof_ok (exp := exp) hL hg hx
  obtain ⟨dy, ry, e2, b2, c2⟩ := remquof_ok (exp := exp) hL hg hy
  have hw0 : (0:ℝ) < w := lt_of_lt_of_le (by norm_num) hg.low
  have hw1 := hg.high
  have add : ∀ (d : ℕ) (k : ℤ), d ≤ 103 → -1 ≤ k → k ≤ 2 → Control.addI8 d k = .ok (d + k) := by
    intro d k h1 h2 h3
    unfold Control.addI8
    rw [if_pos (by omega)]
  have good : ∀ (d : ℕ) (k : ℤ), d ≤ 103 → (d : ℝ) * w ≤ 9 → -1 ≤ k → k ≤ 2 →
      -1 ≤ (d : ℤ) + k ∧ (d : ℤ) + k ≤ 105 ∧ (((d : ℤ) + k : ℤ) + 1 : ℝ) * w ≤ 10 := by
    intro d k h1 h2 h3 h4
    refine ⟨by omega, by omega, ?_⟩
    have : (k : ℝ) ≤ 2 := by exact_mod_cast h4
    push_cast
    nlinarith
  have good0 : ∀ (d : ℕ), d ≤ 103 → (d : ℝ) * w ≤ 9 → -1 ≤ (d : ℤ) ∧ (d : ℤ) ≤ 105 ∧ (((d : ℤ) : ℝ) + 1) * w ≤ 10 := by
    intro d h1 h2
    have := good d 0 h1 h2 (by norm_num) (by norm_num)
    simpa using this
  have fin : ∀ l : List (ℤ × ℤ), l ≠ [] → (∀ p ∈ l, (-1 ≤ p.1 ∧ p.1 ≤ 105 ∧ ((p.1 : ℝ) + 1) * w ≤ 10) ∧ (-1 ≤ p.2 ∧ p.2 ≤ 105 ∧ ((p.2 : ℝ) + 1) * w ≤ 10)) →
      ∃ ps, l.mapM (g.place (arith exp)) = .ok ps ∧ ps ≠ [] ∧ ∀ p ∈ ps, Multiples w p := by
    intro l hl h
    obtain ⟨ps, h1, h2, h3⟩ := mapM_ok (g.place (arith exp)) (Multiples w) l fun p hp => place_ok hg (h p hp).1 (h p hp).2
    refine ⟨ps, h1, ?_, h3⟩
    intro h0
    rw [h0] at h2
    exact hl (List.length_eq_zero_iff.1 h2.symm)
  have X0 := good0 dx b1 c1
  have Y0 := good0 dy b2 c2
  have X := fun k => good dx k b1 c1
  have Y := fun k => good dy k b2 c2
  unfold Supervisor.nearestPillars
  simp only [e1, e2, bind, Except.bind, add dx 1 b1 (by norm_num) (by norm_num), add dy 1 b2 (by norm_num) (by norm_num),
    add dx 2 b1 (by norm_num) (by norm_num), add dy 2 b2 (by norm_num) (by norm_num), add dx (-1) b1 (by norm_num) (by norm_num),
    add dy (-1) b2 (by norm_num) (by norm_num), pure, Except.pure]
  have Xm := X (-1) (by norm_num) (by norm_num)
  have Ym := Y (-1) (by norm_num) (by norm_num)
  have X1 := X 1 (by norm_num) (by norm_num)
  have Y1 := Y 1 (by norm_num) (by norm_num)
  have X2 := X 2 (by norm_num) (by norm_num)
  have Y2 := Y 2 (by norm_num) (by norm_num)
  split
  · split
    · refine fin _ (by simp) fun p hp => ?_
      simp only [List.cons_append, List.nil_append, List.mem_cons, List.not_mem_nil, or_false] at hp
      rcases hp with rfl | rfl | rfl | rfl | rfl | rfl
      exacts [⟨X0, Y0⟩, ⟨X1, Y0⟩, ⟨X0, Y1⟩, ⟨X1, Y1⟩, ⟨X0, Y2⟩, ⟨X1, Y2⟩]
    · refine fin _ (by simp) fun p hp => ?_
      simp only [List.cons_append, List.nil_append, List.mem_cons, List.not_mem_nil, or_false] at hp
      rcases hp with rfl | rfl | rfl | rfl | rfl | rfl
      exacts [⟨X0, Y0⟩, ⟨X1, Y0⟩, ⟨X0, Y1⟩, ⟨X1, Y1⟩, ⟨Xm, Y0⟩, ⟨Xm, Y1⟩]
  · split
    · refine fin _ (by simp) fun p hp => ?_
      simp only [List.cons_append, List.nil_append, List.mem_cons, List.not_mem_nil, or_false] at hp
      rcases hp with rfl | rfl | rfl | rfl | rfl | rfl
      exacts [⟨X0, Y0⟩, ⟨X1, Y0⟩, ⟨X0, Y1⟩, ⟨X1, Y1⟩, ⟨X2, Y0⟩, ⟨X2, Y1⟩]
    · refine fin _ (by simp) fun p hp => ?_
      simp only [List.cons_append, List.nil_append, List.mem_cons, List.not_mem_nil, or_false] at hp
      rcases hp with rfl | rfl | rfl | rfl | rfl | rfl
      exacts [⟨X0, Y0⟩, ⟨X1, Y0⟩, ⟨X0, Y1⟩, ⟨X1, Y1⟩, ⟨X0, Ym⟩, ⟨X1, Ym⟩]

/-! ## Distances -/

theorem grid {m e k j : ℤ} (hm : |m| ≤ 2 ^ 24) (hk : j + 24 ≤ k) (h : (2:ℝ) ^ k < |(m:ℝ) * 2 ^ e| ∨ (|m| < 2 ^ 24 ∧ (2:ℝ) ^ k ≤ |(m:ℝ) * 2 ^ e|)) :
    ∃ n : ℤ, (m : ℝ) * 2 ^ e = n * 2 ^ (j + 1) := by
  have he : j + 1 ≤ e := by
    by_contra hc
    have h1 : (2:ℝ) ^ e ≤ 2 ^ j := two_pow_le (by omega)
    have h2 : (2:ℝ) ^ 24 * 2 ^ j ≤ 2 ^ k := by
      have : (2:ℝ) ^ 24 * 2 ^ j = 2 ^ (24 + j) := by rw [zpow_add₀ (by norm_num)]; norm_num
      rw [this]; exact two_pow_le (by omega)
    rw [abs_mul, abs_of_pos (pow_pos' e), ← Int.cast_abs] at h
    rcases h with h | ⟨h0, h⟩
    · have h3 : ((|m| : ℤ) : ℝ) ≤ 2 ^ 24 := by exact_mod_cast hm
      have := mul_le_mul h3 h1 (pow_pos' e).le (by norm_num)
      linarith
    · have h3 : ((|m| : ℤ) : ℝ) < 2 ^ 24 := by exact_mod_cast h0
      have := mul_lt_mul'' h3 (lt_of_le_of_ne h1 (by
        intro hh
        have := mul_lt_mul_of_pos_right h3 (pow_pos' j)
        rw [hh] at h
        linarith)) (by exact_mod_cast abs_nonneg m) (pow_pos' e).le
      linarith
  obtain ⟨n, hn⟩ := pow_mult he
  exact ⟨m * n, by push_cast; rw [mul_assoc, hn]⟩

/-- The difference of a coordinate and one of a pillar is zero or not small. -/
theorem diff_ok (hg : Reasonable w g) (hx : WithinMaze w x) {n : ℕ} (hn : (n : ℝ) * w ≤ 10) :
    ∃ d : ℝ, (arith exp).sub (.fin x) (.fin (round24 (n * w))) = .fin d ∧ |d| ≤ 2 ^ (4:ℤ) ∧ (x ≠ round24 (n * w) → 2 ^ (-29:ℤ) ≤ |d|) ∧
      (x = round24 (n * w) → d = 0) := by
  have hw0 : (0:ℝ) < w := lt_of_lt_of_le (by norm_num) hg.low
  have hx0 := hx.low
  have hx1 := hx.far
  have hp0 : 0 ≤ round24 (n * w) := round24_nonneg (by positivity)
  have hp1 : |round24 (n * w)| ≤ 10 := by
    refine round24_abs_le ?_ (by rw [abs_of_nonneg (by positivity)]; exact hn)
    have := round24_fix (m := 10) (e := 0) (by norm_num) (by norm_num)
    simpa using this
  rw [abs_of_nonneg hp0] at hp1
  have hz : |x - round24 (n * w)| ≤ 2 ^ (4:ℤ) := by rw [abs_le]; norm_num at hx0 ⊢; constructor <;> linarith
  have hr := round24_abs_le (round24_two (by norm_num)) hz
  refine ⟨round24 (x - round24 (n * w)), ?_, hr, ?_, ?_⟩
  · show rnd (x + -round24 (n * w)) = _
    rw [← sub_eq_add_neg]
    exact rnd_of_lt (hr.trans_lt (by norm_num))
  · intro hne
    obtain ⟨m, e, h1, -, -, h2⟩ := hx.f32
    obtain ⟨a, ha⟩ : ∃ a : ℤ, x = a * 2 ^ (-29:ℤ) := by
      rw [h2]
      refine grid (k := -6) (j := -30) h1.le (by norm_num) (.inr ⟨h1, ?_⟩)
      rw [← h2, abs_of_nonneg (le_trans (by norm_num) hx0)]
      norm_num at hx0 ⊢; exact hx0
    obtain ⟨b, hb⟩ : ∃ b : ℤ, round24 (n * w) = b * 2 ^ (-29:ℤ) := by
      rcases Nat.eq_zero_or_pos n with h0 | h0
      · refine ⟨0, ?_⟩
        rw [h0]; simp [round24_zero]
      · obtain ⟨m, e, h3, -, h4⟩ := round24_form (n * w)
        rw [h4]
        refine grid (k := -6) (j := -30) h3 (by norm_num) (.inl ?_)
        rw [← h4, abs_of_nonneg hp0]
        have h5 : (1:ℝ) ≤ n := by exact_mod_cast h0
        have h6 : (2:ℝ) ^ (-5:ℤ) ≤ n * w := by
          have := hg.low
          have h7 : (2:ℝ) ^ (-5:ℤ) = 1 / 2 ^ 5 := by norm_num
          rw [h7]
          nlinarith
        have := round24_mono h6
        rw [round24_two (by norm_num)] at this
        refine lt_of_lt_of_le ?_ this
        norm_num
    have hk : x - round24 (n * w) = ((a - b : ℤ) : ℝ) * 2 ^ (-29:ℤ) := by rw [ha, hb]; push_cast; ring
    have hab : a - b ≠ 0 := by
      intro h0
      rw [h0] at hk
      apply hne
      simp at hk
      linarith
    have h1 : (2:ℝ) ^ (-29:ℤ) ≤ |x - round24 (n * w)| := by
      rw [hk, abs_mul, abs_of_pos (pow_pos' _), ← Int.cast_abs]
      have : (1:ℝ) ≤ ((|a - b| : ℤ) : ℝ) := by exact_mod_cast Int.one_le_abs hab
      nlinarith [pow_pos' (-29)]
    rcases le_total 0 (x - round24 (n * w)) with h | h
    · rw [abs_of_nonneg h] at h1
      have := round24_mono h1
      rw [round24_two (by norm_num)] at this
      exact this.trans (le_abs_self _)
    · rw [abs_of_nonpos h] at h1
      have := round24_mono h1
      rw [round24_two (by norm_num), round24_neg] at this
      exact this.trans (neg_le_abs _)
  · intro h
    rw [h, sub_self, round24_zero]

/-! ## Constraints -/

/-- A number that is zero or not small. -/
def Apart (a : F) : Prop := ∃ r : ℝ, a = .fin r ∧ (r = 0 ∨ 2 ^ (-28:ℤ) ≤ |r|)

/-- What a constraint is like. -/
structure Bounded (c : F × F × F) : Prop where
  a1 : Mag 5 c.1
  a2 : Mag 5 c.2.1
  b : Mag 27 c.2.2
  apart1 : Apart c.1
  apart2 : Apart c.2.1

theorem num_two : Mag 1 (.fin 2) := mag_fin (by norm_num)
theorem num_four : Mag 2 (.fin 4) := mag_fin (by norm_num)

theorem double_apart {d : ℝ} (h : |d| ≤ 2 ^ (4:ℤ)) (h1 : d = 0 ∨ 2 ^ (-29:ℤ) ≤ |d|) : ∃ r : ℝ, (arith exp).mul (.fin 2) (.fin d) = .fin r ∧
    (d = 0 → r = 0) ∧ (d ≠ 0 → 2 ^ (-28:ℤ) ≤ |r|) := by
  have h2 : |2 * d| ≤ 2 ^ (5:ℤ) := by rw [abs_mul]; norm_num at h ⊢; linarith
  refine ⟨round24 (2 * d), rnd_of_lt ((round24_abs_le (round24_two (by norm_num)) h2).trans_lt (by norm_num)), ?_, ?_⟩
  · rintro rfl; simp [round24_zero]
  · intro h0
    have h3 : (2:ℝ) ^ (-28:ℤ) ≤ |2 * d| := by
      rw [abs_mul]
      have := h1.resolve_left h0
      have e : (2:ℝ) ^ (-28:ℤ) = 2 * 2 ^ (-29:ℤ) := by norm_num
      rw [e, show |(2:ℝ)| = 2 by norm_num]
      linarith
    rcases le_total 0 (2 * d) with h | h
    · rw [abs_of_nonneg h] at h3
      have := round24_mono h3
      rw [round24_two (by norm_num)] at this
      exact this.trans (le_abs_self _)
    · rw [abs_of_nonpos h] at h3
      have := round24_mono h3
      rw [round24_two (by norm_num), round24_neg] at this
      exact this.trans (neg_le_abs _)

theorem constraint_ok (hg : Reasonable w g) (hs : Stands w x y s) {p : F × F} (hp : Multiples w p) :
    Bounded (g.constraint (arith exp) s p) ∧
    ((g.constraint (arith exp) s p).1 = .fin 0 → (g.constraint (arith exp) s p).2.1 = .fin 0 → OnPillar w x y) := by
  obtain ⟨n, m, rfl, hn, hm⟩ := hp
  obtain ⟨ex, e1, b1, c1, d1⟩ := diff_ok (exp := exp) hg hs.inx hn
  obtain ⟨ey, e2, b2, c2, d2⟩ := diff_ok (exp := exp) hg hs.iny hm
  have mx : Mag 4 (.fin ex) := mag_fin b1
  have my : Mag 4 (.fin ey) := mag_fin b2
  have z1 : ex = 0 ∨ 2 ^ (-29:ℤ) ≤ |ex| := by
    by_cases h : x = round24 (n * w)
    · exact .inl (d1 h)
    · exact .inr (c1 h)
  have z2 : ey = 0 ∨ 2 ^ (-29:ℤ) ≤ |ey| := by
    by_cases h : y = round24 (m * w)
    · exact .inl (d2 h)
    · exact .inr (c2 h)
  obtain ⟨r1, f1, g1, h1⟩ := double_apart (exp := exp) b1 z1
  obtain ⟨r2, f2, g2, h2⟩ := double_apart (exp := exp) b2 z2
  unfold Supervisor.constraint
  rw [hs.atx, hs.aty]
  dsimp only
  rw [e1, e2]
  refine ⟨⟨?_, ?_, ?_, ?_, ?_⟩, ?_⟩
  · exact mag_mul (exp := exp) 5 num_two mx (by norm_num)
  · exact mag_mul (exp := exp) 5 num_two my (by norm_num)
  · have v1 := hs.vx
    have v2 := hs.vy
    have p1 := mag_mul (exp := exp) 14 num_two (mag_add (exp := exp) 13 (mag_mul (exp := exp) 12 v1 v1 (by norm_num)) (mag_mul (exp := exp) 12 v2 v2 (by norm_num)) (by norm_num)) (by norm_num)
    have p2 := mag_mul (exp := exp) 21 (mag_mul (exp := exp) 10 num_four hg.margin (by norm_num)) (mag_add (exp := exp) 11 (mag_mul (exp := exp) 10 mx v1 (by norm_num)) (mag_mul (exp := exp) 10 my v2 (by norm_num)) (by norm_num)) (by norm_num)
    have p3 := mag_mul (exp := exp) 26 (mag_mul (exp := exp) 16 hg.margin hg.margin (by norm_num))
      (mag_sub (exp := exp) 10 (mag_add (exp := exp) 9 (mag_mul (exp := exp) 8 mx mx (by norm_num)) (mag_mul (exp := exp) 8 my my (by norm_num)) (by norm_num))
        (mag_mul (exp := exp) 0 hg.avoidance hg.avoidance (by norm_num)) (by norm_num)) (by norm_num)
    exact mag_add (exp := exp) 27 (mag_add (exp := exp) 22 p1 p2 (by norm_num)) p3 (by norm_num)
  · rw [f1]
    refine ⟨r1, rfl, ?_⟩
    by_cases h : ex = 0
    · exact .inl (g1 h)
    · exact .inr (h1 h)
  · rw [f2]
    refine ⟨r2, rfl, ?_⟩
    by_cases h : ey = 0
    · exact .inl (g2 h)
    · exact .inr (h2 h)
  · rw [f1, f2]
    intro ha hb
    have ha : r1 = 0 := by injection ha
    have hb : r2 = 0 := by injection hb
    refine ⟨n, m, ?_, ?_⟩
    · by_contra h
      have h3 := c1 h
      have : ex ≠ 0 := by
        rintro rfl
        rw [abs_zero] at h3
        exact absurd h3 (not_le.2 (pow_pos' _))
      have := h1 this
      rw [ha, abs_zero] at this
      exact absurd this (not_le.2 (pow_pos' _))
    · by_contra h
      have h3 := c2 h
      have : ey ≠ 0 := by
        rintro rfl
        rw [abs_zero] at h3
        exact absurd h3 (not_le.2 (pow_pos' _))
      have := h2 this
      rw [hb, abs_zero] at this
      exact absurd this (not_le.2 (pow_pos' _))

theorem key_ok (hi : Asked i) {c : F × F × F} (hc : Bounded c) : Mag 28 (key (arith exp) i c) :=
  mag_add 28 (mag_add (exp := exp) 26 (mag_mul (exp := exp) 25 hc.a1 hi.ux (by norm_num)) (mag_mul (exp := exp) 25 hc.a2 hi.uy (by norm_num)) (by norm_num)) hc.b (by norm_num)

theorem _root_.Verif.Spec.Mag.notNan {k : ℤ} {a : F} (h : Mag k a) : ¬ a.isNan := by
  obtain ⟨r, rfl, -⟩ := h
  exact id

theorem pick_ok {A : Arith} : ∀ (l : List (F × F × F)), l ≠ [] → (∀ c ∈ l, ¬ (key A i c).isNan) → ∃ c ∈ l, pick A i l = .ok c := by
  have fold : ∀ (l : List (F × F × F)) (m : F × F × F), ¬ (key A i m).isNan → (∀ c ∈ l, ¬ (key A i c).isNan) →
      ∃ c ∈ m :: l, pick A i (m :: l) = .ok c := by
    intro l
    induction l with
    | nil => intro m _ _; exact ⟨m, by simp, rfl⟩
    | cons c l ih =>
      intro m hm h
      have hc := h c (by simp)
      have hl : ∀ c ∈ l, ¬ (key A i c).isNan := fun d hd => h d (by simp [hd])
      by_cases hlt : (key A i c).lt (key A i m)
      · obtain ⟨d, h1, h2⟩ := ih c hc hl
        refine ⟨d, List.mem_cons_of_mem _ h1, ?_⟩
        rw [← h2]
        unfold pick
        dsimp only
        rw [List.foldlM_cons, if_neg (by tauto), if_pos hlt]
        rfl
      · obtain ⟨d, h1, h2⟩ := ih m hm hl
        refine ⟨d, ?_, ?_⟩
        · rcases List.mem_cons.1 h1 with h | h
          · exact h ▸ List.mem_cons_self
          · exact List.mem_cons_of_mem _ (List.mem_cons_of_mem _ h)
        · rw [← h2]
          unfold pick
          dsimp only
          rw [List.foldlM_cons, if_neg (by tauto), if_neg hlt]
          rfl
  intro l hl h
  cases l with
  | nil => exact absurd rfl hl
  | cons m l => exact fold l m (h m (by simp)) fun c hc => h c (by simp [hc])

/-! ## The new acceleration -/

/-- A number between powers of two. -/
theorem between {a : ℝ} {K : ℤ} (h : |a| ≤ 2 ^ K) (hK : 0 ≤ K) : ∃ k : ℤ, -1 ≤ k ∧ k + 1 ≤ K ∧ |a| ≤ 2 ^ (k + 1) ∧ (k = -1 ∨ 2 ^ k ≤ |a|) := by
  obtain ⟨n, rfl⟩ := Int.eq_ofNat_of_zero_le hK
  clear hK
  induction n with
  | zero => exact ⟨-1, by norm_num, by norm_num, by simpa using h, .inl rfl⟩
  | succ n ih =>
    by_cases h' : |a| ≤ 2 ^ ((n : ℕ) : ℤ)
    · obtain ⟨k, h1, h2, h3, h4⟩ := ih h'
      exact ⟨k, h1, by push_cast; omega, h3, h4⟩
    · exact ⟨n, by omega, by push_cast; omega, by exact_mod_cast h, .inr (not_le.1 h').le⟩

theorem solve_ok {a1 a2 b u1 u2 : F} (h1 : Mag 5 a1) (h2 : Apart a2) (h20 : a2 ≠ .fin 0) (hb : Mag 27 b) (hu1 : Mag 20 u1) (hu2 : Mag 20 u2) :
    Mag 60 (solve (arith exp) a1 a2 b u1 u2).1 ∧ Mag 60 (solve (arith exp) a1 a2 b u1 u2).2 := by
  obtain ⟨r2, rfl, hr⟩ := h2
  have hr : (2:ℝ) ^ (-28:ℤ) ≤ |r2| := hr.resolve_left fun h => h20 (by rw [h])
  obtain ⟨a, ea, ha⟩ := mag_div (exp := exp) 33 (mag_neg h1) hr (by norm_num)
  obtain ⟨k, hk1, hk2, hk3, hk4⟩ := between ha (by norm_num)
  have mb := mag_div (exp := exp) 55 (mag_neg hb) hr (by norm_num)
  have ma : Mag (k + 1) (.fin a) := mag_fin hk3
  have mc := mag_add (exp := exp) (2 * k + 3) (mag_mul (exp := exp) (2 * k + 2) ma ma (by omega)) (mag_fin (k := 0) (a := 1) (by norm_num)) (by omega)
  have lc : ∃ c, (arith exp).add ((arith exp).mul (.fin a) (.fin a)) (.fin 1) = .fin c ∧ (2:ℝ) ^ (2 * k) ≤ c := by
    obtain ⟨q, eq, hq⟩ := mag_mul (exp := exp) (2 * k + 2) ma ma (by omega)
    obtain ⟨c, ec, hc⟩ := mc
    rw [eq] at ec
    have e1 : c = round24 (q + 1) := (rnd_fin ec).1
    have e2 : q = round24 (a * a) := (rnd_fin eq).1
    have q0 : 0 ≤ q := by rw [e2]; exact round24_nonneg (mul_self_nonneg a)
    refine ⟨c, by rw [eq]; exact ec, ?_⟩
    rcases hk4 with hk4 | hk4
    · have h : (2:ℝ) ^ (2 * k) ≤ q + 1 := by
        rw [hk4]
        have : (2:ℝ) ^ (2 * (-1) : ℤ) = 1 / 4 := by norm_num
        rw [this]; linarith
      have := round24_mono h
      rwa [round24_two (by omega), ← e1] at this
    · have h : (2:ℝ) ^ (2 * k) ≤ a * a := by
        have := mul_self_le_mul_self (pow_pos' k).le hk4
        rw [abs_mul_abs_self] at this
        rwa [two_mul, zpow_add₀ (by norm_num)]
      have h' := round24_mono h
      rw [round24_two (by omega), ← e2] at h'
      have h'' := round24_mono (show (2:ℝ) ^ (2 * k) ≤ q + 1 by linarith)
      rwa [round24_two (by omega), ← e1] at h''
  obtain ⟨c, ec, hc⟩ := lc
  rw [ec] at mc
  have ld : ∃ d, (arith exp).mul (.fin 2) (.fin c) = .fin d ∧ (2:ℝ) ^ (2 * k + 1) ≤ |d| := by
    obtain ⟨d, ed, -⟩ := mag_mul (exp := exp) (2 * k + 4) num_two mc (by omega)
    refine ⟨d, ed, ?_⟩
    have e1 : d = round24 (2 * c) := (rnd_fin ed).1
    have h : (2:ℝ) ^ (2 * k + 1) ≤ 2 * c := by
      rw [zpow_add_one₀ (by norm_num)]; linarith
    have := round24_mono h
    rw [round24_two (by omega), ← e1] at this
    exact this.trans (le_abs_self d)
  obtain ⟨d, ed, hd⟩ := ld
  have m2 := mag_mul (exp := exp) (k + 59) num_two (mag_sub (exp := exp) (k + 58) (mag_sub (exp := exp) (k + 57) (mag_mul (exp := exp) (k + 56) ma mb (by omega)) hu1 (by omega))
    (mag_mul (exp := exp) (k + 21) ma hu2 (by omega)) (by omega)) (by omega)
  have m3 := mag_div (exp := exp) (58 - k) (mag_neg m2) hd (by omega)
  have m4 := mag_add (exp := exp) 60 (mag_mul (exp := exp) 59 ma m3 (by omega)) mb (by norm_num)
  unfold solve
  dsimp only
  rw [ea, ec, ed]
  exact ⟨m3.weaken (by omega), m4⟩

/-! ## The new jerk -/

theorem square_sum {k : ℤ} {a b : F} (ha : Mag k a) (hb : Mag k b) (h : -70 ≤ k ∧ k ≤ 62) : ∃ r : ℝ,
    (arith exp).add ((arith exp).mul a a) ((arith exp).mul b b) = .fin r ∧ 0 ≤ r ∧ r ≤ 2 ^ (2 * (k + 1)) ∧
    ∀ j : ℤ, -70 ≤ j → (∃ c, (a = .fin c ∨ b = .fin c) ∧ 2 ^ j ≤ |c|) → 2 ^ (2 * j) ≤ r := by
  obtain ⟨q1, e1, h1⟩ := mag_mul (exp := exp) (2 * k) ha ha (by omega)
  obtain ⟨q2, e2, h2⟩ := mag_mul (exp := exp) (2 * k) hb hb (by omega)
  obtain ⟨r, e3, h3⟩ := mag_add (exp := exp) (2 * k + 1) (mag_fin h1) (mag_fin h2) (by omega)
  obtain ⟨a, rfl, -⟩ := ha
  obtain ⟨b, rfl, -⟩ := hb
  have f1 : q1 = round24 (a * a) := (rnd_fin e1).1
  have f2 : q2 = round24 (b * b) := (rnd_fin e2).1
  have f3 : r = round24 (q1 + q2) := (rnd_fin e3).1
  have n1 : 0 ≤ q1 := f1 ▸ round24_nonneg (mul_self_nonneg a)
  have n2 : 0 ≤ q2 := f2 ▸ round24_nonneg (mul_self_nonneg b)
  have n3 : 0 ≤ r := f3 ▸ round24_nonneg (by linarith)
  refine ⟨r, by rw [e1, e2, e3], n3, (le_abs_self r).trans (h3.trans (two_pow_le (by omega))), ?_⟩
  rintro j hj ⟨c, hc, hcj⟩
  have hcc : (2:ℝ) ^ (2 * j) ≤ c * c := by
    have := mul_self_le_mul_self (pow_pos' j).le hcj
    rw [abs_mul_abs_self] at this
    rwa [two_mul, zpow_add₀ (by norm_num)]
  have hr := round24_mono hcc
  rw [round24_two (by omega)] at hr
  have hsum : (2:ℝ) ^ (2 * j) ≤ q1 + q2 := by
    rcases hc with hc | hc
    · have hc : a = c := by injection hc
      rw [f1, hc]; rw [hc] at f1; linarith
    · have hc : b = c := by injection hc
      rw [f2, hc]; rw [hc] at f2; linarith
  have := round24_mono hsum
  rwa [round24_two (by omega), ← f3] at this

theorem jerk_ok (hL : SoundPlatform L) (hi : Asked i) {ux2 uy2 : F} (h1 : Mag 60 ux2) (h2 : Mag 60 uy2)
    (hr : ∃ c : ℝ, (i.ux = .fin c ∨ i.uy = .fin c) ∧ 2 ^ (-10:ℤ) ≤ |c|) :
    Mag 102 (newJerk (arith exp) L i ux2 uy2).1 ∧ Mag 102 (newJerk (arith exp) L i ux2 uy2).2 := by
  obtain ⟨r, e1, -, -, l1⟩ := square_sum (exp := exp) hi.ux hi.uy (by norm_num)
  obtain ⟨r2, e2, p2, u2, -⟩ := square_sum (exp := exp) h1 h2 (by norm_num)
  obtain ⟨dr, e3, p3, u3, -⟩ := square_sum (exp := exp) hi.dux hi.duy (by norm_num)
  obtain ⟨s1, f1, g1⟩ := hL.rootLow (-10) r (l1 (-10) (by norm_num) hr)
  obtain ⟨s2, f2, g2⟩ := hL.root 61 r2 p2 (by simpa using u2)
  obtain ⟨s3, f3, g3⟩ := hL.root 27 dr p3 (by simpa using u3)
  have g1 : (2:ℝ) ^ (-11:ℤ) ≤ |s1| := g1
  have g2 : |s2| ≤ (2:ℝ) ^ (62:ℤ) := g2
  have g3 : |s3| ≤ (2:ℝ) ^ (28:ℤ) := g3
  have ang : ∀ {k l : ℤ} {a b : F}, Mag k a → Mag l b → Mag 2 (L.atan2 b a) := by
    rintro k l a b ⟨a, rfl, -⟩ ⟨b, rfl, -⟩
    exact hL.atan2 b a
  have t1 := ang hi.ux hi.uy
  have t2 := ang h1 h2
  have t3 := ang hi.dux hi.duy
  obtain ⟨dt, e4, -⟩ := mag_sub (exp := exp) 4 (mag_add (exp := exp) 3 t3 t2 (by norm_num)) t1 (by norm_num)
  have m := mag_div (exp := exp) 101 (mag_mul (exp := exp) 90 (mag_fin (k := 28) g3) (mag_fin (k := 62) g2) (by norm_num)) (j := -11) g1 (by norm_num)
  unfold newJerk toPolar
  dsimp only
  rw [e1, e2, e3, e4, f1, f2, f3]
  exact ⟨mag_mul 102 m (hL.cos dt) (by norm_num), mag_mul 102 m (hL.sin dt) (by norm_num)⟩

open Classical in
/-- C122: for a robot in the maze, with any sound library, in single precision no `expect`, `assert!` or `unreachable!` of the supervisor fails, unless the
robot takes itself to be exactly on a pillar. The acceleration returned is a finite number, and so is the jerk, if it is not next to nothing that was asked for. -/
theorem C122_total (hL : SoundPlatform L) (hg : Reasonable w g) (hs : Stands w x y s) (hi : Asked i) :
    (∃ o, g.supervise (arith exp) L i s = .ok o ∧ Mag 60 o.ux ∧ Mag 60 o.uy ∧
      ((∃ c : ℝ, (i.ux = .fin c ∨ i.uy = .fin c) ∧ 2 ^ (-10:ℤ) ≤ |c|) → Mag 102 o.dux ∧ Mag 102 o.duy)) ∨
    (g.supervise (arith exp) L i s = .error .unreachable ∧ OnPillar w x y) := by
  obtain ⟨ps, e1, h1, h2⟩ := pillars_ok (exp := exp) hL hg hs.inx hs.iny
  have hb : ∀ c ∈ ps.map (g.constraint (arith exp) s), Bounded c ∧ (c.1 = .fin 0 → c.2.1 = .fin 0 → OnPillar w x y) := by
    intro c hc
    obtain ⟨p, hp, rfl⟩ := List.mem_map.1 hc
    exact constraint_ok hg hs (h2 p hp)
  obtain ⟨⟨a1, a2, b⟩, hc, e2⟩ := pick_ok (A := arith exp) (i := i) (ps.map (g.constraint (arith exp) s)) (by simpa using h1)
    fun c hc => (key_ok hi (hb c hc).1).notNan
  obtain ⟨hB, hP⟩ := hb _ hc
  have hrun : g.supervise (arith exp) L i s = Single.applyConstraints (arith exp) L i a1 a2 b := by
    unfold Supervisor.supervise
    rw [hs.atx, hs.aty, e1]
    simp only [bind, Except.bind]
    rw [e2]
  rw [hrun]
  unfold Single.applyConstraints
  rw [if_neg (by
    rintro (h | h | h)
    · exact hB.a1.notNan h
    · exact hB.a2.notNan h
    · exact hB.b.notNan h)]
  split
  · left
    exact ⟨i, rfl, hi.ux.weaken (by norm_num), hi.uy.weaken (by norm_num), fun _ => ⟨hi.dux.weaken (by norm_num), hi.duy.weaken (by norm_num)⟩⟩
  · have fin : ∀ u v : F, Mag 60 u → Mag 60 v →
        ∃ o : Input, (if u.isNan ∨ v.isNan then (.error .assert : R Input) else
          let (dux, duy) := newJerk (arith exp) L i u v
          pure ⟨u, v, dux, duy⟩) = .ok o ∧ Mag 60 o.ux ∧ Mag 60 o.uy ∧
        ((∃ c : ℝ, (i.ux = .fin c ∨ i.uy = .fin c) ∧ 2 ^ (-10:ℤ) ≤ |c|) → Mag 102 o.dux ∧ Mag 102 o.duy) := by
      intro u v hu hv
      rw [if_neg (by rintro (h | h); exacts [hu.notNan h, hv.notNan h])]
      exact ⟨_, rfl, hu, hv, fun h => jerk_ok hL hi hu hv h⟩
    by_cases h20 : a2 = .fin 0
    · by_cases h10 : a1 = .fin 0
      · right
        refine ⟨?_, hP h10 h20⟩
        rw [if_neg (by simpa using h20), if_neg (by simpa using h10)]
        rfl
      · left
        obtain ⟨p, q⟩ := solve_ok (exp := exp) hB.a2 hB.apart1 h10 hB.b hi.uy hi.ux
        rw [if_neg (by simpa using h20), if_pos (by simpa using h10)]
        exact fin _ _ q p
    · left
      obtain ⟨p, q⟩ := solve_ok (exp := exp) hB.a1 hB.apart2 h20 hB.b hi.ux hi.uy
      rw [if_pos (by simpa using h20)]
      exact fin _ _ p q

/-- The real functions are sound. -/
theorem sound_real : SoundPlatform (platformOf Control.Trig.real 3.14 (2 ^ 32 - 1)) where
  toFair := fair_real
  root k r h0 h := by
    refine ⟨Real.sqrt r, rfl, ?_⟩
    rw [abs_of_nonneg (Real.sqrt_nonneg r)]
    have : Real.sqrt r ≤ 2 ^ k := by
      rw [Real.sqrt_le_left (pow_pos' k).le, ← zpow_natCast, ← zpow_mul, mul_comm]
      exact h
    exact this.trans (two_pow_le (by omega))
  rootLow k r h := by
    refine ⟨Real.sqrt r, rfl, ?_⟩
    rw [abs_of_nonneg (Real.sqrt_nonneg r)]
    have : (2:ℝ) ^ k ≤ Real.sqrt r := by
      refine Real.le_sqrt_of_sq_le ?_
      rw [← zpow_natCast, ← zpow_mul, mul_comm]
      exact h
    exact (two_pow_le (by omega)).trans this
  atan2 y x := mag_fin (by
    have h1 := Complex.abs_arg_le_pi ⟨x, y⟩
    have h2 := Real.pi_le_four
    norm_num; linarith)
  mm r := ⟨r * 1000, rfl, by rw [mul_comm, sub_self, abs_zero]; exact abs_nonneg r⟩
  top := by norm_num [platformOf]

/-- A robot in the middle of its square with 1 m/s, asked to turn: the supervisor returns finite numbers. -/
example : ∃ o, (⟨.fin 100, .fin (1 / 16), .fin (3 / 32)⟩ : Supervisor).supervise (arith exp) (platformOf Control.Trig.real 3.14 (2 ^ 32 - 1))
    ⟨.fin 1, .fin 8, .fin 50, .fin 60⟩ ⟨⟨.fin (3 / 64), .fin 0, .fin 0⟩, ⟨.fin (3 / 64), .fin 1, .fin 0⟩, ⟨.fin 2, .fin 0, .fin 0⟩⟩ = .ok o ∧ Mag 60 o.ux ∧ Mag 102 o.dux := by
  have hin : WithinMaze (3 / 32) (3 / 64) := ⟨⟨3, -6, by norm_num, by norm_num, by norm_num, by norm_num⟩, by norm_num, by norm_num, by norm_num⟩
  have hs : Stands (3 / 32) (3 / 64) (3 / 64) ⟨⟨.fin (3 / 64), .fin 0, .fin 0⟩, ⟨.fin (3 / 64), .fin 1, .fin 0⟩, ⟨.fin 2, .fin 0, .fin 0⟩⟩ :=
    ⟨rfl, rfl, hin, hin, mag_fin (by norm_num), mag_fin (by norm_num)⟩
  have hg : Reasonable (3 / 32) ⟨.fin 100, .fin (1 / 16), .fin (3 / 32)⟩ :=
    ⟨rfl, by norm_num, by norm_num, mag_fin (by norm_num [abs_le]), mag_fin (by norm_num [abs_le])⟩
  have hi : Asked ⟨.fin 1, .fin 8, .fin 50, .fin 60⟩ :=
    ⟨mag_fin (by norm_num), mag_fin (by norm_num [abs_le]), mag_fin (by norm_num [abs_le]), mag_fin (by norm_num [abs_le])⟩
  rcases C122_total (exp := exp) sound_real hg hs hi with ⟨o, h1, h2, -, h4⟩ | ⟨-, n, m, h, -⟩
  · exact ⟨o, h1, h2, (h4 ⟨1, .inl rfl, by norm_num⟩).1⟩
  · exfalso
    rcases Nat.eq_zero_or_pos n with h0 | h0
    · rw [h0] at h; simp [round24_zero] at h
    · have h5 : (1:ℝ) ≤ n := by exact_mod_cast h0
      have h6 := round24_mono (show (2:ℝ) ^ (-4:ℤ) ≤ n * (3 / 32) by norm_num; linarith)
      rw [round24_two (by norm_num), ← h] at h6
      norm_num at h6

/-! ## In exact arithmetic -/

open Classical in
/-- C122: in exact arithmetic this is the supervisor of the real-number model. -/
theorem C122_same (T : Control.Trig) (pi : ℝ) (top : ℕ) (c : Control.Supervisor) (i : Control.TrackingInput) (s : Control.State)
    (hw : c.squareWidth * 1000 ≤ top) (hx : s.x.x * 1000 ≤ top) (hy : s.y.x * 1000 ≤ top) :
    (supervisorOf c).supervise exact (platformOf T pi top) (inputOf i) (stateOf s) = (c.supervise T i s).map supervisedOf := by
  have floor : ∀ v : ℝ, v ≤ top → asUsize top (.fin v) = Control.toUsize v := by
    intro v hv
    refine min_eq_left ?_
    have := Nat.floor_le_floor hv
    rwa [Nat.floor_natCast] at this
  have hq : ∀ v : ℝ, v * 1000 ≤ top → Single.remquof exact (platformOf T pi top) (.fin v) (.fin c.squareWidth) =
      (Control.remquof v c.squareWidth).map fun p => (p.1, F.fin p.2) := by
    intro v hv
    unfold Single.remquof Control.remquof
    have e1 : (platformOf T pi top).mm (.fin v) = .fin (v * 1000) := rfl
    have e2 : (platformOf T pi top).mm (.fin c.squareWidth) = .fin (c.squareWidth * 1000) := rfl
    have e3 : (platformOf T pi top).top = top := rfl
    dsimp only
    rw [e1, e2, e3, floor _ hv, floor _ hw]
    split
    · rfl
    · show Except.ok _ = Except.ok _
      rw [show exact.rnd (((Control.toUsize (v * 1000) / Control.toUsize (c.squareWidth * 1000) : ℕ) : ℝ)) = .fin _ from rfl, exact_mul, exact_sub]
  have hplace : ∀ p : ℤ × ℤ, (supervisorOf c).place exact p = (c.place p).map fun q => (F.fin q.1, F.fin q.2) := by
    intro p
    unfold Supervisor.place Control.Supervisor.place
    cases Control.addI8 p.1 1 with
    | error e => rfl
    | ok a =>
      cases Control.addI8 p.2 1 with
      | error e => rfl
      | ok b => rfl
  have hmap : ∀ l : List (ℤ × ℤ), l.mapM ((supervisorOf c).place exact) = (l.mapM c.place).map fun ps => ps.map fun q => (F.fin q.1, F.fin q.2) := by
    intro l
    induction l with
    | nil => rfl
    | cons p l ih =>
      rw [List.mapM_cons, List.mapM_cons, hplace, ih]
      cases c.place p with
      | error e => rfl
      | ok q =>
        cases l.mapM c.place with
        | error e => rfl
        | ok qs => rfl
  have hpil : (supervisorOf c).nearestPillars exact (platformOf T pi top) (.fin s.x.x) (.fin s.y.x) =
      (c.nearestPillars s.x.x s.y.x).map fun ps => ps.map fun q => (F.fin q.1, F.fin q.2) := by
    unfold Supervisor.nearestPillars Control.Supervisor.nearestPillars
    rw [show (supervisorOf c).squareWidth = .fin c.squareWidth from rfl, hq _ hx, hq _ hy]
    cases Control.remquof s.x.x c.squareWidth with
    | error e => rfl
    | ok a =>
      obtain ⟨dx, rx⟩ := a
      cases Control.remquof s.y.x c.squareWidth with
      | error e => rfl
      | ok b =>
        obtain ⟨dy, ry⟩ := b
        simp only [Except.map, bind, Except.bind]
        cases Control.addI8 dx 1 with
        | error e => rfl
        | ok dx1 =>
          simp only []
          cases Control.addI8 dy 1 with
          | error e => rfl
          | ok dy1 =>
            simp only [exact_sub]
            have d1 : (F.fin rx).lt (.fin ry) ↔ ry > rx := Iff.rfl
            have d2 : (F.fin (c.squareWidth - rx)).lt (.fin ry) ↔ ry > c.squareWidth - rx := Iff.rfl
            simp only [d1, d2]
            by_cases h1 : ry > rx <;> by_cases h2 : ry > c.squareWidth - rx <;> simp only [h1, h2, if_true, if_false]
            · cases Control.addI8 dy 2 with
              | error e => rfl
              | ok d => exact hmap _
            · cases Control.addI8 dx (-1) with
              | error e => rfl
              | ok d => exact hmap _
            · cases Control.addI8 dx 2 with
              | error e => rfl
              | ok d => exact hmap _
            · cases Control.addI8 dy (-1) with
              | error e => rfl
              | ok d => exact hmap _
  have hcon : ∀ q : ℝ × ℝ, (supervisorOf c).constraint exact (stateOf s) (F.fin q.1, F.fin q.2) =
      (F.fin (c.constraint s q).1, F.fin (c.constraint s q).2.1, F.fin (c.constraint s q).2.2) := by
    intro q
    unfold Supervisor.constraint Control.Supervisor.constraint supervisorOf stateOf axisStateOf
    dsimp only
    simp only [exact_mul, exact_sub, exact_add]
  have hkey : ∀ k : ℝ × ℝ × ℝ, key exact (inputOf i) (F.fin k.1, F.fin k.2.1, F.fin k.2.2) = .fin (k.1 * i.ux + k.2.1 * i.uy + k.2.2) := by
    intro k
    unfold key inputOf
    dsimp only
    simp only [exact_mul, exact_add]
  have hpick : ∀ l : List (ℝ × ℝ × ℝ), pick exact (inputOf i) (l.map fun k => (F.fin k.1, F.fin k.2.1, F.fin k.2.2)) =
      (unwrap (Control.minBy (fun (c : ℝ × ℝ × ℝ) => c.1 * i.ux + c.2.1 * i.uy + c.2.2) l)).map fun k => (F.fin k.1, F.fin k.2.1, F.fin k.2.2) := by
    intro l
    cases l with
    | nil => rfl
    | cons m l =>
      unfold pick Control.minBy
      simp only [List.map_cons]
      show _ = Except.ok _
      induction l generalizing m with
      | nil => rfl
      | cons k l ih =>
        rw [List.map_cons, List.foldlM_cons, List.foldl_cons, hkey, hkey, if_neg (by rintro (h | h) <;> exact h)]
        by_cases h : m.1 * i.ux + m.2.1 * i.uy + m.2.2 ≤ k.1 * i.ux + k.2.1 * i.uy + k.2.2
        · rw [if_neg (show ¬ (F.fin _).lt (.fin _) from not_lt.2 h), if_pos h]
          exact ih m
        · rw [if_pos (show (F.fin _).lt (.fin _) from not_le.1 h), if_neg h]
          exact ih k
  have happ : ∀ a1 a2 b : ℝ, Single.applyConstraints exact (platformOf T pi top) (inputOf i) (.fin a1) (.fin a2) (.fin b) =
      (Control.applyConstraints T i a1 a2 b).map supervisedOf := by
    intro a1 a2 b
    have hpol : ∀ x y : ℝ, Single.toPolar exact (platformOf T pi top) (.fin x) (.fin y) = (.fin (Control.toPolar x y).1, .fin (Control.toPolar x y).2) := by
      intro x y
      unfold Single.toPolar Control.toPolar
      rw [exact_mul, exact_mul, exact_add]
      rfl
    have hjerk : ∀ u v : ℝ, newJerk exact (platformOf T pi top) (inputOf i) (.fin u) (.fin v) =
        (exact.mul (exact.div (.fin ((Control.toPolar i.dux i.duy).1 * (Control.toPolar u v).1)) (.fin (Control.toPolar i.ux i.uy).1))
            (.fin (T.cos ((Control.toPolar i.dux i.duy).2 + (Control.toPolar u v).2 - (Control.toPolar i.ux i.uy).2))),
          exact.mul (exact.div (.fin ((Control.toPolar i.dux i.duy).1 * (Control.toPolar u v).1)) (.fin (Control.toPolar i.ux i.uy).1))
            (.fin (T.sin ((Control.toPolar i.dux i.duy).2 + (Control.toPolar u v).2 - (Control.toPolar i.ux i.uy).2)))) := by
      intro u v
      unfold newJerk inputOf
      dsimp only
      rw [hpol, hpol, hpol]
      dsimp only
      rw [exact_mul, exact_add, exact_sub]
      rfl
    have hsol : ∀ a1 a2 b u1 u2 : ℝ, a2 ≠ 0 → solve exact (.fin a1) (.fin a2) (.fin b) (.fin u1) (.fin u2) =
        (.fin (-(2 * (-a1 / a2 * (-b / a2) - u1 - -a1 / a2 * u2)) / (2 * (-a1 / a2 * (-a1 / a2) + 1))),
          .fin (-a1 / a2 * (-(2 * (-a1 / a2 * (-b / a2) - u1 - -a1 / a2 * u2)) / (2 * (-a1 / a2 * (-a1 / a2) + 1))) + -b / a2)) := by
      intro a1 a2 b u1 u2 h
      have hn : ∀ a : ℝ, (F.fin a).neg = .fin (-a) := fun _ => rfl
      unfold solve
      simp only [hn, exact_div _ _ h, exact_mul, exact_add, exact_sub]
      have h2 : 2 * (-a1 / a2 * (-a1 / a2) + 1) ≠ 0 := by
        have := mul_self_nonneg (-a1 / a2)
        intro h0
        linarith
      simp only [exact_div _ _ h2, exact_mul, exact_add]
    unfold Single.applyConstraints Control.applyConstraints
    rw [if_neg (by rintro (h | h | h) <;> exact h)]
    have hk := hkey (a1, a2, b)
    dsimp only at hk
    rw [hk]
    by_cases h : a1 * i.ux + a2 * i.uy + b ≥ 0
    · rw [if_pos h, if_pos (show (F.fin 0).le (.fin _) from h)]
      rfl
    · rw [if_neg h, if_neg (show ¬ (F.fin 0).le (.fin _) from h)]
      have f1 : (inputOf i).ux = .fin i.ux := rfl
      have f2 : (inputOf i).uy = .fin i.uy := rfl
      by_cases h2 : a2 = 0
      · by_cases h1 : a1 = 0
        · rw [if_neg (by simpa using h2), if_neg (by simpa using h1), if_neg (by simpa using h2), if_neg (by simpa using h1)]
          rfl
        · rw [if_neg (by simpa using h2), if_pos (by simpa using h1), if_neg (by simpa using h2), if_pos (by simpa using h1), f1, f2, hsol _ _ _ _ _ h1]
          simp only [bind, Except.bind, pure, Except.pure]
          rw [if_neg (by rintro (h | h) <;> exact h), hjerk]
          rfl
      · rw [if_pos (by simpa using h2), if_pos (by simpa using h2), f1, f2, hsol _ _ _ _ _ h2]
        simp only [bind, Except.bind, pure, Except.pure]
        rw [if_neg (by rintro (h | h) <;> exact h), hjerk]
        rfl
  unfold Supervisor.supervise Control.Supervisor.supervise
  rw [show (stateOf s).x.x = .fin s.x.x from rfl, show (stateOf s).y.x = .fin s.y.x from rfl, hpil]
  cases c.nearestPillars s.x.x s.y.x with
  | error e => rfl
  | ok ps =>
    simp only [Except.map, bind, Except.bind]
    have hm : (ps.map fun q => (F.fin q.1, F.fin q.2)).map ((supervisorOf c).constraint exact (stateOf s)) =
        (ps.map (c.constraint s)).map fun k => (F.fin k.1, F.fin k.2.1, F.fin k.2.2) := by
      rw [List.map_map, List.map_map]
      exact List.map_congr_left fun q _ => hcon q
    rw [hm, hpick]
    cases unwrap (Control.minBy (fun (c : ℝ × ℝ × ℝ) => c.1 * i.ux + c.2.1 * i.uy + c.2.2) (ps.map (c.constraint s))) with
    | error e => rfl
    | ok k => exact happ _ _ _

/-! ## Next to the border -/

theorem rnd_val (m e : ℤ) {v u : ℝ} (hv : v = m * 2 ^ e) (hu : u = m * 2 ^ e) (hm : |m| ≤ 2 ^ 24) (he : -149 ≤ e) (hb : e ≤ 100) : rnd v = .fin u := by
  rw [hv, hu]
  refine rnd_fix hm he ?_
  rw [abs_mul, abs_of_pos (pow_pos' e), ← Int.cast_abs]
  have h1 : ((|m| : ℤ) : ℝ) ≤ 2 ^ 24 := by exact_mod_cast hm
  have h2 := two_pow_le hb
  have h3 := mul_le_mul h1 h2 (pow_pos' e).le (by norm_num)
  exact lt_of_le_of_lt h3 (by norm_num)

theorem rnd_inf {v : ℝ} (h : 2 ^ 128 ≤ v) : rnd v = .pinf := by
  unfold rnd
  rw [if_pos]
  have := round24_mono h
  have e := round24_two (k := 128) (by norm_num)
  have e' : ((2:ℝ) ^ (128:ℤ)) = 2 ^ 128 := by norm_cast
  rw [e'] at e
  rwa [e] at this

theorem snap (n : ℤ) (hn : 1 ≤ |n| ∧ |n| ≤ 8) {v : ℝ} (h : |v - n / 8| ≤ 1 / 2 ^ 60) : rnd v = .fin (n / 8) := by
  have e8 : (n : ℝ) / 8 = n * 2 ^ (-3:ℤ) := by norm_num; ring
  have hF : IsF32 ((n : ℝ) / 8) := ⟨n, -3, by have := hn.2; omega, by norm_num, by norm_num, e8⟩
  have h1 := round24_nearest v _ hF
  rw [abs_sub_comm (n / 8 : ℝ)] at h1
  have n1 : (1:ℝ) ≤ |(n:ℝ)| := by rw [← Int.cast_abs]; exact_mod_cast hn.1
  have n2 : |(n:ℝ)| ≤ 8 := by rw [← Int.cast_abs]; exact_mod_cast hn.2
  have h2 : |round24 v - n / 8| ≤ 1 / 2 ^ 59 := by
    have := abs_sub_le (round24 v) v (n / 8)
    norm_num at h h1 ⊢; linarith
  have h3 : (2:ℝ) ^ (-4:ℤ) < |round24 v| := by
    have := abs_sub_abs_le_abs_sub (n / 8 : ℝ) (round24 v)
    rw [abs_sub_comm, abs_div, show |(8:ℝ)| = 8 by norm_num] at this
    norm_num at h2 ⊢; linarith
  have h4 : |round24 v| < 2 ^ 128 := by
    have := abs_sub_abs_le_abs_sub (round24 v) (n / 8 : ℝ)
    rw [abs_div, show |(8:ℝ)| = 8 by norm_num] at this
    norm_num at h2 ⊢; linarith
  rw [rnd_of_lt h4]
  obtain ⟨m, e, a1, -, a2⟩ := round24_form v
  obtain ⟨k, hk⟩ := grid (k := -4) (j := -28) (e := e) a1 (by norm_num) (.inl (by rw [← a2]; exact h3))
  rw [← a2] at hk
  have : round24 v - n / 8 = ((k - n * 2 ^ 24 : ℤ) : ℝ) * 2 ^ (-27:ℤ) := by rw [hk]; push_cast; norm_num; ring
  have h5 : k - n * 2 ^ 24 = 0 := by
    by_contra h0
    have h6 : (1:ℝ) ≤ |((k - n * 2 ^ 24 : ℤ) : ℝ)| := by rw [← Int.cast_abs]; exact_mod_cast Int.one_le_abs h0
    rw [this, abs_mul, abs_of_pos (pow_pos' _)] at h2
    have : (1:ℝ) * 2 ^ (-27:ℤ) ≤ 1 / 2 ^ 59 := (mul_le_mul_of_nonneg_right h6 (pow_pos' _).le).trans h2
    norm_num at this
  rw [h5] at this
  congr 1
  push_cast at this
  linarith

/-- A supervisor with squares of 1/8 m, a margin of 16 Hz and a distance of 1/8 m. -/
noncomputable def strict : Supervisor := ⟨.fin 16, .fin (1 / 8), .fin (1 / 8)⟩

/-- A robot at rest next to the border of the maze. -/
noncomputable def bordering : State := ⟨⟨.fin (1 / 16), .fin 0, .fin 0⟩, ⟨.fin (2 ^ (-100:ℤ)), .fin 0, .fin 0⟩, ⟨.fin 0, .fin 0, .fin 0⟩⟩

theorem strict_constraint {p1 p2 ex ey qx qy sum dif far : ℝ} (h1 : rnd (1 / 16 + -p1) = .fin ex) (h2 : rnd (2 ^ (-100:ℤ) + -p2) = .fin ey)
    (h5 : rnd (ex * ex) = .fin qx) (h6 : rnd (ey * ey) = .fin qy) (h7 : rnd (qx + qy) = .fin sum) (h8 : rnd (sum + -(1 / 64)) = .fin dif)
    (h9 : rnd (256 * dif) = .fin far) (h10 : rnd far = .fin far) :
    strict.constraint (arith exp) bordering (.fin p1, .fin p2) = (rnd (2 * ex), rnd (2 * ey), .fin far) := by
  have m : ∀ a b : ℝ, (arith exp).mul (.fin a) (.fin b) = rnd (a * b) := fun _ _ => rfl
  have a : ∀ a b : ℝ, (arith exp).add (.fin a) (.fin b) = rnd (a + b) := fun _ _ => rfl
  have d : ∀ a b : ℝ, (arith exp).sub (.fin a) (.fin b) = rnd (a + -b) := fun _ _ => rfl
  have z : rnd 0 = .fin 0 := rnd_val 0 0 (by norm_num) (by norm_num) (by norm_num) (by norm_num) (by norm_num)
  have r1 : rnd (16 * 16) = .fin 256 := rnd_val 256 0 (by norm_num) (by norm_num) (by norm_num) (by norm_num) (by norm_num)
  have r2 : rnd (1 / 8 * (1 / 8)) = .fin (1 / 64) := rnd_val 1 (-6) (by norm_num) (by norm_num) (by norm_num) (by norm_num) (by norm_num)
  have r3 : rnd (4 * 16) = .fin 64 := rnd_val 64 0 (by norm_num) (by norm_num) (by norm_num) (by norm_num) (by norm_num)
  unfold Supervisor.constraint strict bordering
  dsimp only
  simp only [m, a, d, h1, h2, h5, h6, h7, h8, h9, h10, mul_zero, zero_add, z, r1, r2, r3]

/-- C122: next to the line of the outer border the code does panic: the quotient by a tiny number overflows, and infinity by infinity is not a number. -/
theorem C122_border (L : Platform) (hmm : ∀ r : ℝ, L.mm (.fin r) = .fin (1000 * r)) (ht : 2 ^ 16 - 1 ≤ L.top) :
    strict.supervise (arith exp) L ⟨.fin 0, .fin 0, .fin 0, .fin 0⟩ bordering = .error .assert := by
  have m : ∀ a b : ℝ, (arith exp).mul (.fin a) (.fin b) = rnd (a * b) := fun _ _ => rfl
  have a : ∀ a b : ℝ, (arith exp).add (.fin a) (.fin b) = rnd (a + b) := fun _ _ => rfl
  have d : ∀ a b : ℝ, (arith exp).sub (.fin a) (.fin b) = rnd (a + -b) := fun _ _ => rfl
  have z : rnd 0 = .fin 0 := rnd_val 0 0 (by norm_num) (by norm_num) (by norm_num) (by norm_num) (by norm_num)
  have tpos := pow_pos' (-100)
  have tsmall : (2:ℝ) ^ (-100:ℤ) ≤ 1 / 2 ^ 30 := by norm_num
  have rt : rnd (2 ^ (-100:ℤ)) = .fin (2 ^ (-100:ℤ)) := rnd_val 1 (-100) (by norm_num) (by norm_num) (by norm_num) (by norm_num) (by norm_num)
  have q1 : Single.remquof (arith exp) L (.fin (1 / 16)) (.fin (1 / 8)) = .ok (0, .fin (1 / 16)) := by
    unfold Single.remquof
    rw [hmm, hmm]
    have e1 : asUsize L.top (.fin (1000 * (1 / 8))) = 125 := by
      show min ⌊(1000 * (1 / 8) : ℝ)⌋₊ L.top = 125
      rw [show (1000 * (1 / 8) : ℝ) = (125 : ℕ) by norm_num, Nat.floor_natCast]; omega
    have e2 : asUsize L.top (.fin (1000 * (1 / 16))) = 62 := by
      show min ⌊(1000 * (1 / 16) : ℝ)⌋₊ L.top = 62
      rw [show ⌊(1000 * (1 / 16) : ℝ)⌋₊ = 62 by rw [Nat.floor_eq_iff (by norm_num)]; norm_num]; omega
    dsimp only
    rw [e1, e2]
    norm_num [arith, z, Control.wrapI8]
    show (arith exp).sub _ ((arith exp).mul _ (.fin 0)) = _
    rw [m, mul_zero, z, d]
    exact rnd_val 1 (-4) (by norm_num) (by norm_num) (by norm_num) (by norm_num) (by norm_num)
  have q2 : Single.remquof (arith exp) L (.fin (2 ^ (-100:ℤ))) (.fin (1 / 8)) = .ok (0, .fin (2 ^ (-100:ℤ))) := by
    unfold Single.remquof
    rw [hmm, hmm]
    have e1 : asUsize L.top (.fin (1000 * (1 / 8))) = 125 := by
      show min ⌊(1000 * (1 / 8) : ℝ)⌋₊ L.top = 125
      rw [show (1000 * (1 / 8) : ℝ) = (125 : ℕ) by norm_num, Nat.floor_natCast]; omega
    have e2 : asUsize L.top (.fin (1000 * 2 ^ (-100:ℤ))) = 0 := by
      show min ⌊(1000 * 2 ^ (-100:ℤ) : ℝ)⌋₊ L.top = 0
      rw [Nat.floor_eq_zero.2 (by norm_num)]; exact Nat.zero_min _
    dsimp only
    rw [e1, e2]
    rw [if_neg (by norm_num)]
    have e3 : ((0 / 125 : ℕ) : ℝ) = 0 := by norm_num
    rw [e3, show (arith exp).rnd 0 = .fin 0 from z, m, mul_zero, z, d, neg_zero, add_zero, rt]
    rfl
  have pl : strict.nearestPillars (arith exp) L bordering.x.x bordering.y.x = .ok [(.fin (1 / 8), .fin (1 / 8)), (.fin (1 / 4), .fin (1 / 8)),
      (.fin (1 / 8), .fin (1 / 4)), (.fin (1 / 4), .fin (1 / 4)), (.fin (1 / 8), .fin 0), (.fin (1 / 4), .fin 0)] := by
    have s1 : rnd (1 / 8 + -(1 / 16)) = .fin (1 / 16) := rnd_val 1 (-4) (by norm_num) (by norm_num) (by norm_num) (by norm_num) (by norm_num)
    have n1 : ¬ (F.fin (1 / 16)).lt (.fin (2 ^ (-100:ℤ))) := not_lt.2 (by norm_num)
    have i0 : (arith exp).rnd ((0:ℤ):ℝ) = .fin 0 := by push_cast; exact z
    have i1 : (arith exp).rnd ((1:ℤ):ℝ) = .fin 1 := rnd_val 1 0 (by norm_num) (by norm_num) (by norm_num) (by norm_num) (by norm_num)
    have i2 : (arith exp).rnd ((2:ℤ):ℝ) = .fin 2 := rnd_val 2 0 (by norm_num) (by norm_num) (by norm_num) (by norm_num) (by norm_num)
    have w1 : rnd (1 * (1 / 8)) = .fin (1 / 8) := rnd_val 1 (-3) (by norm_num) (by norm_num) (by norm_num) (by norm_num) (by norm_num)
    have w2 : rnd (2 * (1 / 8)) = .fin (1 / 4) := rnd_val 1 (-2) (by norm_num) (by norm_num) (by norm_num) (by norm_num) (by norm_num)
    unfold Supervisor.nearestPillars
    rw [show strict.squareWidth = .fin (1 / 8) from rfl, show bordering.x.x = .fin (1 / 16) from rfl, show bordering.y.x = .fin (2 ^ (-100:ℤ)) from rfl, q1, q2]
    simp only [bind, Except.bind, pure, Except.pure]
    rw [show Control.addI8 0 1 = .ok 1 from rfl, d, s1]
    dsimp only
    rw [if_neg n1, if_neg n1, show Control.addI8 0 (-1) = .ok (-1) from rfl]
    simp only [List.cons_append, List.nil_append, List.mapM_cons, List.mapM_nil, Supervisor.place, bind, Except.bind, pure, Except.pure]
    rw [show Control.addI8 0 1 = .ok 1 from rfl, show Control.addI8 1 1 = .ok 2 from rfl, show Control.addI8 (-1) 1 = .ok 0 from rfl]
    simp only [i0, i1, i2, show strict.squareWidth = .fin (1 / 8) from rfl, m, w1, w2, zero_mul, z]
  have x1 : rnd (1 / 16 + -(1 / 8)) = .fin (-1 / 16) := rnd_val (-1) (-4) (by norm_num) (by norm_num) (by norm_num) (by norm_num) (by norm_num)
  have x2 : rnd (1 / 16 + -(1 / 4)) = .fin (-3 / 16) := rnd_val (-3) (-4) (by norm_num) (by norm_num) (by norm_num) (by norm_num) (by norm_num)
  have y1 : rnd (2 ^ (-100:ℤ) + -(1 / 8)) = .fin (-1 / 8) := by
    have := snap (-1) (by norm_num) (v := 2 ^ (-100:ℤ) + -(1 / 8)) (by push_cast; norm_num)
    simpa using this
  have y2 : rnd (2 ^ (-100:ℤ) + -(1 / 4)) = .fin (-1 / 4) := by
    have := snap (-2) (by norm_num) (v := 2 ^ (-100:ℤ) + -(1 / 4)) (by push_cast; norm_num)
    rw [this]; norm_num
  have y0 : rnd (2 ^ (-100:ℤ) + -0) = .fin (2 ^ (-100:ℤ)) := by rw [neg_zero, add_zero, rt]
  have yy : rnd (2 ^ (-100:ℤ) * 2 ^ (-100:ℤ)) = .fin 0 := by
    have h : round24 (2 ^ (-100:ℤ) * 2 ^ (-100:ℤ)) = 0 := by
      have h1 := round24_nearest (2 ^ (-100:ℤ) * 2 ^ (-100:ℤ)) 0 ⟨0, 0, by norm_num, by norm_num, by norm_num, by norm_num⟩
      obtain ⟨m, e, -, he, h2⟩ := round24_form (2 ^ (-100:ℤ) * 2 ^ (-100:ℤ))
      have e2 : (2:ℝ) ^ (-100:ℤ) * 2 ^ (-100:ℤ) = 2 ^ (-200:ℤ) := by rw [← zpow_add₀ (by norm_num)]; norm_num
      rw [e2] at h1 h2 ⊢
      rw [zero_sub, abs_neg, abs_of_pos (pow_pos' _)] at h1
      have h3 : |round24 (2 ^ (-200:ℤ))| ≤ 2 ^ (-199:ℤ) := by
        have := abs_sub_abs_le_abs_sub (round24 (2 ^ (-200:ℤ))) (2 ^ (-200:ℤ))
        rw [abs_of_pos (pow_pos' (-200))] at this
        have e3 : (2:ℝ) ^ (-199:ℤ) = 2 * 2 ^ (-200:ℤ) := by
          rw [show (-199:ℤ) = -200 + 1 by norm_num, zpow_add_one₀ (by norm_num)]; ring
        linarith
      rw [h2]
      by_contra h0
      have hm : m ≠ 0 := fun h => h0 (by rw [h]; simp)
      have h4 : (1:ℝ) ≤ |(m:ℝ)| := by rw [← Int.cast_abs]; exact_mod_cast Int.one_le_abs hm
      rw [h2, abs_mul, abs_of_pos (pow_pos' e)] at h3
      have h5 : (2:ℝ) ^ (-149:ℤ) ≤ 2 ^ (-199:ℤ) := (two_pow_le he).trans ((le_mul_of_one_le_left (pow_pos' e).le h4).trans h3)
      exact absurd h5 (not_le.2 (zpow_lt_zpow_right₀ (by norm_num) (by norm_num)))
    rw [rnd_of_lt (by rw [h]; norm_num), h]
  have v : ∀ (k : ℤ) {u : ℝ}, |k| ≤ 2 ^ 10 → u = k / 256 → rnd u = .fin (k / 256) := by
    intro k u h1 h2
    exact rnd_val k (-8) (by rw [h2]; norm_num; ring) (by norm_num; ring) (h1.trans (by norm_num)) (by norm_num) (by norm_num)
  have v1 : ∀ (k : ℤ) {u : ℝ}, |k| ≤ 2 ^ 10 → u = k → rnd u = .fin k := by
    intro k u h1 h2
    exact rnd_val k 0 (by rw [h2]; norm_num) (by norm_num) (h1.trans (by norm_num)) (by norm_num) (by norm_num)
  have c1 := strict_constraint (exp := exp) x1 y1 (v 1 (by norm_num) (by norm_num)) (v 4 (by norm_num) (by norm_num)) (v 5 (by norm_num) (by norm_num))
    (v 1 (by norm_num) (by norm_num)) (v1 1 (by norm_num) (by norm_num)) (v1 1 (by norm_num) (by norm_num))
  have c2 := strict_constraint (exp := exp) x2 y1 (v 9 (by norm_num) (by norm_num)) (v 4 (by norm_num) (by norm_num)) (v 13 (by norm_num) (by norm_num))
    (v 9 (by norm_num) (by norm_num)) (v1 9 (by norm_num) (by norm_num)) (v1 9 (by norm_num) (by norm_num))
  have c3 := strict_constraint (exp := exp) x1 y2 (v 1 (by norm_num) (by norm_num)) (v 16 (by norm_num) (by norm_num)) (v 17 (by norm_num) (by norm_num))
    (v 13 (by norm_num) (by norm_num)) (v1 13 (by norm_num) (by norm_num)) (v1 13 (by norm_num) (by norm_num))
  have c4 := strict_constraint (exp := exp) x2 y2 (v 9 (by norm_num) (by norm_num)) (v 16 (by norm_num) (by norm_num)) (v 25 (by norm_num) (by norm_num))
    (v 21 (by norm_num) (by norm_num)) (v1 21 (by norm_num) (by norm_num)) (v1 21 (by norm_num) (by norm_num))
  have c5 := strict_constraint (exp := exp) x1 y0 (v 1 (by norm_num) (by norm_num)) yy (v 1 (by norm_num) (by norm_num))
    (v (-3) (by norm_num) (by norm_num)) (v1 (-3) (by norm_num) (by norm_num)) (v1 (-3) (by norm_num) (by norm_num))
  have c6 := strict_constraint (exp := exp) x2 y0 (v 9 (by norm_num) (by norm_num)) yy (v 9 (by norm_num) (by norm_num))
    (v 5 (by norm_num) (by norm_num)) (v1 5 (by norm_num) (by norm_num)) (v1 5 (by norm_num) (by norm_num))
  have k1 : rnd (2 * (-1 / 16)) = .fin (-1 / 8) := rnd_val (-1) (-3) (by norm_num) (by norm_num) (by norm_num) (by norm_num) (by norm_num)
  have k2 : rnd (2 * (-3 / 16)) = .fin (-3 / 8) := rnd_val (-3) (-3) (by norm_num) (by norm_num) (by norm_num) (by norm_num) (by norm_num)
  have k3 : rnd (2 * (-1 / 8)) = .fin (-1 / 4) := rnd_val (-1) (-2) (by norm_num) (by norm_num) (by norm_num) (by norm_num) (by norm_num)
  have k4 : rnd (2 * (-1 / 4)) = .fin (-1 / 2) := rnd_val (-1) (-1) (by norm_num) (by norm_num) (by norm_num) (by norm_num) (by norm_num)
  have k5 : rnd (2 * 2 ^ (-100:ℤ)) = .fin (2 ^ (-99:ℤ)) := rnd_val 1 (-99) (by norm_num) (by norm_num) (by norm_num) (by norm_num) (by norm_num)
  rw [k1, k3] at c1
  rw [k2, k3] at c2
  rw [k1, k4] at c3
  rw [k2, k4] at c4
  rw [k1, k5] at c5
  rw [k2, k5] at c6
  have hkey : ∀ (a1 a2 : ℝ) (b : ℤ), |b| ≤ 2 ^ 10 → key (arith exp) ⟨.fin 0, .fin 0, .fin 0, .fin 0⟩ (.fin a1, .fin a2, .fin b) = .fin b := by
    intro a1 a2 b hb
    unfold key
    dsimp only
    rw [m, m, mul_zero, mul_zero, z, a, add_zero, z, a, zero_add]
    exact v1 b hb rfl
  unfold Supervisor.supervise
  rw [pl]
  simp only [bind, Except.bind, List.map_cons, List.map_nil, c1, c2, c3, c4, c5, c6]
  have step1 : ∀ (a1 a2 a1' a2' : ℝ) (b b' : ℤ) l, |b| ≤ 2 ^ 10 → |b'| ≤ 2 ^ 10 → b' < b →
      pick (arith exp) ⟨.fin 0, .fin 0, .fin 0, .fin 0⟩ ((.fin a1, .fin a2, .fin b) :: (.fin a1', .fin a2', .fin b') :: l) =
      pick (arith exp) ⟨.fin 0, .fin 0, .fin 0, .fin 0⟩ ((.fin a1', .fin a2', .fin b') :: l) := by
    intro a1 a2 a1' a2' b b' l h1 h2 h3
    unfold pick
    dsimp only
    rw [List.foldlM_cons, hkey _ _ _ h1, hkey _ _ _ h2, if_neg (by rintro (h | h) <;> exact h), if_pos (show (F.fin _).lt (.fin _) from by
      show (b' : ℝ) < b
      exact_mod_cast h3)]
    rfl
  have step2 : ∀ (a1 a2 a1' a2' : ℝ) (b b' : ℤ) l, |b| ≤ 2 ^ 10 → |b'| ≤ 2 ^ 10 → ¬ b' < b →
      pick (arith exp) ⟨.fin 0, .fin 0, .fin 0, .fin 0⟩ ((.fin a1, .fin a2, .fin b) :: (.fin a1', .fin a2', .fin b') :: l) =
      pick (arith exp) ⟨.fin 0, .fin 0, .fin 0, .fin 0⟩ ((.fin a1, .fin a2, .fin b) :: l) := by
    intro a1 a2 a1' a2' b b' l h1 h2 h3
    unfold pick
    dsimp only
    rw [List.foldlM_cons, hkey _ _ _ h1, hkey _ _ _ h2, if_neg (by rintro (h | h) <;> exact h), if_neg (show ¬ (F.fin _).lt (.fin _) from by
      show ¬ (b' : ℝ) < b
      exact_mod_cast h3)]
    rfl
  rw [step2 _ _ _ _ 1 9 _ (by norm_num) (by norm_num) (by norm_num), step2 _ _ _ _ 1 13 _ (by norm_num) (by norm_num) (by norm_num),
    step2 _ _ _ _ 1 21 _ (by norm_num) (by norm_num) (by norm_num), step1 _ _ _ _ 1 (-3) _ (by norm_num) (by norm_num) (by norm_num),
    step2 _ _ _ _ (-3) 5 _ (by norm_num) (by norm_num) (by norm_num)]
  show Single.applyConstraints (arith exp) L ⟨.fin 0, .fin 0, .fin 0, .fin 0⟩ (.fin (-1 / 8)) (.fin (2 ^ (-99:ℤ))) (.fin ((-3 : ℤ) : ℝ)) = .error .assert
  unfold Single.applyConstraints
  rw [if_neg (by rintro (h | h | h) <;> exact h), hkey _ _ _ (by norm_num), if_neg (show ¬ (F.fin 0).le (.fin _) from by
    show ¬ (0:ℝ) ≤ ((-3:ℤ):ℝ)
    norm_num), if_pos (by
    intro h
    injection h with h
    exact absurd h (pow_pos' _).ne')]
  have dv : ∀ p q : ℝ, q ≠ 0 → (arith exp).div (.fin p) (.fin q) = rnd (p / q) := by
    intro p q h
    unfold Arith.div
    dsimp only
    rw [if_neg h]
    rfl
  have s1 : solve (arith exp) (.fin (-1 / 8)) (.fin (2 ^ (-99:ℤ))) (.fin ((-3 : ℤ) : ℝ)) (.fin 0) (.fin 0) = (.nan, .nan) := by
    have n1 : ∀ r : ℝ, (F.fin r).neg = .fin (-r) := fun _ => rfl
    have d1 : rnd (-(-1 / 8) / 2 ^ (-99:ℤ)) = .fin (2 ^ (96:ℤ)) := rnd_val 1 96 (by norm_num) (by norm_num) (by norm_num) (by norm_num) (by norm_num)
    have d2 : rnd (-((-3:ℤ):ℝ) / 2 ^ (-99:ℤ)) = .fin (3 * 2 ^ (99:ℤ)) := rnd_val 3 99 (by norm_num) (by norm_num) (by norm_num) (by norm_num) (by norm_num)
    have d3 : rnd (2 ^ (96:ℤ) * 2 ^ (96:ℤ)) = .pinf := rnd_inf (by norm_num)
    have d4 : rnd (2 ^ (96:ℤ) * (3 * 2 ^ (99:ℤ))) = .pinf := rnd_inf (by norm_num)
    have i1 : ∀ r : ℝ, (arith exp).add .pinf (.fin r) = .pinf := fun _ => rfl
    have i2 : ∀ r : ℝ, (arith exp).sub .pinf (.fin r) = .pinf := fun _ => rfl
    have i3 : (arith exp).mul (.fin 2) .pinf = .pinf := by
      show F.infOf 2 = .pinf
      unfold F.infOf
      rw [if_pos (by norm_num)]
    have i4 : (arith exp).div F.pinf.neg .pinf = .nan := rfl
    unfold solve
    dsimp only
    simp only [n1, dv _ _ (pow_pos' (-99)).ne', d1, d2, m, d3, d4, mul_zero, z, i1, i2, i3, i4]
    rfl
  rw [s1]
  simp only [bind, Except.bind, pure, Except.pure]
  rw [if_pos (.inl trivial)]

end Verif.Props
