import Verif.Spec.Clock
import Verif.Props.Binary32
import Verif.Props.Iter
import Verif.Props.Curve
/-!
# C120: the clock of the trajectories in single precision
-/
namespace Verif.Props
open Verif Verif.Spec Verif.Binary32 Verif.Straight Verif.Control

/-! ## Adding a period to a time -/

/-- A time to which a period no longer adds anything. -/
theorem stall (e : ℤ) (he : -151 ≤ e) {p : ℝ} (h0 : 0 ≤ p) (h1 : p < 2 ^ (e + 1)) :
    round24 (2 ^ (e + 25) + p) = 2 ^ (e + 25) := by
  have a1 := pow_pos' (e + 25)
  have a2 : (2:ℝ) ^ (e + 1) ≤ 2 ^ (e + 25) := zpow_le_zpow_right₀ (by norm_num) (by omega)
  have hx : (0:ℝ) < 2 ^ (e + 25) + p := by linarith
  have hl : Int.log 2 (2 ^ (e + 25) + p) = e + 25 := by
    have b1 : e + 25 ≤ Int.log 2 (2 ^ (e + 25) + p) :=
      (Int.zpow_le_iff_le_log (by norm_num) hx).1 (by push_cast; linarith)
    have b2 : Int.log 2 (2 ^ (e + 25) + p) < e + 26 :=
      (Int.lt_zpow_iff_log_lt (by norm_num) hx).1 (by
        push_cast
        have : (2:ℝ) ^ (e + 26) = 2 ^ (e + 25) * 2 := by rw [← zpow_add_one₀ (by norm_num)]; ring_nf
        linarith)
    omega
  have hu : ulpExp (2 ^ (e + 25) + p) = e + 2 := by
    unfold ulpExp
    rw [abs_of_pos hx, hl]
    omega
  have c1 := pow_pos' (e + 2)
  have c2 : (2:ℝ) ^ (e + 25) = 2 ^ 23 * 2 ^ (e + 2) := by
    rw [← zpow_natCast, ← zpow_add₀ (by norm_num)]; congr 1; push_cast; ring
  have c3 : (2:ℝ) ^ (e + 1) = 2 ^ (e + 2) / 2 := by
    have : (2:ℝ) ^ (e + 2) = 2 ^ (e + 1) * 2 := by rw [← zpow_add_one₀ (by norm_num)]; ring_nf
    linarith
  unfold round24
  rw [hu]
  have hd : (2 ^ (e + 25) + p) / 2 ^ (e + 2) = ((2 ^ 23 : ℤ) : ℝ) + p / 2 ^ (e + 2) := by
    rw [c2, add_div, mul_div_assoc, div_self c1.ne']; norm_num
  have hq0 : 0 ≤ p / 2 ^ (e + 2) := div_nonneg h0 c1.le
  have hq1 : p / 2 ^ (e + 2) < 1 / 2 := by rw [div_lt_iff₀ c1]; linarith
  have hf : ⌊p / (2:ℝ) ^ (e + 2)⌋ = 0 := by rw [Int.floor_eq_zero_iff]; exact ⟨hq0, by linarith⟩
  have hr : roundEven ((2 ^ (e + 25) + p) / 2 ^ (e + 2)) = 2 ^ 23 := by
    unfold roundEven
    rw [hd, Int.fract_intCast_add, if_pos (by rw [Int.fract, hf]; simpa using hq1), Int.floor_intCast_add, hf]
    norm_num
  rw [hr, c2]; norm_num

/-- The times in single precision, as real numbers. -/
noncomputable def clock32 (p : ℝ) : ℕ → ℝ
  | 0 => 0
  | n + 1 => round24 (clock32 p n + p)

/-- What is asked of a period: a normal number of single precision, not astronomically large. -/
structure IsPeriod (p : ℝ) : Prop where
  low : 1 / 2 ^ 126 ≤ p
  high : p ≤ 2 ^ 100

theorem IsPeriod.pos {p : ℝ} (h : IsPeriod p) : 0 < p := lt_of_lt_of_le (by positivity) h.low

theorem IsPeriod.exponent {p : ℝ} (h : IsPeriod p) : ∃ e : ℤ, -126 ≤ e ∧ e ≤ 100 ∧ (2:ℝ) ^ e ≤ p ∧ p < 2 ^ (e + 1) := by
  refine ⟨Int.log 2 p, ?_, ?_, ?_, ?_⟩
  · refine (Int.zpow_le_iff_le_log (by norm_num) h.pos).1 ?_
    have := h.low
    push_cast
    rw [zpow_neg, ← one_div]
    exact_mod_cast this
  · have := (Int.lt_zpow_iff_log_lt (b := 2) (x := 101) (by norm_num) h.pos).1 (by
      have := h.high
      push_cast
      have : (2:ℝ) ^ (101:ℤ) = 2 ^ 100 * 2 := by norm_num
      have := pow_pos (show (0:ℝ) < 2 by norm_num) 100
      linarith)
    omega
  · exact_mod_cast Int.zpow_log_le_self (b := 2) (by norm_num) h.pos
  · exact_mod_cast Int.lt_zpow_succ_log_self (b := 2) (by norm_num) p

theorem clock_le {p : ℝ} (h : IsPeriod p) {e : ℤ} (he : -126 ≤ e) (h1 : p < 2 ^ (e + 1)) (n : ℕ) :
    0 ≤ clock32 p n ∧ clock32 p n ≤ 2 ^ (e + 25) := by
  induction n with
  | zero => exact ⟨le_rfl, (pow_pos' _).le⟩
  | succ n ih =>
    refine ⟨round24_nonneg (by have := h.pos; linarith [ih.1]), ?_⟩
    calc clock32 p (n + 1) = round24 (clock32 p n + p) := rfl
      _ ≤ round24 (2 ^ (e + 25) + p) := round24_mono (by linarith [ih.2])
      _ = 2 ^ (e + 25) := stall e (by omega) h.pos.le h1

theorem clock_bound {p : ℝ} (h : IsPeriod p) (n : ℕ) : 0 ≤ clock32 p n ∧ clock32 p n ≤ 2 ^ 25 * p ∧ clock32 p n < 2 ^ 128 := by
  obtain ⟨e, e1, e2, h1, h2⟩ := h.exponent
  obtain ⟨a, b⟩ := clock_le h e1 h2 n
  have c : (2:ℝ) ^ (e + 25) = 2 ^ e * 2 ^ 25 := by rw [zpow_add₀ (by norm_num)]; norm_num
  have d : (2:ℝ) ^ (e + 25) ≤ 2 ^ (125:ℤ) := zpow_le_zpow_right₀ (by norm_num) (by omega)
  have d' : (2:ℝ) ^ (125:ℤ) < 2 ^ 128 := by norm_num
  refine ⟨a, ?_, by linarith⟩
  rw [c] at b
  linarith

theorem ticks_eq (exp : F → F) {p : ℝ} (h : IsPeriod p) (n : ℕ) : ticks (arith exp) (.fin p) n = .fin (clock32 p n) := by
  induction n with
  | zero => rfl
  | succ n ih =>
    rw [ticks, ih]
    show rnd (clock32 p n + p) = _
    have b := clock_bound h (n + 1)
    exact rnd_of_lt (by rw [show round24 (clock32 p n + p) = clock32 p (n + 1) from rfl, abs_of_nonneg b.1]; exact b.2.2)

theorem clock_fix {p : ℝ} (n : ℕ) : round24 (clock32 p n) = clock32 p n := by
  cases n with
  | zero => exact round24_zero
  | succ n => exact round24_idem _

theorem clock_step {p : ℝ} (h : IsPeriod p) (n : ℕ) : clock32 p n ≤ clock32 p (n + 1) := by
  calc clock32 p n = round24 (clock32 p n) := (clock_fix n).symm
    _ ≤ _ := round24_mono (by have := h.pos; linarith)

theorem clock_mono {p : ℝ} (h : IsPeriod p) : Monotone (clock32 p) := monotone_nat_of_le_succ (clock_step h)

theorem clock_err {p : ℝ} (h : IsPeriod p) (n : ℕ) :
    |clock32 p (n + 1) - (clock32 p n + p)| ≤ (clock32 p n + p) / 2 ^ 24 := by
  have a := (clock_bound h n).1
  have hp := h.pos
  have := round24_rel (clock32 p n + p)
  rw [abs_of_nonneg (show (0:ℝ) ≤ clock32 p n + p by linarith), max_eq_left] at this
  · exact this
  · rw [le_div_iff₀ (by positivity)]
    calc (1:ℝ) / 2 ^ 150 * 2 ^ 24 = 1 / 2 ^ 126 := by norm_num
      _ ≤ p := h.low
      _ ≤ _ := by linarith

theorem clock_grows {p : ℝ} (h : IsPeriod p) (n : ℕ) (hn : clock32 p n < (2 ^ 24 - 1) * p) : clock32 p n < clock32 p (n + 1) := by
  have := (abs_le.1 (clock_err h n)).1
  have h24 : (0:ℝ) < 2 ^ 24 := by positivity
  have e : (clock32 p n + p) / 2 ^ 24 < p := by rw [div_lt_iff₀ h24]; linarith
  linarith

theorem clock_lag {p : ℝ} (h : IsPeriod p) (n : ℕ) (hn : n ≤ 2 ^ 24) : |clock32 p n - n * p| ≤ lateness p n := by
  induction n with
  | zero => simp [clock32, lateness]
  | succ n ih =>
    have ih := ih (by omega)
    have e := clock_err h n
    have hp := h.pos
    have hn' : (n:ℝ) ≤ 2 ^ 24 := by
      have : n ≤ 2 ^ 24 := by omega
      exact_mod_cast this
    have hn0 : (0:ℝ) ≤ n := Nat.cast_nonneg n
    have s : clock32 p n ≤ n * p + lateness p n := by linarith [(abs_le.1 ih).2]
    have t : |clock32 p (n + 1) - ((n + 1 : ℕ) : ℝ) * p| ≤ lateness p n + (n * p + lateness p n + p) / 2 ^ 24 := by
      have t1 : clock32 p (n + 1) - ((n + 1 : ℕ) : ℝ) * p
          = (clock32 p (n + 1) - (clock32 p n + p)) + (clock32 p n - n * p) := by push_cast; ring
      rw [t1]
      have t2 : (clock32 p n + p) / 2 ^ 24 ≤ (n * p + lateness p n + p) / 2 ^ 24 := by
        refine div_le_div_of_nonneg_right ?_ (by positivity)
        linarith
      linarith [abs_add_le (clock32 p (n + 1) - (clock32 p n + p)) (clock32 p n - n * p)]
    refine t.trans ?_
    have key : lateness p (n + 1) - (lateness p n + (n * p + lateness p n + p) / 2 ^ 24)
        = (n + 1) * (p / 2 ^ 24) * ((n + 1) / 2 ^ 24 - (n / 2 ^ 24) * (n / 2 ^ 24) / 2) := by
      unfold lateness; push_cast; ring
    have q0 : (0:ℝ) ≤ n / 2 ^ 24 := by positivity
    have q1 : (n:ℝ) / 2 ^ 24 ≤ 1 := by rw [div_le_one (by positivity)]; exact hn'
    have q2 : (n:ℝ) / 2 ^ 24 * (n / 2 ^ 24) ≤ n / 2 ^ 24 * 1 := mul_le_mul_of_nonneg_left q1 q0
    have q3 : (0:ℝ) ≤ ((n:ℝ) + 1) / 2 ^ 24 - (n / 2 ^ 24) * (n / 2 ^ 24) / 2 := by
      have : ((n:ℝ) + 1) / 2 ^ 24 = n / 2 ^ 24 + 1 / 2 ^ 24 := by ring
      have : (0:ℝ) < 1 / 2 ^ 24 := by positivity
      linarith
    have q4 : (0:ℝ) ≤ (n + 1) * (p / 2 ^ 24) := by positivity
    have := mul_nonneg q4 q3
    linarith

theorem clock_constant {p : ℝ} (h : IsPeriod p) : ∃ N, ∀ n, N ≤ n → clock32 p n = clock32 p N := by
  -- the times are multiples of the smallest positive number
  have hz : ∀ n, ∃ z : ℤ, clock32 p n = z * 2 ^ (-149 : ℤ) := by
    intro n
    obtain ⟨m, e, -, he, hx⟩ := round24_form (clock32 p n)
    rw [clock_fix] at hx
    obtain ⟨k, hk⟩ := pow_mult he
    exact ⟨m * k, by rw [hx, ← hk]; push_cast; ring⟩
  choose z hz using hz
  have hpos := pow_pos' (-149)
  have hb : ∀ n, z n ≤ ⌈2 ^ 25 * p / 2 ^ (-149 : ℤ)⌉ := by
    intro n
    have := (clock_bound h n).2.1
    rw [hz n] at this
    exact_mod_cast ((le_div_iff₀ hpos).2 this).trans (Int.le_ceil _)
  obtain ⟨ub, ⟨N, hN⟩, hub⟩ := Int.exists_greatest_of_bdd (P := fun k => ∃ n, z n = k) ⟨_, fun k hk => by
    obtain ⟨n, rfl⟩ := hk; exact hb n⟩ ⟨z 0, 0, rfl⟩
  refine ⟨N, fun n hn => le_antisymm ?_ (clock_mono h hn)⟩
  rw [hz n, hz N]
  refine mul_le_mul_of_nonneg_right ?_ hpos.le
  exact_mod_cast (hN ▸ hub (z n) ⟨n, rfl⟩)

/-! ## C120 -/

/-- C120: the clock never runs backwards and stays a number, at most `2^25` periods. -/
theorem C120_steady (exp : F → F) {p : ℝ} (h : IsPeriod p) (n : ℕ) : ∃ s s' : ℝ, ticks (arith exp) (.fin p) n = .fin s ∧
    ticks (arith exp) (.fin p) (n + 1) = .fin s' ∧ 0 ≤ s ∧ s ≤ s' ∧ s' ≤ 2 ^ 25 * p ∧ (s < (2 ^ 24 - 1) * p → s < s') :=
  ⟨_, _, ticks_eq exp h n, ticks_eq exp h (n + 1), (clock_bound h n).1, clock_step h n, (clock_bound h (n + 1)).2.1,
    clock_grows h n⟩

/-- C120: after `n` periods the clock is wrong by at most `lateness p n`. -/
theorem C120_lag (exp : F → F) {p : ℝ} (h : IsPeriod p) {n : ℕ} (hn : n ≤ 2 ^ 24) :
    ∃ s : ℝ, ticks (arith exp) (.fin p) n = .fin s ∧ |s - n * p| ≤ lateness p n := ⟨_, ticks_eq exp h n, clock_lag h n hn⟩

/-- C120: it is right as long as the multiples of the period have at most 24 binary digits. -/
theorem C120_exact (exp : F → F) {m e : ℤ} (h : IsPeriod (m * 2 ^ e)) (he : -149 ≤ e) (n : ℕ) (hn : n * m ≤ 2 ^ 24) :
    ticks (arith exp) (.fin (m * 2 ^ e)) n = .fin (n * (m * 2 ^ e)) := by
  have hm : 0 < m := by
    have := h.pos
    have := (mul_pos_iff_of_pos_right (pow_pos' e)).1 this
    exact_mod_cast this
  rw [ticks_eq exp h]
  congr 1
  induction n with
  | zero => simp [clock32]
  | succ n ih =>
    have hn' : (n:ℤ) * m ≤ 2 ^ 24 := by push_cast at hn; nlinarith
    rw [clock32, ih hn']
    have := round24_fix (m := (n + 1 : ℤ) * m) (e := e) (by
      rw [abs_of_nonneg (by positivity)]
      exact_mod_cast hn) he
    push_cast at this ⊢
    rw [show (n:ℝ) * (m * 2 ^ e) + m * 2 ^ e = (n + 1) * m * 2 ^ e by ring, this]; ring

/-- C120: sooner or later the clock stands still, at a time between `2^24 - 1` and `2^25` periods. -/
theorem C120_stands (exp : F → F) {p : ℝ} (h : IsPeriod p) : ∃ N, ∃ s : ℝ, (2 ^ 24 - 1) * p ≤ s ∧ s ≤ 2 ^ 25 * p ∧
    ∀ n, N ≤ n → ticks (arith exp) (.fin p) n = .fin s := by
  obtain ⟨N, hN⟩ := clock_constant h
  refine ⟨N, clock32 p N, ?_, (clock_bound h N).2.1, fun n hn => by rw [ticks_eq exp h, hN n hn]⟩
  by_contra hc
  have := clock_grows h N (not_le.1 hc)
  have := hN (N + 1) (by omega)
  linarith

theorem clock_next (exp : F → F) {p : ℝ} (h : IsPeriod p) (r : F) (k : ℕ) (hk : ¬ r.lt (.fin (clock32 p k))) :
    Clock.next (arith exp) ⟨.fin (clock32 p k), r, .fin p⟩ = (some (.fin (clock32 p k)), ⟨.fin (clock32 p (k + 1)), r, .fin p⟩) := by
  unfold Clock.next
  rw [if_neg hk]
  dsimp only
  rw [← ticks_eq exp h k, ← ticks_eq exp h (k + 1)]
  rfl

/-- C120: so a trajectory of at least `2^25` periods never ends in single precision. -/
theorem C120_endless (exp : F → F) {p r : ℝ} (h : IsPeriod p) (hr : 2 ^ 25 * p ≤ r) (n : ℕ) :
    outputs (Clock.next (arith exp)) n (Clock.new (.fin r) (.fin p)) =
      (List.range n).map fun k => some (ticks (arith exp) (.fin p) k) := by
  have key := out_infinite (Clock.next (arith exp)) (fun k => ⟨.fin (clock32 p k), .fin r, .fin p⟩)
    (fun k => .fin (clock32 p k)) (fun k => clock_next exp h _ k (by
      show ¬ r < clock32 p k
      have := (clock_bound h k).2.1
      linarith)) n 0
  simp only [zero_add] at key
  simp only [ticks_eq exp h]
  exact key

theorem clock_outputs (exp : F → F) {p r : ℝ} (h : IsPeriod p) (N : ℕ) (h1 : ∀ k, k < N → clock32 p k ≤ r)
    (h2 : r < clock32 p N) (n : ℕ) : outputs (Clock.next (arith exp)) n (Clock.new (.fin r) (.fin p)) =
      (List.range n).map fun k => if k < N then some (ticks (arith exp) (.fin p) k) else none := by
  have key := out_finite (Clock.next (arith exp)) (fun k => ⟨.fin (clock32 p k), .fin r, .fin p⟩)
    (fun k => .fin (clock32 p k)) N (fun k hk => clock_next exp h _ k (not_lt.2 (h1 k hk))) (fun k hk => by
      unfold Clock.next
      rw [if_pos (show (F.fin r).lt (.fin (clock32 p k)) from h2.trans_le (clock_mono h hk))]) n 0
  simp only [zero_add] at key
  simp only [ticks_eq exp h]
  exact key

/-- C120: a trajectory whose end is not too near to a multiple of the period has as many targets in single precision as
with exact arithmetic, and then ends. -/
theorem C120_count (exp : F → F) {p r : ℝ} (h : IsPeriod p) {m : ℕ} (hm : m < 2 ^ 24) (h1 : m * p + lateness p m ≤ r)
    (h2 : r < (m + 1) * p - lateness p (m + 1)) (n : ℕ) :
    m = ⌊r / p⌋₊ ∧ outputs (Clock.next (arith exp)) n (Clock.new (.fin r) (.fin p)) =
      (List.range n).map fun k => if k < m + 1 then some (ticks (arith exp) (.fin p) k) else none := by
  have hp := h.pos
  have l0 : ∀ k, 0 ≤ lateness p k := fun k => by unfold lateness; positivity
  constructor
  · symm
    rw [Nat.floor_eq_iff (div_nonneg (by have := l0 m; have : (0:ℝ) ≤ m * p := by positivity
                                         linarith) hp.le), le_div_iff₀ hp, div_lt_iff₀ hp]
    exact ⟨by linarith [l0 m], by linarith [l0 (m + 1)]⟩
  · refine clock_outputs exp h (m + 1) (fun k hk => ?_) ?_ n
    · have a := clock_mono h (show k ≤ m by omega)
      linarith [(abs_le.1 (clock_lag h m hm.le)).2]
    · have := (abs_le.1 (clock_lag h (m + 1) hm)).1
      push_cast at this
      linarith

/-- C120: every trajectory shorter than `2^24 - 1` periods ends in single precision. -/
theorem C120_ends (exp : F → F) {p r : ℝ} (h : IsPeriod p) (hr : r < (2 ^ 24 - 1) * p) : ∃ N, ∀ n,
    outputs (Clock.next (arith exp)) n (Clock.new (.fin r) (.fin p)) =
      (List.range n).map fun k => if k < N then some (ticks (arith exp) (.fin p) k) else none := by
  obtain ⟨M, s, hs, -, hM⟩ := C120_stands exp h
  have hex : ∃ N, r < clock32 p N := by
    refine ⟨M, ?_⟩
    have := hM M le_rfl
    rw [ticks_eq exp h, F.fin.injEq] at this
    linarith
  classical
  exact ⟨Nat.find hex, fun n => clock_outputs exp h _ (fun k hk => not_lt.1 (Nat.find_min hex hk)) (Nat.find_spec hex) n⟩

/-- C120: the number of targets is off by at most one as long as the clock is wrong by at most a period. -/
theorem C120_near (exp : F → F) {p r : ℝ} (h : IsPeriod p) (hr : 0 ≤ r) (hl : lateness p (⌊r / p⌋₊ + 2) ≤ p)
    (hm : ⌊r / p⌋₊ + 2 ≤ 2 ^ 24) : ∃ N, ⌊r / p⌋₊ ≤ N ∧ N ≤ ⌊r / p⌋₊ + 2 ∧ ∀ n,
    outputs (Clock.next (arith exp)) n (Clock.new (.fin r) (.fin p)) =
      (List.range n).map fun k => if k < N then some (ticks (arith exp) (.fin p) k) else none := by
  have hp := h.pos
  obtain ⟨m, hmm⟩ : ∃ m, m = ⌊r / p⌋₊ := ⟨_, rfl⟩
  rw [← hmm] at hl hm ⊢
  have f1 : m * p ≤ r := by
    have := Nat.floor_le (div_nonneg hr hp.le)
    rwa [← hmm, le_div_iff₀ hp] at this
  have f2 : r < (m + 1) * p := by
    have := Nat.lt_floor_add_one (r / p)
    rwa [← hmm, div_lt_iff₀ hp] at this
  have hex : ∃ N, r < clock32 p N := by
    refine ⟨m + 2, ?_⟩
    have := (abs_le.1 (clock_lag h (m + 2) hm)).1
    push_cast at this
    linarith
  classical
  refine ⟨Nat.find hex, ?_, ?_, fun n => clock_outputs exp h _ (fun k hk => not_lt.1 (Nat.find_min hex hk)) (Nat.find_spec hex) n⟩
  · by_contra hc
    obtain ⟨q, rfl⟩ : ∃ q, m = q + 1 := ⟨m - 1, by omega⟩
    have a := Nat.find_spec hex
    have b := clock_mono h (show Nat.find hex ≤ q by omega)
    have c := (abs_le.1 (clock_lag h q (by omega))).2
    have d : lateness p q ≤ lateness p (q + 1 + 2) := by
      unfold lateness
      push_cast
      gcongr <;> linarith
    push_cast at f1
    linarith
  · refine Nat.find_min' hex ?_
    have := (abs_le.1 (clock_lag h (m + 2) hm)).1
    push_cast at this
    linarith

/-- C120: a stop lasts as many periods as with exact arithmetic, if its end is not too near to a multiple of the period. -/
theorem C120_rest (exp : F → F) {p r : ℝ} (h : IsPeriod p) {m : ℕ} (hm : m < 2 ^ 24) (h1 : m * p + lateness p m < r)
    (h2 : r ≤ (m + 1) * p - lateness p (m + 1)) (n : ℕ) :
    m + 1 = ⌈r / p⌉₊ ∧ outputs (Clock.rest (arith exp)) n (Clock.new (.fin r) (.fin p)) =
      (List.range n).map fun k => if k < m + 1 then some (ticks (arith exp) (.fin p) k) else none := by
  have hp := h.pos
  have l0 : ∀ k, 0 ≤ lateness p k := fun k => by unfold lateness; positivity
  constructor
  · symm
    rw [Nat.ceil_eq_iff (by omega), lt_div_iff₀ hp, div_le_iff₀ hp]
    exact ⟨by simp only [add_tsub_cancel_right]; linarith [l0 m], by push_cast; linarith [l0 (m + 1)]⟩
  · have key := out_finite (Clock.rest (arith exp)) (fun k => ⟨.fin (clock32 p k), .fin r, .fin p⟩)
      (fun k => .fin (clock32 p k)) (m + 1) (fun k hk => by
        unfold Clock.rest
        rw [if_pos (show (F.fin (clock32 p k)).lt (.fin r) from by
          show clock32 p k < r
          have a := clock_mono h (show k ≤ m by omega)
          linarith [(abs_le.1 (clock_lag h m hm.le)).2])]
        dsimp only
        rw [← ticks_eq exp h k, ← ticks_eq exp h (k + 1)]
        rfl) (fun k hk => by
        unfold Clock.rest
        rw [if_neg (show ¬ (F.fin (clock32 p k)).lt (.fin r) from by
          show ¬ clock32 p k < r
          have a := clock_mono h hk
          have := (abs_le.1 (clock_lag h (m + 1) hm)).1
          push_cast at this
          linarith)]) n 0
    simp only [zero_add] at key
    simp only [ticks_eq exp h]
    exact key

/-! ## The clock is that of the trajectories -/

theorem out_sim {σ τ α β γ : Type} (next : σ → Option α × σ) (next' : τ → Option β × τ) (R : σ → τ → Prop) (f : α → γ)
    (g : β → γ) (h : ∀ s t, R s t → (next s).1.map f = (next' t).1.map g ∧ R (next s).2 (next' t).2) :
    ∀ n s t, R s t → (outputs next n s).map (Option.map f) = (outputs next' n t).map (Option.map g) := by
  intro n
  induction n with
  | zero => intro s t _; rfl
  | succ n ih => intro s t r; rw [outputs, outputs, List.map_cons, List.map_cons, ih _ _ (h s t r).2, (h s t r).1]

/-- C120: with exact arithmetic the clock is that of the trajectories modelled before, and the target at a time is what
the calculator says for it. -/
theorem C120_model (n : ℕ) (r : F) (p : ℝ) :
    (∀ c : StraightCalc, outputs Straight.next n ⟨c, 0, r, p⟩ =
      (outputs (Clock.next exact) n (Clock.new r (.fin p))).map (Option.map (timed fun t => ⟨c.calculate t, .zero, .zero⟩))) ∧
    (∀ c : Overall, outputs Spin.next n ⟨c, 0, r, p⟩ =
      (outputs (Clock.next exact) n (Clock.new r (.fin p))).map (Option.map (timed fun t => ⟨.zero, .zero, c.calculate t⟩))) ∧
    (∀ (T : Trig) (c : Overall) (x y v : ℝ), (outputs (Slalom.Curve.next T) n ⟨c, 0, r, p, x, y, v⟩).map (Option.map (·.theta)) =
      (outputs (Clock.next exact) n (Clock.new r (.fin p))).map (Option.map (timed c.calculate))) ∧
    (∀ (pose : Detect.Pose) (q : ℝ), (outputs Stop.next n ⟨0, pose, p, q⟩).map Option.isSome =
      (outputs (Clock.rest exact) n (Clock.new (.fin q) (.fin p))).map Option.isSome) := by
  refine ⟨fun c => ?_, fun c => ?_, fun T c x y v => ?_, fun pose q => ?_⟩
  · have := out_sim Straight.next (Clock.next exact) (fun s t => t = ⟨.fin s.t, s.tEnd, .fin s.period⟩ ∧ s.calculator = c)
      id (timed fun t => ⟨c.calculate t, .zero, .zero⟩) (by
        rintro s t ⟨rfl, rfl⟩
        unfold Straight.next Clock.next
        split_ifs with h
        · exact ⟨rfl, rfl, rfl⟩
        · exact ⟨rfl, rfl, rfl⟩) n ⟨c, 0, r, p⟩ (Clock.new r (.fin p)) ⟨rfl, rfl⟩
    rw [← this, Option.map_id, List.map_id]
  · have := out_sim Spin.next (Clock.next exact) (fun s t => t = ⟨.fin s.t, s.tEnd, .fin s.period⟩ ∧ s.calculator = c)
      id (timed fun t => ⟨.zero, .zero, c.calculate t⟩) (by
        rintro s t ⟨rfl, rfl⟩
        unfold Spin.next Clock.next
        split_ifs with h
        · exact ⟨rfl, rfl, rfl⟩
        · exact ⟨rfl, rfl, rfl⟩) n ⟨c, 0, r, p⟩ (Clock.new r (.fin p)) ⟨rfl, rfl⟩
    rw [← this, Option.map_id, List.map_id]
  · exact out_sim (Slalom.Curve.next T) (Clock.next exact) (fun s t => t = ⟨.fin s.t, s.tEnd, .fin s.period⟩ ∧ s.calculator = c)
      (·.theta) (timed c.calculate) (by
        rintro s t ⟨rfl, rfl⟩
        unfold Slalom.Curve.next Clock.next
        split_ifs with h
        · exact ⟨rfl, rfl, rfl⟩
        · exact ⟨rfl, rfl, rfl⟩) n ⟨c, 0, r, p, x, y, v⟩ (Clock.new r (.fin p)) ⟨rfl, rfl⟩
  · have := out_sim Stop.next (Clock.rest exact) (fun s t => t = ⟨.fin s.t, .fin s.tEnd, .fin s.period⟩)
      (fun _ => ()) (fun _ => ()) (by
        rintro s t rfl
        unfold Stop.next Clock.rest
        by_cases h : s.t < s.tEnd
        · rw [if_pos h, if_pos (show (F.fin s.t).lt (.fin s.tEnd) from h)]
          exact ⟨rfl, rfl⟩
        · rw [if_neg h, if_neg (show ¬ (F.fin s.t).lt (.fin s.tEnd) from h)]
          exact ⟨rfl, rfl⟩) n ⟨0, pose, p, q⟩ (Clock.new (.fin q) (.fin p)) rfl
    have := congrArg (List.map Option.isSome) this
    simpa only [List.map_map, Function.comp_def, Option.isSome_map] using this

/-- C120: along a straight way, the place of a target differs from the place it has with an exact clock by at most the way
at top speed in the time the clock is wrong by. -/
theorem C120_place (exp : F → F) {g : Gen} {vs ve : ℝ} (H : Request g vs ve) (xs dist : ℝ) {p : ℝ} (h : IsPeriod p) {n : ℕ}
    (hn : n ≤ 2 ^ 24) (h0 : lateness p n < n * p) (h1 : (F.fin (n * p + lateness p n)).lt (g.generate xs dist vs ve).2.1) :
    ∃ s : ℝ, ticks (arith exp) (.fin p) n = .fin s ∧ |((g.generate xs dist vs ve).1.calculate s).x -
      ((g.generate xs dist vs ve).1.calculate (n * p)).x| ≤ g.vMax * lateness p n := by
  refine ⟨_, ticks_eq exp h n, ?_⟩
  have hl := clock_lag h n hn
  have l0 : 0 ≤ lateness p n := (abs_nonneg _).trans hl
  obtain ⟨a1, a2⟩ := abs_le.1 hl
  have lt_of : ∀ t ∈ Set.Icc (n * p - lateness p n) (n * p + lateness p n), (F.fin t).lt (g.generate xs dist vs ve).2.1 := by
    intro t ht
    generalize (g.generate xs dist vs ve).2.1 = q at h1
    cases q with
    | nan => exact h1
    | ninf => exact h1
    | pinf => trivial
    | fin q => exact lt_of_le_of_lt ht.2 h1
  have := (convex_Icc (n * p - lateness p n) (n * p + lateness p n)).norm_image_sub_le_of_norm_hasDerivWithin_le
    (f := fun s => ((g.generate xs dist vs ve).1.calculate s).x) (f' := fun s => ((g.generate xs dist vs ve).1.calculate s).v)
    (C := g.vMax) (x := n * p) (y := clock32 p n)
    (fun t ht => (C43_position H xs dist t (by have := ht.1; linarith) (lt_of t ht)).hasDerivWithinAt)
    (fun t _ => by
      have := (C41_limits H xs dist t).1
      rw [Real.norm_eq_abs]
      calc |((g.generate xs dist vs ve).1.calculate t).v| = |direction dist * ((g.generate xs dist vs ve).1.calculate t).v| := by
            rw [abs_mul, StraightP.dir_abs, one_mul]
        _ ≤ g.vMax := by rw [abs_of_nonneg this.1]; exact this.2)
    ⟨by linarith, by linarith⟩ ⟨by linarith, by linarith⟩
  rw [Real.norm_eq_abs, Real.norm_eq_abs] at this
  exact this.trans (mul_le_mul_of_nonneg_left hl H.v.le)

/-- The period of the tests, a millisecond: the nearest number of single precision. -/
theorem milli : IsPeriod (8589935 * 2 ^ (-33 : ℤ)) ∧ IsF32 (8589935 * 2 ^ (-33 : ℤ)) ∧ round24 0.001 = 8589935 * 2 ^ (-33 : ℤ) := by
  have e : (8589935 * 2 ^ (-33 : ℤ) : ℝ) = 8589935 / 8589934592 := by rw [zpow_neg]; norm_num
  refine ⟨⟨by rw [e]; norm_num, by rw [e]; norm_num⟩, ⟨8589935, -33, by norm_num, by norm_num, by norm_num, by norm_num⟩, ?_⟩
  have hl : Int.log 2 (0.001 : ℝ) = -10 := by
    have b1 : -10 ≤ Int.log 2 (0.001 : ℝ) := (Int.zpow_le_iff_le_log (by norm_num) (by norm_num)).1 (by norm_num)
    have b2 : Int.log 2 (0.001 : ℝ) < -9 := (Int.lt_zpow_iff_log_lt (by norm_num) (by norm_num)).1 (by norm_num)
    omega
  have hu : ulpExp 0.001 = -33 := by
    unfold ulpExp
    rw [abs_of_pos (by norm_num), hl]
    norm_num
  unfold round24
  rw [hu]
  have hf : ⌊(0.001 / 2 ^ (-33 : ℤ) : ℝ)⌋ = 8589934 := by rw [Int.floor_eq_iff, zpow_neg]; norm_num
  have hr : roundEven (0.001 / 2 ^ (-33 : ℤ)) = 8589935 := by
    unfold roundEven
    rw [Int.fract, hf, if_neg (by rw [zpow_neg]; norm_num), if_pos (by rw [zpow_neg]; norm_num)]
    norm_num
  rw [hr]; norm_num

/-- A trajectory of 1.0005 s with a period of a millisecond yields 1001 targets, in single precision as exactly; one of ten
hours never ends. -/
example (exp : F → F) (n : ℕ) :
    outputs (Clock.next (arith exp)) n (Clock.new (.fin 1.0005) (.fin (8589935 * 2 ^ (-33 : ℤ)))) =
      ((List.range n).map fun k => if k < 1001 then some (ticks (arith exp) (.fin (8589935 * 2 ^ (-33 : ℤ))) k) else none) ∧
    outputs (Clock.next (arith exp)) n (Clock.new (.fin 36000) (.fin (8589935 * 2 ^ (-33 : ℤ)))) =
      (List.range n).map fun k => some (ticks (arith exp) (.fin (8589935 * 2 ^ (-33 : ℤ))) k) := by
  have e : (8589935 * 2 ^ (-33 : ℤ) : ℝ) = 8589935 / 8589934592 := by rw [zpow_neg]; norm_num
  refine ⟨(C120_count exp milli.1 (m := 1000) (by norm_num) ?_ ?_ n).2, C120_endless exp milli.1 ?_ n⟩ <;> rw [e]
  · unfold lateness; norm_num
  · unfold lateness; norm_num
  · norm_num

end Verif.Props
