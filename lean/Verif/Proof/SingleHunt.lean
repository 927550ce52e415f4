import Verif.Props.Bend
import Verif.Spec.SingleHunt
/-!
# The trajectories of a search in single precision
-/
namespace Verif.Proof
open Verif Verif.Single Verif.Spec Verif.Binary32 Verif.Props
open Verif.Search (TrajectoryKind)

variable {exp : F → F} {L : Lib}

/-! ## Numbers -/

theorem degree_ok {d : ℝ} (h : |d| ≤ 180) : ∃ r : ℝ, Single.degree (arith exp) d = .fin r ∧ |r - Slalom.degree d| ≤ 1 / 1000000 := by
  have p0 := Real.pi_gt_d6
  have p1 := Real.pi_lt_d6
  have a0 : |Real.pi / 180| = Real.pi / 180 := abs_of_pos (by linarith)
  obtain ⟨k, ek, bk⟩ := rnd_tiny (z := Real.pi / 180) (by rw [a0]; linarith)
  rw [a0] at bk
  have bk' : |k - Real.pi / 180| ≤ 1 / 100000000 * 0.2 := by
    refine bk.trans ?_
    norm_num
    linarith
  have hdk : |d * k - d * (Real.pi / 180)| ≤ 180 * (1 / 100000000 * 0.2) := by
    rw [← mul_sub, abs_mul]
    exact mul_le_mul h bk' (abs_nonneg _) (by norm_num)
  have hz : |d * k| ≤ 3.2 := by
    have e1 : |d * (Real.pi / 180)| ≤ 3.15 := by
      rw [abs_mul, a0]
      nlinarith [abs_nonneg d]
    have := abs_sub_abs_le_abs_sub (d * k) (d * (Real.pi / 180))
    linarith
  obtain ⟨r, er, br⟩ := rnd_tiny (z := d * k) (hz.trans (by norm_num))
  refine ⟨r, ?_, ?_⟩
  · unfold Single.degree
    show (arith exp).mul (.fin d) (rnd (Real.pi / 180)) = _
    rw [ek]
    exact er
  · have := abs_sub_le r (d * k) (d * (Real.pi / 180))
    unfold Slalom.degree
    have br' : |r - d * k| ≤ 3.2 / 10000000 + 1 / 10 ^ 20 := br.trans (by linarith)
    norm_num at br' hdk ⊢
    linarith

theorem half_ok {s : ℝ} (s0 : 0 ≤ s) (s1 : s ≤ 5) : ∃ h : ℝ, (arith exp).div (.fin s) (.fin 2) = .fin h ∧ 0 ≤ h ∧ |h - s / 2| ≤ s / 10000000 + 1 / 10 ^ 20 := by
  obtain ⟨h, eh, h0, bh⟩ := rnd_up (z := s / 2) (by linarith) (by linarith)
  exact ⟨h, by rw [div_rnd (by norm_num)]; exact eh, h0, bh.trans (by norm_num; linarith)⟩

theorem plus_ok {x y : ℝ} (h : |x + y| ≤ 1000) : ∃ r : ℝ, (arith exp).add (.fin x) (.fin y) = .fin r ∧ |r - (x + y)| ≤ |x + y| / 10000000 + 1 / 10 ^ 20 := by
  obtain ⟨r, er, br⟩ := rnd_tiny (h.trans (by norm_num))
  exact ⟨r, er, br⟩

theorem minus_ok {x y : ℝ} (h : |x - y| ≤ 1000) : ∃ r : ℝ, (arith exp).sub (.fin x) (.fin y) = .fin r ∧ |r - (x - y)| ≤ |x - y| / 10000000 + 1 / 10 ^ 20 := by
  obtain ⟨r, er, br⟩ := plus_ok (exp := exp) (x := x) (y := -y) (by rwa [← sub_eq_add_neg])
  rw [← sub_eq_add_neg] at br
  exact ⟨r, er, br⟩

/-- The lengths of the straights of a search. -/
theorem lengths_ok {s o : ℝ} (s0 : 0.01 ≤ s) (s1 : s ≤ 5) (o0 : 0 ≤ o) (o1 : o ≤ 0.036) (room : 0.001 ≤ s / 2 - o) :
    (∃ d : ℝ, (arith exp).add ((arith exp).div (.fin s) (.fin 2)) (.fin o) = .fin d ∧ 0.0005 ≤ d ∧ d ≤ 3) ∧
      ∃ d : ℝ, (arith exp).sub ((arith exp).div (.fin s) (.fin 2)) (.fin o) = .fin d ∧ 0.0005 ≤ d ∧ d ≤ 3 := by
  obtain ⟨h, eh, h0, bh⟩ := half_ok (exp := exp) (s := s) (by linarith) s1
  rw [eh]
  obtain ⟨b1, b2⟩ := abs_le.1 bh
  norm_num at b1 b2 s0 o1 room
  obtain ⟨x, ex, bx⟩ := plus_ok (exp := exp) (x := h) (y := o) (by rw [abs_le]; constructor <;> linarith)
  obtain ⟨y, ey, by'⟩ := minus_ok (exp := exp) (x := h) (y := o) (by rw [abs_le]; constructor <;> linarith)
  rw [abs_of_nonneg (show 0 ≤ h + o by linarith)] at bx
  rw [abs_of_nonneg (show 0 ≤ h - o by linarith)] at by'
  obtain ⟨x1, x2⟩ := abs_le.1 bx
  obtain ⟨y1, y2⟩ := abs_le.1 by'
  norm_num at x1 x2 y1 y2
  exact ⟨⟨x, ex, by norm_num; linarith, by linarith⟩, ⟨y, ey, by norm_num; linarith, by linarith⟩⟩

/-! ## The parts -/

theorem rest_ends (exp : F → F) {p r : ℝ} (h : IsPeriod p) (hr : r < (2 ^ 24 - 1) * p) : ∃ N, ∀ n,
    outputs (Clock.rest (arith exp)) n (Clock.new (.fin r) (.fin p)) =
      (List.range n).map fun k => if k < N then some (ticks (arith exp) (.fin p) k) else none := by
  obtain ⟨M, s, hs, -, hM⟩ := C120_stands exp h
  have hex : ∃ N, r ≤ clock32 p N := by
    refine ⟨M, ?_⟩
    have := hM M le_rfl
    rw [ticks_eq exp h, F.fin.injEq] at this
    linarith
  classical
  refine ⟨Nat.find hex, fun n => ?_⟩
  have key := out_finite (Clock.rest (arith exp)) (fun k => ⟨.fin (clock32 p k), .fin r, .fin p⟩)
      (fun k => .fin (clock32 p k)) (Nat.find hex) (fun k hk => by
        unfold Clock.rest
        rw [if_pos (show (F.fin (clock32 p k)).lt (.fin r) from not_le.1 (Nat.find_min hex hk))]
        dsimp only
        rw [← ticks_eq exp h k, ← ticks_eq exp h (k + 1)]
        rfl) (fun k hk => by
        unfold Clock.rest
        rw [if_neg (show ¬ (F.fin (clock32 p k)).lt (.fin r) from not_lt.2 ((Nat.find_spec hex).trans (clock_mono h hk)))]) n 0
  simp only [zero_add] at key
  simp only [ticks_eq exp h]
  exact key

theorem halt_outputs (A : Arith) (q : Place) (n : ℕ) : ∀ k : Clock, outputs (Halt.next A) n ⟨k, q⟩ =
    (outputs (Clock.rest A) n k).map (Option.map fun _ => ⟨⟨q.x, .fin 0, .fin 0, .fin 0⟩, ⟨q.y, .fin 0, .fin 0, .fin 0⟩, ⟨q.theta, .fin 0, .fin 0, .fin 0⟩⟩) := by
  induction n with
  | zero => intro k; rfl
  | succ n ih =>
    intro k
    rw [outputs, outputs, List.map_cons]
    exact congrArg₂ List.cons rfl (ih _)

theorem bd_zero {c : ℝ} (h : 0 ≤ c) : Bd c (.fin 0) := ⟨0, rfl, by rwa [abs_zero]⟩

theorem halt_produces {q : Place} {p r : ℝ} (hp : Brief p) (hr : r ≤ 8000) (hx : Bd 300 q.x) (hy : Bd 300 q.y) (ht : Bd 740 q.theta) :
    ∃ l, Produces (Halt.next (arith exp)) ⟨Clock.new (.fin r) (.fin p), q⟩ l ∧ ∀ t ∈ l, Tame t := by
  have l := hp.low
  norm_num at l
  obtain ⟨N, hN⟩ := rest_ends exp (brief_period hp) (r := r) (by norm_num; linarith)
  refine ⟨(List.range N).map fun _ => ⟨⟨q.x, .fin 0, .fin 0, .fin 0⟩, ⟨q.y, .fin 0, .fin 0, .fin 0⟩, ⟨q.theta, .fin 0, .fin 0, .fin 0⟩⟩, produces_of fun n => ?_, ?_⟩
  · rw [halt_outputs, hN n, List.map_map]
    refine List.map_congr_left fun k _ => ?_
    dsimp only [Function.comp]
    split_ifs <;> rfl
  · intro t ht'
    obtain ⟨k, -, rfl⟩ := List.mem_map.1 ht'
    exact ⟨⟨hx, bd_zero (by norm_num), bd_zero (by norm_num), bd_zero (by norm_num)⟩, ⟨hy, bd_zero (by norm_num), bd_zero (by norm_num), bd_zero (by norm_num)⟩,
      ⟨ht, bd_zero (by norm_num), bd_zero (by norm_num), bd_zero (by norm_num)⟩⟩

theorem spin_produces (hU : Circular L) (hL : Rooted L) {V a j θ p cx : ℝ} {g : Gen} (H : Swings V a j g) (hp : Brief p) (θ0 : 1 ≤ |θ|) (θ1 : |θ| ≤ 4) (hx : |cx| ≤ 10) :
    ∃ l, Produces (shifted (arith exp) L (.fin cx) (.fin 0) (.fin 0) (Journey.spin (arith exp)))
      (g.journey (arith exp) L (.fin p) (.fin θ) (.fin 0) (.fin 0)).1 l ∧ ∀ t ∈ l, Tame t := by
  have V0 := H.low
  have V1 := H.high
  have h0 : Pace V 0 := ⟨round24_zero, le_rfl, by linarith⟩
  have pl := hp.low
  norm_num at pl
  have q : 5 * |θ| / V ≤ 20 := by
    rw [div_le_iff₀ (by linarith)]
    linarith
  obtain ⟨s, rfl, -, -, ht, N, -, hN⟩ := C124_ends (exp := exp) hL H.fit h0 h0 (D := θ) (p := p) (by norm_num; linarith) (θ1.trans (by norm_num)) (brief_period hp)
    (by norm_num; linarith)
  refine ⟨_, shifted_produces (produces_of hN), ?_⟩
  intro t hm
  obtain ⟨t, hm', rfl⟩ := List.mem_map.1 hm
  obtain ⟨k, -, rfl⟩ := List.mem_map.1 hm'
  rw [ticks_eq exp (brief_period hp)]
  obtain ⟨b1, b2, b3, b4⟩ := ht (clock32 p k)
  have l90 : (1000000:ℝ) ≤ 2 ^ 90 := by norm_num
  have j2 := H.fit.jerk.2
  have a2 := H.acc
  norm_num at j2
  have z : Bd 0 (.fin 0) := bd_zero le_rfl
  have s := hU.sin 0
  have c := hU.cos 0
  have sz := mul' (exp := exp) 0.01 z s (by norm_num) (by linarith)
  have cz := mul' (exp := exp) 0.01 z c (by norm_num) (by linarith)
  have d := sub' (exp := exp) 0.03 cz sz (by norm_num) (by linarith)
  have e := add' (exp := exp) 0.03 sz cz (by norm_num) (by linarith)
  unfold shift Axis.zero
  refine ⟨⟨?_, ?_, ?_, ?_⟩, ⟨?_, ?_, ?_, ?_⟩, ⟨?_, ?_, ?_, ?_⟩⟩
  · exact add' 300 d (bd_fin hx) (by norm_num) (by linarith)
  · exact bd_weaken d (by norm_num)
  · exact bd_weaken d (by norm_num)
  · exact bd_weaken d (by norm_num)
  · exact add' 300 e z (by norm_num) (by linarith)
  · exact bd_weaken e (by norm_num)
  · exact bd_weaken e (by norm_num)
  · exact bd_weaken e (by norm_num)
  · exact add' 740 b1 z (by norm_num; linarith) (by linarith)
  · exact bd_weaken b2 (by norm_num; linarith)
  · exact bd_weaken b3 (by norm_num; linarith)
  · exact bd_weaken b4 (by norm_num; linarith)

/-! ## First targets -/

theorem produces_ne {σ α : Type} {next : σ → Option α × σ} {s : σ} {l : List α} (h : Produces next s l) (hs : (next s).1 ≠ none) : l ≠ [] := by
  rintro rfl
  exact hs (produces_nil h)

theorem stretch_first (c : Piece) {T : F} (hT : ¬ T.lt (.fin 0)) (A : Arith) (p : F) : (Stretch.next A ⟨c, Clock.new T p⟩).1 ≠ none := by
  unfold Stretch.next Clock.next Clock.new
  dsimp only
  rw [if_neg hT]
  exact Option.some_ne_none _

theorem constant_first (A : Arith) (d v p : F) : (Stretch.next A (constantStretch A d v p)).1 ≠ none := by
  refine stretch_first _ ?_ A p
  split_ifs with h
  · exact lt_irrefl (0:ℝ)
  · exact h

theorem accel_first (hL : Rooted L) {V a j x y d : ℝ} {g : Gen} (G : Fit V a j g) (hx : Pace V x) (hy : Pace V y) (short : V / 2 ^ 14 ≤ d) (long : d ≤ 10) (p : F) :
    (Stretch.next (arith exp) (g.stretch (arith exp) L p (.fin d) (.fin x) (.fin y)).1).1 ≠ none := by
  have v0 := G.vel.1
  have d0 : 0 ≤ d := le_trans (div_nonneg (le_trans (by positivity) v0) (by positivity)) short
  obtain ⟨⟨T, eT, T0, -⟩, -, -⟩ := gen_ok (exp := exp) hL G hx hy (abs_of_nonneg d0) short (long.trans (by norm_num))
  rcases e : g.generate (arith exp) L (.fin 0) (.fin d) (.fin x) (.fin y) with ⟨k, T', u⟩
  rw [e] at eT
  unfold Gen.stretch
  rw [e]
  exact stretch_first _ (by rw [show T' = .fin T from eT]; exact not_lt.2 T0) _ p

theorem chain_first {σ τ α : Type} {m : σ → Option α × σ} {n : τ → Option α × τ} {a : σ} (h : (m a).1 ≠ none) (b : τ) :
    (Slalom.chainNext m n (some a, b)).1 ≠ none := by
  unfold Slalom.chainNext
  dsimp only
  rcases e : m a with ⟨x, a'⟩
  rw [e] at h
  cases x with
  | none => exact absurd rfl h
  | some x => exact Option.some_ne_none _

theorem errand_straight (A : Arith) (L : Lib) (n : Nat) : ∀ s, outputs (Errand.next A L) n (.straight s) = outputs (Stretch.next A) n s := by
  induction n with
  | zero => intro s; rfl
  | succ n ih => intro s; exact congrArg₂ List.cons rfl (ih _)

theorem errand_slalom (A : Arith) (L : Lib) (q : Outline) (n : Nat) : ∀ s, outputs (Errand.next A L) n (.slalom q s) = outputs (q.next A L) n s := by
  induction n with
  | zero => intro s; rfl
  | succ n ih => intro s; exact congrArg₂ List.cons rfl (ih _)

theorem errand_back (A : Arith) (L : Lib) (q r : Place) (n : Nat) : ∀ s, outputs (Errand.next A L) n (.back q r s) = outputs (backNext A L q r) n s := by
  induction n with
  | zero => intro s; rfl
  | succ n ih => intro s; exact congrArg₂ List.cons rfl (ih _)

/-! ## Poses -/

theorem coord_ok {n : ℕ} (hn : n < 64) {s : ℝ} (s0 : 0.01 ≤ s) (s1 : s ≤ 5) :
    ∃ r : ℝ, (arith exp).mul ((arith exp).add (.fin n) (.fin 1)) ((arith exp).div (.fin s) (.fin 2)) = .fin r ∧
      |r - ((n : ℝ) + 1) * (s / 2)| ≤ 1.7 / 10000000 * ((n : ℝ) + 1) * s := by
  have s00 : 0 ≤ s := by norm_num at s0; linarith
  obtain ⟨h, eh, h0, bh⟩ := half_ok (exp := exp) s00 s1
  have n0 : (0:ℝ) ≤ n := Nat.cast_nonneg n
  have n1 : (n : ℝ) + 1 ≤ 64 := by exact_mod_cast hn
  have en : (arith exp).add (.fin n) (.fin 1) = .fin ((n : ℝ) + 1) := by
    show rnd ((n : ℝ) + 1) = _
    have f : round24 ((n : ℝ) + 1) = (n : ℝ) + 1 := by
      have := round24_fix (m := (n : ℤ) + 1) (e := 0) (by rw [abs_of_nonneg (by omega)]; omega) (by norm_num)
      simpa using this
    rw [rnd_of_lt (by rw [f, abs_of_nonneg (by linarith)]; refine lt_of_le_of_lt n1 (by norm_num)), f]
  obtain ⟨b1, b2⟩ := abs_le.1 bh
  have hb : h ≤ 3 := by norm_num at b2; linarith
  have z0 : 0 ≤ ((n : ℝ) + 1) * h := by positivity
  obtain ⟨r, er, -, br⟩ := rnd_up (z := ((n : ℝ) + 1) * h) z0 (by nlinarith)
  refine ⟨r, by rw [en, eh]; exact er, ?_⟩
  have e1 : |((n : ℝ) + 1) * h - ((n : ℝ) + 1) * (s / 2)| ≤ ((n : ℝ) + 1) * (s / 10000000 + 1 / 10 ^ 20) := by
    rw [← mul_sub, abs_mul, abs_of_pos (by linarith : (0:ℝ) < n + 1)]
    exact mul_le_mul_of_nonneg_left bh (by linarith)
  have e2 : ((n : ℝ) + 1) * h ≤ ((n : ℝ) + 1) * (s / 2 + (s / 10000000 + 1 / 10 ^ 20)) := mul_le_mul_of_nonneg_left (by linarith) (by linarith)
  have e3 : ((n : ℝ) + 1) * 0.01 ≤ ((n : ℝ) + 1) * s := mul_le_mul_of_nonneg_left s0 (by linarith)
  have := abs_sub_le r (((n : ℝ) + 1) * h) (((n : ℝ) + 1) * (s / 2))
  rw [mul_add] at e1
  rw [mul_add, mul_add] at e2
  norm_num at e1 e2 e3 br this ⊢
  linarith

theorem ahead_ok {n : ℕ} (hn : n < 64) {s o : ℝ} (s0 : 0.01 ≤ s) (s1 : s ≤ 5) (o0 : 0 ≤ o) (room : o ≤ s / 2) {r : ℝ}
    (h : |r - ((n : ℝ) + 1) * (s / 2)| ≤ 1.7 / 10000000 * ((n : ℝ) + 1) * s) :
    (∃ x : ℝ, (arith exp).add (.fin r) (.fin o) = .fin x ∧ |x - (((n : ℝ) + 1) * (s / 2) + o)| ≤ 3 / 10000000 * ((n : ℝ) + 1) * s) ∧
    ∃ x : ℝ, (arith exp).sub (.fin r) (.fin o) = .fin x ∧ |x - (((n : ℝ) + 1) * (s / 2) - o)| ≤ 3 / 10000000 * ((n : ℝ) + 1) * s := by
  have n0 : (0:ℝ) ≤ n := Nat.cast_nonneg n
  have n1 : (n : ℝ) + 1 ≤ 64 := by exact_mod_cast hn
  obtain ⟨b1, b2⟩ := abs_le.1 h
  have s00 : 0 ≤ s := by norm_num at s0; linarith
  have e3 : ((n : ℝ) + 1) * 0.01 ≤ ((n : ℝ) + 1) * s := mul_le_mul_of_nonneg_left s0 (by linarith)
  have e4 : ((n : ℝ) + 1) * s ≤ 64 * 5 := mul_le_mul n1 s1 s00 (by norm_num)
  have e5 : s ≤ ((n : ℝ) + 1) * s := by nlinarith
  have q : ∀ u : ℝ, u = ((n : ℝ) + 1) * s → 1.7 / 10000000 * ((n : ℝ) + 1) * s = 1.7 / 10000000 * u ∧ ((n : ℝ) + 1) * (s / 2) = u / 2 ∧
      3 / 10000000 * ((n : ℝ) + 1) * s = 3 / 10000000 * u := fun u hu => ⟨by rw [hu]; ring, by rw [hu]; ring, by rw [hu]; ring⟩
  obtain ⟨q1, q2, q3⟩ := q _ rfl
  rw [q1, q2] at b1 b2
  rw [q2, q3]
  rw [q1, q2] at h
  generalize ((n : ℝ) + 1) * s = u at *
  norm_num at b1 b2 e3
  have ap : |r + o| = r + o := abs_of_nonneg (by linarith)
  obtain ⟨x, ex, bx⟩ := plus_ok (exp := exp) (x := r) (y := o) (by rw [ap]; linarith)
  have am : |r - o| ≤ u / 2 + 1.7 / 10000000 * u := by rw [abs_le]; constructor <;> norm_num <;> linarith
  obtain ⟨y, ey, byy⟩ := minus_ok (exp := exp) (x := r) (y := o) (am.trans (by norm_num; linarith))
  rw [ap] at bx
  refine ⟨⟨x, ex, ?_⟩, y, ey, ?_⟩
  · have := abs_sub_le x (r + o) (u / 2 + o)
    rw [add_sub_add_right_eq_sub] at this
    norm_num at bx h this ⊢
    linarith
  · have := abs_sub_le y (r - o) (u / 2 - o)
    rw [sub_sub_sub_cancel_right] at this
    norm_num at byy h this am ⊢
    linarith

theorem node_coord {n : ℕ} (hn : n < 64) {s : ℝ} (s0 : 0.01 ≤ s) (s1 : s ≤ 5) :
    ∃ r : ℝ, (arith exp).div ((arith exp).mul (.fin (n + 1 : Nat)) (.fin s)) (.fin 2) = .fin r ∧
      |r - ((n + 1 : Nat) : ℝ) * s / 2| ≤ 3 / 10000000 * ((n : ℝ) + 1) * s := by
  have n0 : (0:ℝ) ≤ n := Nat.cast_nonneg n
  have n1 : (n : ℝ) + 1 ≤ 64 := by exact_mod_cast hn
  push_cast
  have s00 : 0 ≤ s := by norm_num at s0; linarith
  have e3 : ((n : ℝ) + 1) * 0.01 ≤ ((n : ℝ) + 1) * s := mul_le_mul_of_nonneg_left s0 (by linarith)
  have e4 : ((n : ℝ) + 1) * s ≤ 64 * 5 := mul_le_mul n1 s1 s00 (by norm_num)
  rw [mul_assoc (3 / 10000000 : ℝ)]
  have en : (arith exp).mul (.fin ((n : ℝ) + 1)) (.fin s) = rnd (((n : ℝ) + 1) * s) := rfl
  rw [en]
  generalize ((n : ℝ) + 1) * s = u at *
  norm_num at e3
  obtain ⟨x, ex, x0, bx⟩ := rnd_up (z := u) (by linarith) (by linarith)
  obtain ⟨b1, b2⟩ := abs_le.1 bx
  norm_num at b1 b2
  obtain ⟨y, ey, y0, byy⟩ := rnd_up (z := x / 2) (by linarith) (by linarith)
  refine ⟨y, by rw [ex, div_rnd (by norm_num)]; exact ey, ?_⟩
  have := abs_sub_le y (x / 2) (u / 2)
  rw [show x / 2 - u / 2 = (x - u) / 2 by ring, abs_div, abs_two] at this
  norm_num at byy bx this ⊢
  linarith

/-! ## Whole moves -/

/-- A trajectory that hands out at least one target, finitely many, all of moderate size. -/
def Finishes (A : Arith) (L : Lib) (e : Errand) : Prop := ∃ l, Produces (Errand.next A L) e l ∧ l ≠ [] ∧ ∀ t ∈ l, Tame t

variable {V a j Vs as js p s o : ℝ} {c : Quest}

theorem straight_finishes (hL : Rooted L) (H : Hunts V a j Vs as js p s o c) {d x y : ℝ} (hx : Pace V x) (hy : Pace V y) (d0 : 0.0005 ≤ d) (d1 : d ≤ 10) :
    Finishes (arith exp) L (.straight (c.gen.stretch (arith exp) L c.period (.fin d) (.fin x) (.fin y)).1) := by
  have h := H.high
  have short : V / 2 ^ 14 ≤ d := by norm_num at d0 ⊢; linarith
  obtain ⟨u, -, -, -, -, l, h1, h2⟩ := stretch_ok (exp := exp) hL H.gen H.low H.brief hx hy short d1
  rw [H.period]
  exact ⟨l, fun n => (errand_straight _ _ n _).trans (h1 n), produces_ne h1 (accel_first hL H.gen.fit hx hy short d1 _), along_tame h2⟩

theorem hunt_pace (H : Hunts V a j Vs as js p s o c) : Pace V 0 ∧ Pace V V := by
  have := H.low
  norm_num at this
  exact ⟨⟨round24_zero, le_rfl, by linarith⟩, ⟨H.gen.fit.f32, by linarith, le_rfl⟩⟩

theorem slalom_finishes (hU : Circular L) (hL : Rooted L) (H : Hunts V a j Vs as js p s o c) (d : Run.SlalomDirection) :
    Finishes (arith exp) L (.slalom (outline (arith exp) c.squareWidth c.frontOffset .search90 d)
      ((outline (arith exp) c.squareWidth c.frontOffset .search90 d).constantSlalom (arith exp) L c.period c.gen.vMax)) := by
  rw [H.width, H.offset, H.period, H.gen.fit.vMax]
  obtain ⟨l, h1, h2⟩ := C125_maze (exp := exp) hU hL H.w0 H.w1 H.o0 H.o1 H.brief .search90 d H.low H.high (H.slow d) (H.fast d)
  refine ⟨l, fun n => (errand_slalom _ _ _ n _).trans (h1 n), produces_ne h1 ?_, h2⟩
  exact chain_first (chain_first (constant_first _ _ _ _) _) _

theorem init_finishes (hL : Rooted L) (H : Hunts V a j Vs as js p s o c) : Finishes (arith exp) L (c.init (arith exp) L) := by
  obtain ⟨⟨d, ed, d0, d1⟩, -⟩ := lengths_ok (exp := exp) H.w0 H.w1 H.o0 H.o1 H.room
  obtain ⟨z, v⟩ := hunt_pace H
  have := straight_finishes (exp := exp) hL H z v d0 (by linarith)
  unfold Quest.init
  rw [H.width, H.offset, ed, H.gen.fit.vMax]
  exact this

theorem back_finishes (hU : Circular L) (hL : Rooted L) (H : Hunts V a j Vs as js p s o c) : Finishes (arith exp) L (c.errand (arith exp) L .back) := by
  obtain ⟨⟨d, ed, d0, d1⟩, ⟨d', ed', d0', d1'⟩⟩ := lengths_ok (exp := exp) H.w0 H.w1 H.o0 H.o1 H.room
  obtain ⟨z, v⟩ := hunt_pace H
  obtain ⟨r, er, hr⟩ := H.pause
  obtain ⟨θ, eθ, bθ⟩ := degree_ok (exp := exp) (d := 180) (by norm_num [abs_of_pos])
  have e180 : Slalom.degree 180 = Real.pi := by unfold Slalom.degree; ring
  rw [e180] at bθ
  obtain ⟨q1, q2⟩ := abs_le.1 bθ
  have p0 := Real.pi_gt_d6
  have p1 := Real.pi_lt_d6
  norm_num at q1 q2 p0 p1
  have θp : |θ| = θ := abs_of_pos (by linarith)
  have hV := H.high
  have short : V / 2 ^ 14 ≤ d := by norm_num at d0 ⊢; linarith
  have short' : V / 2 ^ 14 ≤ d' := by norm_num at d0' ⊢; linarith
  have ad : |d'| ≤ 10 := by rw [abs_of_nonneg (by norm_num at d0'; linarith)]; linarith
  obtain ⟨-, -, -, -, -, l1, h1, t1⟩ := stretch_ok (exp := exp) hL H.gen H.low H.brief v z short' (by linarith)
  obtain ⟨-, -, -, -, -, l5, h5, t5⟩ := stretch_ok (exp := exp) hL H.gen H.low H.brief z v short (by linarith)
  obtain ⟨l2, h2, t2⟩ := halt_produces (exp := exp) (q := ⟨.fin d', .fin 0, .fin 0⟩) H.brief hr (bd_le (by norm_num) ad) (bd_zero (by norm_num)) (bd_zero (by norm_num))
  obtain ⟨l3, h3, t3⟩ := spin_produces (exp := exp) hU hL (θ := θ) H.spin H.brief (by rw [θp]; linarith) (by rw [θp]; linarith) ad
  obtain ⟨l4, h4, t4⟩ := halt_produces (exp := exp) (q := ⟨.fin d', .fin 0, .fin θ⟩) H.brief hr (bd_le (by norm_num) ad) (bd_zero (by norm_num))
    (bd_fin (by rw [θp]; linarith))
  have h5' := shifted_produces (A := arith exp) (L := L) (px := .fin d') (py := .fin 0) (pt := .fin θ) h5
  have t5' := along_shift (exp := exp) hU t5 (px := .fin d') (py := .fin 0) (pt := θ) (bd_fin ad) (bd_zero (by norm_num)) (by rw [θp]; linarith)
  have P := produces_chain h5' _ _ (produces_chain h4 _ _ (produces_chain h3 _ _ (produces_chain h2 _ _ h1)))
  have e : c.errand (arith exp) L .back = .back ⟨.fin d', .fin 0, .fin 0⟩ ⟨.fin d', .fin 0, .fin θ⟩
      (some (some (some (some (c.gen.stretch (arith exp) L (.fin p) (.fin d') (.fin V) (.fin 0)).1, ⟨Clock.new (.fin r) (.fin p), ⟨.fin d', .fin 0, .fin 0⟩⟩),
        (c.spin.journey (arith exp) L (.fin p) (.fin θ) (.fin 0) (.fin 0)).1), ⟨Clock.new (.fin r) (.fin p), ⟨.fin d', .fin 0, .fin θ⟩⟩),
        (c.gen.stretch (arith exp) L (.fin p) (.fin d) (.fin 0) (.fin V)).1) := by
    unfold Quest.errand Quest.centre Quest.turned
    dsimp only
    rw [H.width, H.offset, H.period, ed, ed', er, eθ, H.gen.fit.vMax]
  rw [e]
  refine ⟨_, fun n => (errand_back _ _ _ _ n _).trans (P n), produces_ne P ?_, ?_⟩
  · exact chain_first (chain_first (chain_first (chain_first (accel_first hL H.gen.fit v z short' (by linarith) _) _) _) _) _
  · intro t ht
    simp only [List.mem_append] at ht
    rcases ht with (((ht | ht) | ht) | ht) | ht
    · exact along_tame t1 t ht
    · exact t2 t ht
    · exact t3 t ht
    · exact t4 t ht
    · exact t5' t ht

theorem errand_finishes (hU : Circular L) (hL : Rooted L) (H : Hunts V a j Vs as js p s o c) : ∀ k, Finishes (arith exp) L (c.errand (arith exp) L k)
  | .front => by
    have v := (hunt_pace H).2
    have w0 := H.w0
    have w1 := H.w1
    have := straight_finishes (exp := exp) hL H v v (d := s) (by norm_num at w0 ⊢; linarith) (by linarith)
    unfold Quest.errand
    dsimp only
    rw [H.width, H.gen.fit.vMax]
    exact this
  | .right => slalom_finishes hU hL H .right
  | .left => slalom_finishes hU hL H .left
  | .back => back_finishes hU hL H

end Verif.Proof
