import Verif.Spec.Convert
import Verif.Spec.Grid
import Verif.Props.Coord
import Mathlib.Tactic.Linarith
import Mathlib.Tactic.FieldSimp
import Mathlib.Tactic.IntervalCases
namespace Verif.Proof
open Verif Verif.Spec Verif.Detect Verif.Convert Verif.Search

/-! ## Distances along one axis -/

/-- Two lines crossed one after the other, or none. `N`, `G`: the point at distance `t` has not crossed the first (the
second) line; `hit`: it is on the first. -/
def Ax (D1 D2 : F) (N G hit : ℝ → Prop) : Prop :=
  (D1 = .pinf ∧ D2 = .pinf ∧ ∀ t, 0 ≤ t → N t ∧ G t) ∨
  ∃ d1 d2, D1 = .fin d1 ∧ D2 = .fin d2 ∧ 0 < d1 ∧ d1 < d2 ∧ (∀ t, 0 ≤ t → ((N t ↔ t < d1) ∧ (G t ↔ t < d2))) ∧ hit d1

theorem axisDist_pos {line r c : ℝ} (h : 0 < (line - r) / c) (hc : c ≠ 0) : axisDist line r c = .fin ((line - r) / c) := by
  have e : exact.div (.fin (line - r)) (.fin c) = .fin ((line - r) / c) := by
    simp only [Arith.div, if_neg hc, exact]
  unfold axisDist
  dsimp only
  rw [if_neg, e]
  rw [e]
  rintro (h' | h')
  · simp only [F.lt] at h'; linarith
  · exact h'

theorem axisDist_zero {line r : ℝ} (h : line ≠ r) : axisDist line r 0 = .pinf := by
  rcases lt_or_gt_of_ne h with h | h
  · have e : exact.div (.fin (line - r)) (.fin 0) = .ninf := by
      simp only [Arith.div, if_true, F.infOf]
      rw [if_neg (by linarith), if_pos (by linarith)]
    unfold axisDist
    dsimp only
    rw [if_pos]
    rw [e]
    exact Or.inl trivial
  · have e : exact.div (.fin (line - r)) (.fin 0) = .pinf := by
      simp only [Arith.div, if_true, F.infOf]
      rw [if_pos (by linarith)]
    unfold axisDist
    dsimp only
    rw [if_neg, e]
    rw [e]
    rintro (h' | h') <;> exact h'

theorem ax_up {lo hi hi2 r c : ℝ} (h1 : lo < r) (h2 : r < hi) (h3 : hi < hi2) (hc : 0 ≤ c) :
    Ax (axisDist hi r c) (axisDist hi2 r c) (fun t => lo < r + t * c ∧ r + t * c < hi)
      (fun t => lo < r + t * c ∧ r + t * c < hi2) (fun t => r + t * c = hi) := by
  rcases hc.eq_or_lt with rfl | hc
  · left
    refine ⟨axisDist_zero (by linarith), axisDist_zero (by linarith), fun t _ => ?_⟩
    simp only [mul_zero, add_zero]
    exact ⟨⟨h1, h2⟩, h1, by linarith⟩
  · right
    have e1 : 0 < (hi - r) / c := div_pos (by linarith) hc
    have e2 : 0 < (hi2 - r) / c := div_pos (by linarith) hc
    refine ⟨_, _, axisDist_pos e1 hc.ne', axisDist_pos e2 hc.ne', e1, ?_, ?_, ?_⟩
    · exact div_lt_div_of_pos_right (by linarith) hc
    · intro t ht
      have := mul_nonneg ht hc.le
      constructor
      · rw [lt_div_iff₀ hc]
        exact ⟨fun h => by linarith [h.2], fun h => ⟨by linarith, by linarith⟩⟩
      · rw [lt_div_iff₀ hc]
        exact ⟨fun h => by linarith [h.2], fun h => ⟨by linarith, by linarith⟩⟩
    · field_simp; ring

theorem ax_down {lo lo2 hi r c : ℝ} (h1 : lo < r) (h2 : r < hi) (h3 : lo2 < lo) (hc : c ≤ 0) :
    Ax (axisDist lo r c) (axisDist lo2 r c) (fun t => lo < r + t * c ∧ r + t * c < hi)
      (fun t => lo2 < r + t * c ∧ r + t * c < hi) (fun t => r + t * c = lo) := by
  rcases hc.eq_or_lt with rfl | hc
  · left
    refine ⟨axisDist_zero (by linarith), axisDist_zero (by linarith), fun t _ => ?_⟩
    simp only [mul_zero, add_zero]
    exact ⟨⟨h1, h2⟩, by linarith, h2⟩
  · right
    have e1 : 0 < (lo - r) / c := div_pos_of_neg_of_neg (by linarith) hc
    have e2 : 0 < (lo2 - r) / c := div_pos_of_neg_of_neg (by linarith) hc
    refine ⟨_, _, axisDist_pos e1 hc.ne, axisDist_pos e2 hc.ne, e1, ?_, ?_, ?_⟩
    · exact (div_lt_div_right_of_neg hc).mpr (by linarith)
    · intro t ht
      have := mul_nonneg ht (neg_nonneg.mpr hc.le)
      constructor
      · rw [lt_div_iff_of_neg hc]
        exact ⟨fun h => by linarith [h.1], fun h => ⟨by linarith, by linarith⟩⟩
      · rw [lt_div_iff_of_neg hc]
        exact ⟨fun h => by linarith [h.1], fun h => ⟨by linarith, by linarith⟩⟩
    · have := hc.ne; field_simp; ring

/-! ## The two nearest lines -/

theorem Ax.ne_nan {D1 D2 : F} {N G hit : ℝ → Prop} (h : Ax D1 D2 N G hit) : D1 ≠ .nan ∧ D2 ≠ .nan := by
  rcases h with ⟨rfl, rfl, -⟩ | ⟨_, _, rfl, rfl, -⟩ <;> exact ⟨by simp, by simp⟩

def Leaves (P : ℝ → Prop) (a : ℝ) : Prop := (∀ t, 0 ≤ t → t < a → P t) ∧ ¬ P a

/-- What is known once the line of the axis `(N, G, hit)` is the nearest, the other axis being `(N', hit')`. -/
def Picked (N G hit N' hit' : ℝ → Prop) (a b : ℝ) : Prop :=
  0 < a ∧ a ≤ b ∧ hit a ∧ (N' a ∨ hit' a) ∧ Leaves (fun t => N t ∧ N' t) a ∧ Leaves (fun t => G t ∧ N' t) b ∧
    (a = b → hit' a)

theorem picked_of {D1 D2 D1' D2' : F} {N G hit N' G' hit' : ℝ → Prop} (hx : Ax D1 D2 N G hit) (hy : Ax D1' D2' N' G' hit')
    {b : F} (hfin : ¬ (D1 = .pinf ∧ D1' = .pinf)) (h1 : D1.le D1')
    (hb : b = D2 ∨ b = D1' ∨ b = D2') (hb2 : b.le D2) (hb1 : b.le D1') (hb2' : b.le D2') :
    ∃ α β, D1 = .fin α ∧ b = .fin β ∧ Picked N G hit N' hit' α β := by
  rcases hx with ⟨rfl, rfl, hx⟩ | ⟨d1, d2, rfl, rfl, hp, hlt, hx, hh⟩
  · rcases hy with ⟨rfl, rfl, hy⟩ | ⟨d1', d2', rfl, rfl, hp', hlt', hy, hh'⟩
    · exact absurd ⟨rfl, rfl⟩ hfin
    · exact h1.elim
  · rcases hy with ⟨rfl, rfl, hy⟩ | ⟨d1', d2', rfl, rfl, hp', hlt', hy, hh'⟩
    · have hbe : b = .fin d2 := by
        rcases hb with rfl | rfl | rfl
        · rfl
        · exact hb2.elim
        · exact hb2.elim
      refine ⟨d1, d2, rfl, hbe, hp, hlt.le, hh, Or.inl (hy d1 hp.le).1, ⟨?_, ?_⟩, ⟨?_, ?_⟩, ?_⟩
      · intro t h0 ht; exact ⟨(hx t h0).1.mpr ht, (hy t h0).1⟩
      · intro h; exact lt_irrefl _ ((hx d1 hp.le).1.mp h.1)
      · intro t h0 ht; exact ⟨(hx t h0).2.mpr ht, (hy t h0).1⟩
      · intro h; exact lt_irrefl _ ((hx d2 (by linarith)).2.mp h.1)
      · intro h; linarith
    · have h1' : d1 ≤ d1' := h1
      have hN' : N' d1 ∨ hit' d1 := by
        rcases h1'.lt_or_eq with h | h
        · exact Or.inl ((hy d1 hp.le).1.mpr h)
        · rw [h]; exact Or.inr hh'
      have hfirst : Leaves (fun t => N t ∧ N' t) d1 :=
        ⟨fun t h0 ht => ⟨(hx t h0).1.mpr ht, (hy t h0).1.mpr (by linarith)⟩,
          fun h => lt_irrefl _ ((hx d1 hp.le).1.mp h.1)⟩
      have hsecond : ∀ β, (β = d2 ∨ β = d1') → β ≤ d2 → β ≤ d1' → Leaves (fun t => G t ∧ N' t) β := by
        intro β hβ h2 h1
        refine ⟨fun t h0 ht => ⟨(hx t h0).2.mpr (by linarith), (hy t h0).1.mpr (by linarith)⟩, ?_⟩
        have hβ0 : 0 ≤ β := by rcases hβ with rfl | rfl <;> linarith
        rintro ⟨g1, g2⟩
        rcases hβ with rfl | rfl
        · exact lt_irrefl _ ((hx _ hβ0).2.mp g1)
        · exact lt_irrefl _ ((hy _ hβ0).1.mp g2)
      rcases hb with rfl | rfl | rfl
      · exact ⟨d1, d2, rfl, rfl, hp, hlt.le, hh, hN', hfirst, hsecond d2 (Or.inl rfl) le_rfl hb1, fun h => by linarith⟩
      · exact ⟨d1, d1', rfl, rfl, hp, h1', hh, hN', hfirst, hsecond d1' (Or.inr rfl) hb2 le_rfl, fun h => h ▸ hh'⟩
      · exfalso
        have : d2' ≤ d1' := hb1
        linarith

theorem le_trans' {a b c : F} (h1 : a.le b) (h2 : b.le c) : a.le c := by
  cases a <;> cases b <;> cases c <;> simp_all [F.le] <;> linarith

theorem pick {dx dy : Dir} {X1 X2 Y1 Y2 : F} {NX GX hX NY GY hY : ℝ → Prop} (hx : Ax X1 X2 NX GX hX)
    (hy : Ax Y1 Y2 NY GY hY) (hfin : ¬ (X1 = .pinf ∧ Y1 = .pinf)) {u v : Dir} {a b : F} {r : List (Dir × F)}
    (hperm : ((u, a) :: (v, b) :: r).Perm [(dx, X1), (dx, X2), (dy, Y1), (dy, Y2)])
    (hs : ((u, a) :: (v, b) :: r).Pairwise (fun a b => a.2.le b.2)) :
    ∃ α β, a = .fin α ∧ b = .fin β ∧
      ((u = dx ∧ Picked NX GX hX NY hY α β) ∨ (u = dy ∧ Picked NY GY hY NX hX α β)) := by
  obtain ⟨ha, hs'⟩ := List.pairwise_cons.mp hs
  obtain ⟨hb, -⟩ := List.pairwise_cons.mp hs'
  have refl : ∀ x : F, x ≠ .nan → x.le x := by intro x hx; cases x <;> simp_all [F.le]
  have nx := hx.ne_nan
  have ny := hy.ne_nan
  have hall : ∀ e ∈ [(dx, X1), (dx, X2), (dy, Y1), (dy, Y2)], a.le e.2 := by
    intro e he
    rcases List.mem_cons.mp (hperm.mem_iff.mpr he) with rfl | h
    · refine refl _ ?_
      have : (u, a) ∈ [(dx, X1), (dx, X2), (dy, Y1), (dy, Y2)] := hperm.mem_iff.mp (by simp)
      simp only [List.mem_cons, Prod.mk.injEq, List.not_mem_nil, or_false] at this
      rcases this with ⟨-, rfl⟩ | ⟨-, rfl⟩ | ⟨-, rfl⟩ | ⟨-, rfl⟩
      exacts [nx.1, nx.2, ny.1, ny.2]
    · exact ha e h
  have aX1 : a.le X1 := hall (dx, X1) (by simp)
  have aX2 : a.le X2 := hall (dx, X2) (by simp)
  have aY1 : a.le Y1 := hall (dy, Y1) (by simp)
  have aY2 : a.le Y2 := hall (dy, Y2) (by simp)
  -- the second element among the remaining ones
  have rest : ∀ {e1 e2 e3 : Dir × F}, ((v, b) :: r).Perm [e1, e2, e3] → e1.2 ≠ .nan → e2.2 ≠ .nan → e3.2 ≠ .nan →
      (b = e1.2 ∨ b = e2.2 ∨ b = e3.2) ∧ b.le e1.2 ∧ b.le e2.2 ∧ b.le e3.2 := by
    intro e1 e2 e3 hp n1 n2 n3
    have hm : (v, b) = e1 ∨ (v, b) = e2 ∨ (v, b) = e3 := by simpa using hp.mem_iff.mp (by simp : (v, b) ∈ (v, b) :: r)
    have hbn : b ≠ .nan := by rcases hm with rfl | rfl | rfl <;> assumption
    have hle : ∀ e ∈ [e1, e2, e3], b.le e.2 := by
      intro e he
      rcases List.mem_cons.mp (hp.mem_iff.mpr he) with rfl | h
      · exact refl _ hbn
      · exact hb e h
    refine ⟨?_, hle e1 (by simp), hle e2 (by simp), hle e3 (by simp)⟩
    rcases hm with rfl | rfl | rfl <;> simp
  have hmem : (u, a) ∈ [(dx, X1), (dx, X2), (dy, Y1), (dy, Y2)] := hperm.mem_iff.mp (by simp)
  simp only [List.mem_cons, Prod.mk.injEq, List.not_mem_nil, or_false] at hmem
  have x_lt : X1 ≠ .pinf → ¬ X2.le X1 := by
    rcases hx with ⟨rfl, -⟩ | ⟨d1, d2, rfl, rfl, -, hlt, -⟩
    · intro h; exact absurd rfl h
    · intro _ (h : d2 ≤ d1); linarith
  have y_lt : Y1 ≠ .pinf → ¬ Y2.le Y1 := by
    rcases hy with ⟨rfl, -⟩ | ⟨d1, d2, rfl, rfl, -, hlt, -⟩
    · intro h; exact absurd rfl h
    · intro _ (h : d2 ≤ d1); linarith
  have infle : ∀ x : F, F.le .pinf x → x = .pinf := by intro x h; cases x <;> simp_all [F.le]
  rcases hmem with ⟨rfl, rfl⟩ | ⟨rfl, rfl⟩ | ⟨rfl, rfl⟩ | ⟨rfl, rfl⟩
  · obtain ⟨h1, h2, h3, h4⟩ := rest (List.Perm.cons_inv hperm) nx.2 ny.1 ny.2
    obtain ⟨α, β, e1, e2, hp⟩ := picked_of hx hy hfin aY1 h1 h2 h3 h4
    exact ⟨α, β, e1, e2, Or.inl ⟨rfl, hp⟩⟩
  · exfalso
    by_cases h : X1 = .pinf
    · subst h
      rcases hx with ⟨-, rfl, -⟩ | ⟨_, _, h, -⟩
      · exact hfin ⟨rfl, infle _ aY1⟩
      · cases h
    · exact x_lt h aX1
  · have hp' : ((u, a) :: (v, b) :: r).Perm ((u, a) :: [(u, Y2), (dx, X1), (dx, X2)]) := by
      refine hperm.trans ?_
      exact (List.perm_append_comm (l₁ := [(dx, X1), (dx, X2)]) (l₂ := [(u, a), (u, Y2)]))
    obtain ⟨h1, h2, h3, h4⟩ := rest (List.Perm.cons_inv hp') ny.2 nx.1 nx.2
    obtain ⟨α, β, e1, e2, hp⟩ := picked_of hy hx (fun h => hfin ⟨h.2, h.1⟩) aX1 h1 h2 h3 h4
    exact ⟨α, β, e1, e2, Or.inr ⟨rfl, hp⟩⟩
  · exfalso
    by_cases h : Y1 = .pinf
    · subst h
      rcases hy with ⟨-, rfl, -⟩ | ⟨_, _, h, -⟩
      · exact hfin ⟨infle _ aX1, rfl⟩
      · cases h
    · exact y_lt h aY1

/-! ## Angles -/

theorem angle_turns (θ : ℝ) : ∃ n : ℤ, θ = 2 * Real.pi * revolution θ + n * (2 * Real.pi) := by
  refine ⟨⌊θ / (2 * Real.pi)⌋, ?_⟩
  unfold revolution Int.fract
  have := Real.pi_pos
  field_simp
  ring

theorem revolution_range (θ : ℝ) : 0 ≤ revolution θ ∧ revolution θ < 1 := ⟨Int.fract_nonneg _, Int.fract_lt_one _⟩

theorem cos_rev (θ : ℝ) : Real.cos θ = Real.cos (2 * Real.pi * revolution θ) := by
  obtain ⟨n, h⟩ := angle_turns θ
  conv_lhs => rw [h]
  exact Real.cos_add_int_mul_two_pi _ n

theorem sin_rev (θ : ℝ) : Real.sin θ = Real.sin (2 * Real.pi * revolution θ) := by
  obtain ⟨n, h⟩ := angle_turns θ
  conv_lhs => rw [h]
  exact Real.sin_add_int_mul_two_pi _ n

theorem quad1 {θ : ℝ} (h : revolution θ < 1 / 4) : 0 < Real.cos θ ∧ 0 ≤ Real.sin θ := by
  have h0 := (revolution_range θ).1
  have hpi := Real.pi_pos
  rw [cos_rev, sin_rev]
  exact ⟨Real.cos_pos_of_mem_Ioo ⟨by nlinarith, by nlinarith⟩, Real.sin_nonneg_of_nonneg_of_le_pi (by positivity) (by nlinarith)⟩

theorem quad2 {θ : ℝ} (h : revolution θ < 1 / 2) (h' : 1 / 4 ≤ revolution θ) : Real.cos θ ≤ 0 ∧ 0 < Real.sin θ := by
  have hpi := Real.pi_pos
  rw [cos_rev, sin_rev]
  exact ⟨Real.cos_nonpos_of_pi_div_two_le_of_le (by nlinarith) (by nlinarith), Real.sin_pos_of_pos_of_lt_pi (by nlinarith) (by nlinarith)⟩

theorem quad3 {θ : ℝ} (h : revolution θ < 3 / 4) (h' : 1 / 2 ≤ revolution θ) : Real.cos θ < 0 ∧ Real.sin θ ≤ 0 := by
  have hpi := Real.pi_pos
  rw [cos_rev, sin_rev]
  have e : 2 * Real.pi * revolution θ = (2 * Real.pi * revolution θ - Real.pi) + Real.pi := by ring
  rw [e, Real.cos_add_pi, Real.sin_add_pi]
  have h1 : 0 < Real.cos (2 * Real.pi * revolution θ - Real.pi) := Real.cos_pos_of_mem_Ioo ⟨by nlinarith, by nlinarith⟩
  have h2 : 0 ≤ Real.sin (2 * Real.pi * revolution θ - Real.pi) :=
    Real.sin_nonneg_of_nonneg_of_le_pi (by nlinarith) (by nlinarith)
  exact ⟨by linarith, by linarith⟩

theorem quad4 {θ : ℝ} (h' : 3 / 4 ≤ revolution θ) : 0 ≤ Real.cos θ ∧ Real.sin θ < 0 := by
  have h := (revolution_range θ).2
  have hpi := Real.pi_pos
  rw [cos_rev, sin_rev]
  have e : 2 * Real.pi * revolution θ = (2 * Real.pi * revolution θ - Real.pi) + Real.pi := by ring
  rw [e, Real.cos_add_pi, Real.sin_add_pi]
  have h1 : Real.cos (2 * Real.pi * revolution θ - Real.pi) ≤ 0 :=
    Real.cos_nonpos_of_pi_div_two_le_of_le (by nlinarith) (by nlinarith)
  have h2 : 0 < Real.sin (2 * Real.pi * revolution θ - Real.pi) :=
    Real.sin_pos_of_pos_of_lt_pi (by nlinarith) (by nlinarith)
  exact ⟨by linarith, by linarith⟩

/-! ## Cells -/

theorem toI32_nat (v : ℝ) (h0 : 0 ≤ v) (h1 : v < 2 ^ 31 - 1) : toI32 v = ⌊v⌋ := by
  unfold toI32
  rw [if_pos h0]
  have h2 : 0 ≤ ⌊v⌋ := Int.floor_nonneg.mpr h0
  have h3 : ⌊v⌋ < 2 ^ 31 - 1 := by
    rw [Int.floor_lt]
    norm_num at h1 ⊢
    exact h1
  rw [min_eq_right h3.le, max_eq_right (by linarith)]

theorem width_pos {sw : ℝ} {k : Int} (h : Width sw k) : 0 < sw := by
  obtain ⟨rfl, h, -⟩ := h
  have : (0 : ℝ) < k := by exact_mod_cast h
  positivity

theorem iSquareWidth_eq {sw : ℝ} {k : Int} (h : Width sw k) (ww ir il : ℝ) : (Converter.new sw ww ir il).iSquareWidth = k := by
  obtain ⟨rfl, h0, h1⟩ := h
  show toI32 _ = k
  have e : (k : ℝ) / 1000 * 1000 = k := by ring
  have h0' : (0 : ℝ) < k := by exact_mod_cast h0
  have h1' : (k : ℝ) ≤ 1000000 := by exact_mod_cast h1
  rw [e, toI32_nat _ h0'.le (by norm_num; linarith), Int.floor_intCast]

theorem remquo_eq {sw : ℝ} {k : Int} (h : Width sw k) (ww ir il : ℝ) {v : ℝ} {i : Int} (hi0 : 0 ≤ i) (hi : i ≤ 2000)
    (hv : InCell sw v i) : (Converter.new sw ww ir il).remquo v = (v - i * sw, i) := by
  have hk := iSquareWidth_eq h ww ir il
  obtain ⟨hsw, h0, h1⟩ := h
  obtain ⟨hv1, hv2⟩ := hv
  have h0' : (0 : ℝ) < k := by exact_mod_cast h0
  have h1' : (k : ℝ) ≤ 1000000 := by exact_mod_cast h1
  have hi0' : (0 : ℝ) ≤ i := by exact_mod_cast hi0
  have hi' : (i : ℝ) ≤ 2000 := by exact_mod_cast hi
  have hv1' : (i : ℝ) * k ≤ v * 1000 := by rw [hsw] at hv1; linarith
  have hv2' : v * 1000 < (i + 1) * k := by rw [hsw] at hv2; linarith
  have hnn : 0 ≤ v * 1000 := le_trans (mul_nonneg hi0' h0'.le) hv1'
  have hub : (i + 1 : ℝ) * k ≤ 2001 * 1000000 := mul_le_mul (by linarith) h1' h0'.le (by norm_num)
  have hfl := toI32_nat (v * 1000) hnn (by norm_num; linarith)
  have hf0 : 0 ≤ ⌊v * 1000⌋ := Int.floor_nonneg.mpr hnn
  have f1 : i * k ≤ ⌊v * 1000⌋ := by rw [Int.le_floor]; push_cast; exact hv1'
  have f2 : ⌊v * 1000⌋ < (i + 1) * k := by rw [Int.floor_lt]; push_cast; exact hv2'
  have hq : (⌊v * 1000⌋).tdiv k = i := by
    rw [Int.tdiv_eq_ediv_of_nonneg hf0]
    apply le_antisymm
    · rw [← Int.lt_add_one_iff]; exact Int.ediv_lt_of_lt_mul h0 f2
    · exact (Int.le_ediv_iff_mul_le h0).mpr f1
  unfold Converter.remquo
  rw [hk, hfl, hq]
  simp only [Prod.mk.injEq, and_true]
  rw [hsw]; push_cast; ring

/-- Positions below zero leave a remainder that is not positive. -/
theorem remquo_neg {sw : ℝ} {k : Int} (h : Width sw k) (ww ir il : ℝ) {v : ℝ} (hv : v < 0) :
    ((Converter.new sw ww ir il).remquo v).1 ≤ 0 := by
  have hk := iSquareWidth_eq h ww ir il
  obtain ⟨-, h0, -⟩ := h
  have hw : v * 1000 < 0 := by linarith
  have hc0 : ⌈v * 1000⌉ ≤ 0 := by rw [Int.ceil_le]; push_cast; exact hw.le
  have hc : v * 1000 ≤ (⌈v * 1000⌉ : ℝ) := Int.le_ceil _
  have ht : ⌈v * 1000⌉ ≤ toI32 (v * 1000) ∧ toI32 (v * 1000) ≤ 0 := by
    unfold toI32
    rw [if_neg (by linarith)]
    omega
  obtain ⟨a, ha⟩ : ∃ a, toI32 (v * 1000) = a := ⟨_, rfl⟩
  rw [ha] at ht
  have hq : a ≤ a.tdiv k * k := by
    obtain ⟨b, rfl⟩ : ∃ b : Int, a = -b := ⟨-a, by ring⟩
    have hb : 0 ≤ b := by omega
    rw [Int.neg_tdiv, Int.tdiv_eq_ediv_of_nonneg hb]
    have := Int.ediv_mul_le b h0.ne'
    linarith
  have hq' : (⌈v * 1000⌉ : ℝ) ≤ ((a.tdiv k * k : Int) : ℝ) := by exact_mod_cast ht.1.trans hq
  unfold Converter.remquo
  rw [hk, ha]
  dsimp only
  linarith

theorem shl1U8_eq {q : Int} (h0 : 0 ≤ q) (h1 : q < 128) : (shl1U8 q : Int) = 2 * q := by
  unfold shl1U8 asU8
  obtain ⟨n, rfl⟩ := Int.eq_ofNat_of_zero_le h0
  have hn : n < 128 := by omega
  have e : ((n : Int) % 256).toNat = n := by omega
  rw [e, Nat.shiftLeft_eq]
  omega

theorem shl1U8_lt (q : Int) : shl1U8 q < 256 := Nat.mod_lt _ (by omega)

theorem shl1U8_or {q : Int} (h0 : 0 ≤ q) (h1 : q < 128) : ((shl1U8 q ||| 1 : Nat) : Int) = 2 * q + 1 := by
  have h := shl1U8_eq h0 h1
  have h2 : shl1U8 q % 2 = 0 := by omega
  have : shl1U8 q ||| 1 = shl1U8 q + 1 := by
    obtain ⟨m, hm⟩ : ∃ m, shl1U8 q = 2 * m := ⟨shl1U8 q / 2, by omega⟩
    rw [hm]
    have := Nat.two_pow_add_eq_or_of_lt (i := 1) (b := 1) (by norm_num) m
    simp only [pow_one] at this
    rw [← this]
  rw [this]; push_cast; omega

theorem wallAt_eq {W : Nat} (hW : Supported W) {i j : Int} (hi0 : 0 ≤ i) (hi : i < 128) (hj0 : 0 ≤ j) (hj : j < 128)
    {dir : Dir} {c : Coord} : wallAt W i j dir = some c ↔ Valid W c ∧ ((c.x : Int), (c.y : Int)) = sideOf i j dir := by
  have key : ∀ (x y : Nat) (X Y : Int), (x : Int) = X → (y : Int) = Y → x < 256 → y < 256 →
      (Coord.new W x y = some c ↔ Valid W c ∧ ((c.x : Int), (c.y : Int)) = (X, Y)) := by
    intro x y X Y hx hy hx' hy'
    rw [Props.C01_valid W hW x y hx' hy' c]
    simp only [Prod.mk.injEq]
    constructor
    · rintro ⟨h, rfl, rfl⟩; exact ⟨h, hx, hy⟩
    · rintro ⟨h, h1, h2⟩; exact ⟨h, by omega, by omega⟩
  have lt1 : ∀ q : Int, shl1U8 q ||| 1 < 256 := fun q => Nat.or_lt_two_pow (n := 8) (shl1U8_lt q) (by norm_num)
  cases dir with
  | right =>
    simp only [wallAt, sideOf]
    rw [if_neg (by omega)]
    exact key _ _ _ _ (shl1U8_or hi0 hi) (shl1U8_eq hj0 hj) (lt1 _) (shl1U8_lt _)
  | left =>
    simp only [wallAt, sideOf]
    by_cases h : i < 1
    · rw [if_pos (Or.inl h)]
      simp only [reduceCtorEq, false_iff, Prod.mk.injEq]
      rintro ⟨-, h1, -⟩; omega
    · rw [if_neg (by omega)]
      exact key _ _ _ _ (by rw [shl1U8_or (by omega) (by omega)]; ring) (shl1U8_eq hj0 hj) (lt1 _) (shl1U8_lt _)
  | top =>
    simp only [wallAt, sideOf]
    rw [if_neg (by omega)]
    exact key _ _ _ _ (shl1U8_eq hi0 hi) (shl1U8_or hj0 hj) (shl1U8_lt _) (lt1 _)
  | bottom =>
    simp only [wallAt, sideOf]
    by_cases h : j < 1
    · rw [if_pos (Or.inr h)]
      simp only [reduceCtorEq, false_iff, Prod.mk.injEq]
      rintro ⟨-, -, h1⟩; omega
    · rw [if_neg (by omega)]
      exact key _ _ _ _ (shl1U8_eq hi0 hi) (by rw [shl1U8_or (by omega) (by omega)]; ring) (shl1U8_lt _) (lt1 _)

/-! ## One room -/

/-- The room of the cell `(0, 0)`. -/
noncomputable def room0 (sw ww : ℝ) : Box := ⟨ww / 2, sw - ww / 2, ww / 2, sw - ww / 2⟩

theorem lineDist_ray (p : Pose) (t : ℝ) (q : ℝ × ℝ) :
    lineDist p q = |Real.sin p.theta * ((ray p t).1 - q.1) - Real.cos p.theta * ((ray p t).2 - q.2)| := by
  unfold lineDist ray
  congr 1
  ring

/-- The head of the sorted list is the side through which the ray leaves the room, the second element the distance at
which it leaves the room extended through that side. -/
structure Exits (sw ww : ℝ) (p : Pose) (u : Dir) (α β : ℝ) : Prop where
  pos : 0 < α
  le : α ≤ β
  leaves : LeavesAt (room0 sw ww) p α
  side : (room0 sw ww).onSide (ray p α) u
  beyond : LeavesAt ((room0 sw ww).extend sw u) p β

theorem exits_x {sw ww : ℝ} {p : Pose} {u : Dir} {line line2 : ℝ} {lo hi lo2 hi2 : ℝ} {α β : ℝ} {hitY : ℝ → Prop}
    (hlo : lo = ww / 2) (hhi : hi = sw - ww / 2)
    (hbox : (room0 sw ww).extend sw u = ⟨lo2, hi2, ww / 2, sw - ww / 2⟩)
    (hside : ∀ q : ℝ × ℝ, q.1 = line → ww / 2 ≤ q.2 → q.2 ≤ sw - ww / 2 → (room0 sw ww).onSide q u)
    (hY : ∀ t, hitY t → p.y + t * Real.sin p.theta = line2) (hl2 : ww / 2 ≤ line2 ∧ line2 ≤ sw - ww / 2)
    (h : Picked (fun t => lo < p.x + t * Real.cos p.theta ∧ p.x + t * Real.cos p.theta < hi)
      (fun t => lo2 < p.x + t * Real.cos p.theta ∧ p.x + t * Real.cos p.theta < hi2)
      (fun t => p.x + t * Real.cos p.theta = line)
      (fun t => ww / 2 < p.y + t * Real.sin p.theta ∧ p.y + t * Real.sin p.theta < sw - ww / 2) hitY α β) :
    Exits sw ww p u α β := by
  subst hlo hhi
  obtain ⟨h0, hle, hx, hy, hl, hl', -⟩ := h
  refine ⟨h0, hle, ⟨h0.le, fun t a b => hl.1 t a b, fun h => hl.2 h⟩, hside _ hx ?_ ?_, ⟨by linarith, ?_, ?_⟩⟩
  · rcases hy with h | h
    · exact h.1.le
    · show _ ≤ p.y + α * Real.sin p.theta
      rw [hY _ h]; exact hl2.1
  · rcases hy with h | h
    · exact h.2.le
    · show p.y + α * Real.sin p.theta ≤ _
      rw [hY _ h]; exact hl2.2
  · rw [hbox]; exact fun t a b => hl'.1 t a b
  · rw [hbox]; exact fun h => hl'.2 h

theorem exits_y {sw ww : ℝ} {p : Pose} {u : Dir} {line line2 : ℝ} {lo hi lo2 hi2 : ℝ} {α β : ℝ} {hitX : ℝ → Prop}
    (hlo : lo = ww / 2) (hhi : hi = sw - ww / 2)
    (hbox : (room0 sw ww).extend sw u = ⟨ww / 2, sw - ww / 2, lo2, hi2⟩)
    (hside : ∀ q : ℝ × ℝ, q.2 = line → ww / 2 ≤ q.1 → q.1 ≤ sw - ww / 2 → (room0 sw ww).onSide q u)
    (hX : ∀ t, hitX t → p.x + t * Real.cos p.theta = line2) (hl2 : ww / 2 ≤ line2 ∧ line2 ≤ sw - ww / 2)
    (h : Picked (fun t => lo < p.y + t * Real.sin p.theta ∧ p.y + t * Real.sin p.theta < hi)
      (fun t => lo2 < p.y + t * Real.sin p.theta ∧ p.y + t * Real.sin p.theta < hi2)
      (fun t => p.y + t * Real.sin p.theta = line)
      (fun t => ww / 2 < p.x + t * Real.cos p.theta ∧ p.x + t * Real.cos p.theta < sw - ww / 2) hitX α β) :
    Exits sw ww p u α β := by
  subst hlo hhi
  obtain ⟨h0, hle, hx, hy, hl, hl', -⟩ := h
  refine ⟨h0, hle, ⟨h0.le, fun t a b => (hl.1 t a b).symm, fun h => hl.2 h.symm⟩, hside _ hx ?_ ?_, ⟨by linarith, ?_, ?_⟩⟩
  · rcases hy with h | h
    · exact h.1.le
    · show _ ≤ p.x + α * Real.cos p.theta
      rw [hX _ h]; exact hl2.1
  · rcases hy with h | h
    · exact h.2.le
    · show p.x + α * Real.cos p.theta ≤ _
      rw [hX _ h]; exact hl2.2
  · rw [hbox]; exact fun t a b => (hl'.1 t a b).symm
  · rw [hbox]; exact fun h => hl'.2 h.symm

/-- A ray through a corner of the room passes close to the pillar of that corner. -/
theorem corner_near {sw ww : ℝ} (hww : 0 < ww) {p : Pose} {α : ℝ} {cx cy px py : ℝ}
    (hx : p.x + α * Real.cos p.theta = cx) (hy : p.y + α * Real.sin p.theta = cy)
    (h : (cx - px = -(ww / 2) ∧ cy - py = -(ww / 2) ∧ 0 ≤ Real.cos p.theta * Real.sin p.theta) ∨
      (cx - px = ww / 2 ∧ cy - py = ww / 2 ∧ 0 ≤ Real.cos p.theta * Real.sin p.theta) ∨
      (cx - px = ww / 2 ∧ cy - py = -(ww / 2) ∧ Real.cos p.theta * Real.sin p.theta ≤ 0) ∨
      (cx - px = -(ww / 2) ∧ cy - py = ww / 2 ∧ Real.cos p.theta * Real.sin p.theta ≤ 0)) :
    lineDist p (px, py) ≤ ww / 2 := by
  rw [lineDist_ray p α]
  show |Real.sin p.theta * (p.x + α * Real.cos p.theta - px) - Real.cos p.theta * (p.y + α * Real.sin p.theta - py)| ≤ _
  rw [hx, hy]
  have h1 := Real.sin_sq_add_cos_sq p.theta
  apply abs_le_of_sq_le_sq _ (by linarith)
  have hw2 : 0 ≤ (ww / 2) ^ 2 := sq_nonneg _
  rcases h with ⟨a, b, c⟩ | ⟨a, b, c⟩ | ⟨a, b, c⟩ | ⟨a, b, c⟩ <;> rw [a, b] <;> nlinarith [mul_nonneg hw2 (abs_nonneg 0)]

/-- The pillar towards which a quadrant looks is one of the two examined. -/
theorem near_of_le {c : Converter} {p : Pose} {q : ℝ × ℝ} {d : ℝ}
    (hq : q = (c.pillars (revolution p.theta)).1 ∨ q = (c.pillars (revolution p.theta)).2) (h : lineDist p q ≤ d)
    (hd : d < c.ignoreRadius) : c.isNearPillar p := by
  unfold Converter.isNearPillar
  dsimp only
  rcases hq with rfl | rfl
  · exact lt_of_le_of_lt (le_trans (min_le_left _ _) h) hd
  · exact lt_of_le_of_lt (le_trans (min_le_right _ _) h) hd

/-- What the sorted list says about the ray, in the frame of the cell. -/
theorem core {sw ww ir il : ℝ} (hww : 0 < ww) (hsw : ww < sw) {sort : List (Dir × F) → List (Dir × F)} (hs : Sorts sort)
    {p : Pose} (hr : ww / 2 < p.x ∧ p.x < sw - ww / 2 ∧ ww / 2 < p.y ∧ p.y < sw - ww / 2) :
    ∃ u v α β r, sort ((Converter.new sw ww ir il).axes (revolution p.theta) p.x p.y (Real.cos p.theta) (Real.sin p.theta)) =
        (u, .fin α) :: (v, .fin β) :: r ∧ Exits sw ww p u α β ∧
      (α = β → ww / 2 < ir → (Converter.new sw ww ir il).isNearPillar p) := by
  have fin_list : ∀ {dx dy : Dir} {X1 X2 Y1 Y2 : F} {NX GX hX NY GY hY : ℝ → Prop}, Ax X1 X2 NX GX hX → Ax Y1 Y2 NY GY hY →
      ¬ (X1 = .pinf ∧ Y1 = .pinf) →
      ∃ u v α β r, sort [(dx, X1), (dx, X2), (dy, Y1), (dy, Y2)] = (u, .fin α) :: (v, .fin β) :: r ∧
        ((u = dx ∧ Picked NX GX hX NY hY α β) ∨ (u = dy ∧ Picked NY GY hY NX hX α β)) := by
    intro dx dy X1 X2 Y1 Y2 NX GX hX NY GY hY hx hy hfin
    have hnan : ∀ e ∈ [(dx, X1), (dx, X2), (dy, Y1), (dy, Y2)], e.2 ≠ .nan := by
      intro e he
      simp only [List.mem_cons, List.not_mem_nil, or_false] at he
      rcases he with rfl | rfl | rfl | rfl
      exacts [hx.ne_nan.1, hx.ne_nan.2, hy.ne_nan.1, hy.ne_nan.2]
    obtain ⟨hp, hsd⟩ := hs _ hnan
    have hlen := hp.length_eq
    match hl : sort [(dx, X1), (dx, X2), (dy, Y1), (dy, Y2)] with
    | [] => rw [hl] at hlen; simp at hlen
    | [_] => rw [hl] at hlen; simp at hlen
    | (u, a) :: (v, b) :: r =>
      rw [hl] at hp hsd
      obtain ⟨α, β, rfl, rfl, h⟩ := pick hx hy hfin hp hsd
      exact ⟨u, v, α, β, r, rfl, h⟩
  have hrng := revolution_range p.theta
  by_cases h1 : revolution p.theta < 1 / 4
  · have hq := quad1 h1
    have hx := ax_up (hi2 := sw - ww / 2 + sw) hr.1 hr.2.1 (by linarith) hq.1.le
    have hy := ax_up (hi2 := sw - ww / 2 + sw) hr.2.2.1 hr.2.2.2 (by linarith) hq.2
    obtain ⟨u, v, α, β, r, hl, hp⟩ := fin_list (dx := .right) (dy := .top) hx hy (fun h => by rw [axisDist_pos (div_pos (by linarith) hq.1) hq.1.ne'] at h; cases h.1)
    have hnear : p.x + α * Real.cos p.theta = sw - ww / 2 → p.y + α * Real.sin p.theta = sw - ww / 2 → ww / 2 < ir →
        (Converter.new sw ww ir il).isNearPillar p := by
      intro ex ey hir
      refine near_of_le (q := (sw, sw)) ?_ (corner_near (sw := sw) hww ex ey (Or.inl ⟨by ring, by ring, mul_nonneg hq.1.le hq.2⟩)) hir
      unfold Converter.pillars
      show (sw, sw) = _ ∨ (sw, sw) = _
      split_ifs with g1 g2 g3 <;> first
        | exact Or.inl rfl
        | exact Or.inr rfl
        | (exfalso; linarith)
        | (exfalso; linarith [g1.1, g1.2])
        | (exfalso; exact g1 ⟨by linarith, by linarith⟩)
    refine ⟨u, v, α, β, r, ?_, ?_, ?_⟩
    · rw [← hl]; unfold Converter.axes; rw [if_pos h1]; rfl
    · rcases hp with ⟨rfl, hp⟩ | ⟨rfl, hp⟩
      · exact exits_x rfl rfl rfl (fun q a b c => ⟨a, b, c⟩) (fun t h => h) ⟨by linarith, by linarith⟩ hp
      · exact exits_y rfl rfl rfl (fun q a b c => ⟨a, b, c⟩) (fun t h => h) ⟨by linarith, by linarith⟩ hp
    · intro he hir
      rcases hp with ⟨rfl, hp⟩ | ⟨rfl, hp⟩
      · exact hnear hp.2.2.1 (hp.2.2.2.2.2.2 he) hir
      · exact hnear (hp.2.2.2.2.2.2 he) hp.2.2.1 hir
  by_cases h2 : revolution p.theta < 1 / 2
  · have hq := quad2 h2 (by linarith)
    have hx := ax_down (lo2 := ww / 2 - sw) hr.1 hr.2.1 (by linarith) hq.1
    have hy := ax_up (hi2 := sw - ww / 2 + sw) hr.2.2.1 hr.2.2.2 (by linarith) hq.2.le
    obtain ⟨u, v, α, β, r, hl, hp⟩ := fin_list (dx := .left) (dy := .top) hx hy (fun h => by rw [axisDist_pos (div_pos (by linarith) hq.2) hq.2.ne'] at h; cases h.2)
    have hnear : p.x + α * Real.cos p.theta = ww / 2 → p.y + α * Real.sin p.theta = sw - ww / 2 → ww / 2 < ir →
        (Converter.new sw ww ir il).isNearPillar p := by
      intro ex ey hir
      refine near_of_le (q := (0, sw)) ?_ (corner_near (sw := sw) hww ex ey (Or.inr (Or.inr (Or.inl ⟨by ring, by ring, mul_nonpos_of_nonpos_of_nonneg hq.1 hq.2.le⟩)))) hir
      unfold Converter.pillars
      show (0, sw) = _ ∨ (0, sw) = _
      split_ifs with g1 g2 g3 <;> first
        | exact Or.inl rfl
        | exact Or.inr rfl
        | (exfalso; linarith)
        | (exfalso; linarith [g1.1, g1.2])
        | (exfalso; exact g1 ⟨by linarith, by linarith⟩)
    refine ⟨u, v, α, β, r, ?_, ?_, ?_⟩
    · rw [← hl]; unfold Converter.axes; rw [if_neg h1]; rw [if_pos h2]; rfl
    · rcases hp with ⟨rfl, hp⟩ | ⟨rfl, hp⟩
      · exact exits_x rfl rfl rfl (fun q a b c => ⟨a, b, c⟩) (fun t h => h) ⟨by linarith, by linarith⟩ hp
      · exact exits_y rfl rfl rfl (fun q a b c => ⟨a, b, c⟩) (fun t h => h) ⟨by linarith, by linarith⟩ hp
    · intro he hir
      rcases hp with ⟨rfl, hp⟩ | ⟨rfl, hp⟩
      · exact hnear hp.2.2.1 (hp.2.2.2.2.2.2 he) hir
      · exact hnear (hp.2.2.2.2.2.2 he) hp.2.2.1 hir
  by_cases h3 : revolution p.theta < 3 / 4
  · have hq := quad3 h3 (by linarith)
    have hx := ax_down (lo2 := ww / 2 - sw) hr.1 hr.2.1 (by linarith) hq.1.le
    have hy := ax_down (lo2 := ww / 2 - sw) hr.2.2.1 hr.2.2.2 (by linarith) hq.2
    obtain ⟨u, v, α, β, r, hl, hp⟩ := fin_list (dx := .left) (dy := .bottom) hx hy (fun h => by rw [axisDist_pos (div_pos_of_neg_of_neg (by linarith) hq.1) hq.1.ne] at h; cases h.1)
    have hnear : p.x + α * Real.cos p.theta = ww / 2 → p.y + α * Real.sin p.theta = ww / 2 → ww / 2 < ir →
        (Converter.new sw ww ir il).isNearPillar p := by
      intro ex ey hir
      refine near_of_le (q := (0, 0)) ?_ (corner_near (sw := sw) hww ex ey (Or.inr (Or.inl ⟨by ring, by ring, mul_nonneg_of_nonpos_of_nonpos hq.1.le hq.2⟩))) hir
      unfold Converter.pillars
      show (0, 0) = _ ∨ (0, 0) = _
      split_ifs with g1 g2 g3 <;> first
        | exact Or.inl rfl
        | exact Or.inr rfl
        | (exfalso; linarith)
        | (exfalso; linarith [g1.1, g1.2])
        | (exfalso; exact g1 ⟨by linarith, by linarith⟩)
    refine ⟨u, v, α, β, r, ?_, ?_, ?_⟩
    · rw [← hl]; unfold Converter.axes; rw [if_neg h1]; rw [if_neg h2]; rw [if_pos h3]; rfl
    · rcases hp with ⟨rfl, hp⟩ | ⟨rfl, hp⟩
      · exact exits_x rfl rfl rfl (fun q a b c => ⟨a, b, c⟩) (fun t h => h) ⟨by linarith, by linarith⟩ hp
      · exact exits_y rfl rfl rfl (fun q a b c => ⟨a, b, c⟩) (fun t h => h) ⟨by linarith, by linarith⟩ hp
    · intro he hir
      rcases hp with ⟨rfl, hp⟩ | ⟨rfl, hp⟩
      · exact hnear hp.2.2.1 (hp.2.2.2.2.2.2 he) hir
      · exact hnear (hp.2.2.2.2.2.2 he) hp.2.2.1 hir
  · have hq := quad4 (not_lt.mp h3)
    have hx := ax_up (hi2 := sw - ww / 2 + sw) hr.1 hr.2.1 (by linarith) hq.1
    have hy := ax_down (lo2 := ww / 2 - sw) hr.2.2.1 hr.2.2.2 (by linarith) hq.2.le
    obtain ⟨u, v, α, β, r, hl, hp⟩ := fin_list (dx := .right) (dy := .bottom) hx hy (fun h => by rw [axisDist_pos (div_pos_of_neg_of_neg (by linarith) hq.2) hq.2.ne] at h; cases h.2)
    have hnear : p.x + α * Real.cos p.theta = sw - ww / 2 → p.y + α * Real.sin p.theta = ww / 2 → ww / 2 < ir →
        (Converter.new sw ww ir il).isNearPillar p := by
      intro ex ey hir
      refine near_of_le (q := (sw, 0)) ?_ (corner_near (sw := sw) hww ex ey (Or.inr (Or.inr (Or.inr ⟨by ring, by ring, mul_nonpos_of_nonneg_of_nonpos hq.1 hq.2.le⟩)))) hir
      unfold Converter.pillars
      show (sw, 0) = _ ∨ (sw, 0) = _
      split_ifs with g1 g2 g3 <;> first
        | exact Or.inl rfl
        | exact Or.inr rfl
        | (exfalso; linarith)
        | (exfalso; linarith [g1.1, g1.2])
        | (exfalso; exact g1 ⟨by linarith, by linarith⟩)
    refine ⟨u, v, α, β, r, ?_, ?_, ?_⟩
    · rw [← hl]; unfold Converter.axes; rw [if_neg h1]; rw [if_neg h2]; rw [if_neg h3]; rfl
    · rcases hp with ⟨rfl, hp⟩ | ⟨rfl, hp⟩
      · exact exits_x rfl rfl rfl (fun q a b c => ⟨a, b, c⟩) (fun t h => h) ⟨by linarith, by linarith⟩ hp
      · exact exits_y rfl rfl rfl (fun q a b c => ⟨a, b, c⟩) (fun t h => h) ⟨by linarith, by linarith⟩ hp
    · intro he hir
      rcases hp with ⟨rfl, hp⟩ | ⟨rfl, hp⟩
      · exact hnear hp.2.2.1 (hp.2.2.2.2.2.2 he) hir
      · exact hnear (hp.2.2.2.2.2.2 he) hp.2.2.1 hir

/-! ## From the frame of the cell to the maze -/

theorem inside_shift (sw ww : ℝ) (i j : Int) (p : Pose) (t : ℝ) :
    (room sw ww i j).inside (ray p t) ↔ (room0 sw ww).inside (ray ⟨p.x - i * sw, p.y - j * sw, p.theta⟩ t) := by
  simp only [Box.inside, room, room0, ray]
  constructor <;> rintro ⟨⟨a, b⟩, c, d⟩ <;> exact ⟨⟨by linarith, by linarith⟩, by linarith, by linarith⟩

theorem inside_extend_shift (sw ww : ℝ) (i j : Int) (p : Pose) (t : ℝ) (u : Dir) :
    ((room sw ww i j).extend sw u).inside (ray p t) ↔
      ((room0 sw ww).extend sw u).inside (ray ⟨p.x - i * sw, p.y - j * sw, p.theta⟩ t) := by
  cases u <;> simp only [Box.inside, Box.extend, room, room0, ray] <;>
    constructor <;> rintro ⟨⟨a, b⟩, c, d⟩ <;> exact ⟨⟨by linarith, by linarith⟩, by linarith, by linarith⟩

theorem onSide_shift (sw ww : ℝ) (i j : Int) (p : Pose) (t : ℝ) (u : Dir) :
    (room sw ww i j).onSide (ray p t) u ↔ (room0 sw ww).onSide (ray ⟨p.x - i * sw, p.y - j * sw, p.theta⟩ t) u := by
  cases u <;> simp only [Box.onSide, room, room0, ray] <;>
    constructor <;> rintro ⟨a, c, d⟩ <;> exact ⟨by linarith, by linarith, by linarith⟩

theorem leaves_shift (sw ww : ℝ) (i j : Int) (p : Pose) (a : ℝ) :
    LeavesAt (room sw ww i j) p a ↔ LeavesAt (room0 sw ww) ⟨p.x - i * sw, p.y - j * sw, p.theta⟩ a := by
  simp only [LeavesAt, inside_shift]

theorem leaves_extend_shift (sw ww : ℝ) (i j : Int) (p : Pose) (a : ℝ) (u : Dir) :
    LeavesAt ((room sw ww i j).extend sw u) p a ↔
      LeavesAt ((room0 sw ww).extend sw u) ⟨p.x - i * sw, p.y - j * sw, p.theta⟩ a := by
  simp only [LeavesAt, inside_extend_shift]

theorem leaves_unique {b : Box} {p : Pose} {a a' : ℝ} (h : LeavesAt b p a) (h' : LeavesAt b p a') : a = a' := by
  rcases lt_trichotomy a a' with g | g | g
  · exact absurd (h'.2.1 a h.1 g) h.2.2
  · exact g
  · exact absurd (h.2.1 a' h'.1 g) h'.2.2

/-- Whatever is returned, anywhere: what the remainders and quotients satisfy. -/
theorem convert_some {sw ww ir il : ℝ} (hww : 0 < ww) (hsw : ww < sw) {W : Nat} {sort : List (Dir × F) → List (Dir × F)}
    (hs : Sorts sort) {p : Pose} {info : WallInfo} {rx ry : ℝ} {qx qy : Int}
    (hx : (Converter.new sw ww ir il).remquo p.x = (rx, qx)) (hy : (Converter.new sw ww ir il).remquo p.y = (ry, qy))
    (h : (Converter.new sw ww ir il).convert W sort p = some info) :
    ¬ (Converter.new sw ww ir il).isNearPillar ⟨rx, ry, p.theta⟩ ∧
    (ww / 2 < rx ∧ rx < sw - ww / 2 ∧ ww / 2 < ry ∧ ry < sw - ww / 2) ∧
    ∃ u α β, wallAt W qx qy u = some info.coord ∧ info.existing = .fin α ∧ info.notExisting = .fin β ∧
      Exits sw ww ⟨rx, ry, p.theta⟩ u α β ∧ il < α ∧ (ww / 2 < ir → α < β) := by
  unfold Converter.convert at h
  rw [hx, hy] at h
  dsimp only at h
  by_cases hn : (Converter.new sw ww ir il).isNearPillar ⟨rx, ry, p.theta⟩
  · rw [if_pos hn] at h; cases h
  rw [if_neg hn] at h
  by_cases hr : rx ≤ (Converter.new sw ww ir il).n1 ∨ (Converter.new sw ww ir il).p1 ≤ rx ∨
      ry ≤ (Converter.new sw ww ir il).n1 ∨ (Converter.new sw ww ir il).p1 ≤ ry
  · rw [if_pos hr] at h; cases h
  rw [if_neg hr] at h
  have hr' : ww / 2 < rx ∧ rx < sw - ww / 2 ∧ ww / 2 < ry ∧ ry < sw - ww / 2 := by
    simp only [not_or, not_le] at hr
    exact hr
  obtain ⟨u, v, α, β, r, hl, he, hd⟩ := core (ir := ir) (il := il) hww hsw hs (p := ⟨rx, ry, p.theta⟩) hr'
  dsimp only at hl
  rw [hl] at h
  dsimp only at h
  refine ⟨hn, hr', u, α, β, ?_⟩
  match hw : wallAt W qx qy u with
  | none => rw [hw] at h; cases h
  | some c =>
    rw [hw] at h
    dsimp only at h
    by_cases hil : F.le (.fin α) (.fin (Converter.new sw ww ir il).ignoreLength)
    · rw [if_pos hil] at h; cases h
    · rw [if_neg hil] at h
      cases h
      exact ⟨rfl, rfl, rfl, he, not_le.mp hil, fun hir => lt_of_le_of_ne he.le (fun e => hn (hd e hir))⟩

/-- Conversely, when nothing rules the pose out. -/
theorem convert_of {sw ww ir il : ℝ} (hww : 0 < ww) (hsw : ww < sw) {W : Nat} {sort : List (Dir × F) → List (Dir × F)}
    (hs : Sorts sort) {p : Pose} {rx ry : ℝ} {qx qy : Int}
    (hx : (Converter.new sw ww ir il).remquo p.x = (rx, qx)) (hy : (Converter.new sw ww ir il).remquo p.y = (ry, qy))
    (hn : ¬ (Converter.new sw ww ir il).isNearPillar ⟨rx, ry, p.theta⟩)
    (hr : ww / 2 < rx ∧ rx < sw - ww / 2 ∧ ww / 2 < ry ∧ ry < sw - ww / 2) :
    ∃ u α β, Exits sw ww ⟨rx, ry, p.theta⟩ u α β ∧
      ∀ c, wallAt W qx qy u = some c → il < α →
        (Converter.new sw ww ir il).convert W sort p = some ⟨c, .fin α, .fin β⟩ := by
  obtain ⟨u, v, α, β, r, hl, he, -⟩ := core (ir := ir) (il := il) hww hsw hs (p := ⟨rx, ry, p.theta⟩) hr
  refine ⟨u, α, β, he, fun c hc hα => ?_⟩
  dsimp only at hl
  unfold Converter.convert
  rw [hx, hy]
  dsimp only
  rw [if_neg hn, if_neg, hl]
  · dsimp only
    rw [hc]
    dsimp only
    rw [if_neg]
    exact not_le.mpr hα
  · simp only [not_or, not_le]
    exact hr

theorem wallAt_valid {W : Nat} (hW : Supported W) {qx qy : Int} {u : Dir} {c : Coord} (h : wallAt W qx qy u = some c) :
    Valid W c := by
  have lt1 : ∀ q : Int, shl1U8 q ||| 1 < 256 := fun q => Nat.or_lt_two_pow (n := 8) (shl1U8_lt q) (by norm_num)
  cases u <;> simp only [wallAt] at h <;> split at h
  all_goals first
    | cases h
    | exact ((Props.C01_valid W hW _ _ (lt1 _) (shl1U8_lt _) c).mp h).1
    | exact ((Props.C01_valid W hW _ _ (shl1U8_lt _) (lt1 _) c).mp h).1

end Verif.Proof
