import Verif.Proof.SingleSight
import Mathlib.Analysis.SpecialFunctions.Trigonometric.Bounds
/-!
# The pose converter in single precision: the four quarters of the plane
-/
namespace Verif.Proof
open Verif Verif.Spec Verif.Convert Verif.Single Verif.Binary32 Verif.Search Verif.Detect

variable {exp : F → F}

theorem revolution_turns (u : ℝ) (n : ℤ) : revolution (2 * Real.pi * (u + n)) = Int.fract u := by
  unfold revolution
  rw [mul_div_cancel_left₀ _ (by positivity), Int.fract_add_intCast]

/-- The signs of the sine and the cosine, up to a small number, from the quarter of the rounded angle. -/
theorem quarters {θ u : ℝ} {n : ℤ} (h0 : 0 ≤ u) (h1 : u ≤ 1) (h : |θ - 2 * Real.pi * (u + n)| ≤ 3 / 100000) :
    (u < 1 / 4 → -(3 / 100000) ≤ Real.cos θ ∧ -(3 / 100000) ≤ Real.sin θ) ∧
    (1 / 4 ≤ u → u < 1 / 2 → Real.cos θ ≤ 3 / 100000 ∧ -(3 / 100000) ≤ Real.sin θ) ∧
    (1 / 2 ≤ u → u < 3 / 4 → Real.cos θ ≤ 3 / 100000 ∧ Real.sin θ ≤ 3 / 100000) ∧
    (3 / 4 ≤ u → -(3 / 100000) ≤ Real.cos θ ∧ Real.sin θ ≤ 3 / 100000) := by
  have hc := abs_le.1 ((Real.abs_cos_sub_cos_le θ (2 * Real.pi * (u + n))).trans h)
  have hs := abs_le.1 ((Real.abs_sin_sub_sin_le θ (2 * Real.pi * (u + n))).trans h)
  have hr := revolution_turns u n
  have hu : u < 1 → Int.fract u = u := fun h => Int.fract_eq_self.2 ⟨h0, h⟩
  refine ⟨fun a => ?_, fun a b => ?_, fun a b => ?_, fun a => ?_⟩
  · rw [hu (by linarith)] at hr
    have q := quad1 (by rw [hr]; exact a)
    constructor <;> linarith
  · rw [hu (by linarith)] at hr
    have q := quad2 (by rw [hr]; exact b) (by rw [hr]; exact a)
    constructor <;> linarith
  · rw [hu (by linarith)] at hr
    have q := quad3 (by rw [hr]; exact b) (by rw [hr]; exact a)
    constructor <;> linarith
  · rcases h1.lt_or_eq with h1 | h1
    · rw [hu h1] at hr
      have q := quad4 (by rw [hr]; exact a)
      constructor <;> linarith
    · have e : 2 * Real.pi * (u + n) = 0 + (n + 1 : ℤ) * (2 * Real.pi) := by rw [h1]; push_cast; ring
      have e1 : Real.cos (2 * Real.pi * (u + n)) = 1 := by rw [e, Real.cos_add_int_mul_two_pi, Real.cos_zero]
      have e2 : Real.sin (2 * Real.pi * (u + n)) = 0 := by rw [e, Real.sin_add_int_mul_two_pi, Real.sin_zero]
      constructor <;> linarith

/-- One of two numbers is large. -/
theorem one_large {θ c s ε a b : ℝ} (hε : ε ≤ 1 / 1000) (hc : |c - Real.cos θ| ≤ ε) (hs : |s - Real.sin θ| ≤ ε)
    (ha : a ^ 2 = 1) (hb : b ^ 2 = 1) (h1 : -(3 / 100000) ≤ a * Real.cos θ) (h2 : -(3 / 100000) ≤ b * Real.sin θ) :
    69 / 100 ≤ a * c ∨ 69 / 100 ≤ b * s := by
  have hc' := abs_le.1 hc
  have hs' := abs_le.1 hs
  have hsq := Real.sin_sq_add_cos_sq θ
  have ha' : a = 1 ∨ a = -1 := sq_eq_sq_iff_eq_or_eq_neg.1 (by rw [ha]; norm_num)
  have hb' : b = 1 ∨ b = -1 := sq_eq_sq_iff_eq_or_eq_neg.1 (by rw [hb]; norm_num)
  by_contra hn
  push Not at hn
  have k1 : a * Real.cos θ < 7 / 10 := by rcases ha' with rfl | rfl <;> linarith [hn.1]
  have k2 : b * Real.sin θ < 7 / 10 := by rcases hb' with rfl | rfl <;> linarith [hn.2]
  have m1 : (a * Real.cos θ) ^ 2 ≤ (7 / 10) ^ 2 := sq_le_sq' (by linarith) k1.le
  have m2 : (b * Real.sin θ) ^ 2 ≤ (7 / 10) ^ 2 := sq_le_sq' (by linarith) k2.le
  rw [mul_pow, ha] at m1
  rw [mul_pow, hb] at m2
  norm_num at m1 m2
  linarith

/-- Closes a statement about a side from what was selected. -/
macro "close_side" : tactic => `(tactic|
  (refine ⟨abs_le.2 ⟨?_, ?_⟩, ?_, ?_⟩ <;> simp only [Box.extend, room, ray] <;> linarith))

set_option maxHeartbeats 800000 in
/-- The two nearest lines of a pose inside a room. -/
theorem sighted {L : Lib} {ε θ : ℝ} (hθ : |θ| ≤ 100) (ht : TrigNear L ε θ) (hε : ε ≤ 1 / 1000)
    {sort : List (Dir × F) → List (Dir × F)} (hs : Sorts sort) {s ir il p1 p2 n1 n2 : F} {P1 P2 N1 N2 : ℝ} (e1 : p1 = .fin P1) (e2 : p2 = .fin P2)
    (e3 : n1 = .fin N1) (e4 : n2 = .fin N2)
    (hp1 : |P1 - 87 / 1000| ≤ 3 / 10 ^ 8) (hp2 : |P2 - 177 / 1000| ≤ 6 / 10 ^ 8) (hn1 : |N1 - 3 / 1000| ≤ 1 / 10 ^ 8)
    (hn2 : |N2 + 87 / 1000| ≤ 3 / 10 ^ 8) {px py rx ry : ℝ} {i j : Int} (hx : |rx - (px - 9 / 100 * i)| ≤ 3 / 10 ^ 6)
    (hy : |ry - (py - 9 / 100 * j)| ≤ 3 / 10 ^ 6) (hx0 : N1 < rx) (hx1 : rx < P1) (hy0 : N1 < ry) (hy1 : ry < P1) :
    ∃ u v α β r, sort (Finder.axes (arith exp) ⟨90, s, ir, il, p1, p2, n1, n2⟩ (rotation (arith exp) (.fin θ)) (.fin rx) (.fin ry)
        (L.cos (.fin θ)) (L.sin (.fin θ))) = (u, .fin α) :: (v, .fin β) :: r ∧
      0 ≤ α ∧ α ≤ 13 / 100 ∧ α ≤ β ∧ β ≤ 26 / 100 ∧
      (room (9 / 100) (6 / 1000) i j).nearSide (3 / 10 * ε + 13 / 1000000) (ray ⟨px, py, θ⟩ α) u ∧
      ∃ w, ((room (9 / 100) (6 / 1000) i j).extend (9 / 100) u).nearSide (3 / 10 * ε + 13 / 1000000) (ray ⟨px, py, θ⟩ β) w := by
  subst e1 e2 e3 e4
  obtain ⟨sn, c, es, ec, bs, bc⟩ := ht
  obtain ⟨u, n, er, hu0, hu1, hun⟩ := rotation_near (exp := exp) hθ
  obtain ⟨q1, q2, q3, q4⟩ := quarters hu0 hu1 hun
  have hC := Real.abs_cos_le_one θ
  have hS := Real.abs_sin_le_one θ
  have hp1' := abs_le.1 hp1
  have hn1' := abs_le.1 hn1
  norm_num at hp1' hn1'
  rw [es, ec, er]
  unfold Finder.axes
  dsimp only
  have nn : ∀ l : List (Dir × F), (∀ e ∈ l, e.2 ≠ F.nan) → (sort l).Perm l ∧ (sort l).Pairwise (fun a b => a.2.le b.2) := hs
  -- the outlook of each axis
  have upX := fun h => outlook_up (exp := exp) (ε := ε) hp1 hp2 hx (by linarith) hx1 bc hC h hε
  have upY := fun h => outlook_up (exp := exp) (ε := ε) hp1 hp2 hy (by linarith) hy1 bs hS h hε
  have dnX := fun h => outlook_down (exp := exp) (ε := ε) hn1 hn2 hx hx0 (by linarith) bc hC h hε
  have dnY := fun h => outlook_down (exp := exp) (ε := ε) hn1 hn2 hy hy0 (by linarith) bs hS h hε
  have four : ∀ (d d' : Dir) (a b c e : F), a ≠ .nan → b ≠ .nan → c ≠ .nan → e ≠ .nan →
      ∀ x ∈ [(d, a), (d, b), (d', c), (d', e)], x.2 ≠ F.nan := by
    intro d d' a b c e ha hb hc he x hx
    simp only [List.mem_cons, List.not_mem_nil, or_false] at hx
    rcases hx with rfl | rfl | rfl | rfl <;> assumption
  split_ifs with c1 c2 c3
  · have c1 : u < 1 / 4 := c1
    obtain ⟨k1, k2⟩ := q1 c1
    obtain ⟨ox, gx⟩ := upX k1
    obtain ⟨oy, gy⟩ := upY k2
    have hfin := one_large (a := 1) (b := 1) hε bc bs (by norm_num) (by norm_num) (by linarith) (by linarith)
    obtain ⟨hp, hso⟩ := nn _ (four .right .top _ _ _ _ ox.n1.1 ox.n2.1 oy.n1.1 oy.n2.1)
    obtain ⟨u', v, α, β, r, hl, α0, α1, αβ, β1, hsel⟩ :=
      select ox oy (hfin.imp (fun h => gx (by linarith)) (fun h => gy (by linarith))) hp hso
    refine ⟨u', v, α, β, r, hl, α0, α1, αβ, β1, ?_⟩
    clear hl hp hso ox oy gx gy upX upY dnX dnY q1 q2 q3 q4 nn four hx hy hun es ec er hfin bs bc hC hS hp1 hp2 hn1 hn2
    rcases hsel with ⟨rfl, a1, ⟨a2, a2'⟩, a3⟩ | ⟨rfl, a1, ⟨a2, a2'⟩, a3⟩
    · rw [abs_le] at a1
      refine ⟨by clear * - a1 a2 a2'; close_side, ?_⟩
      rcases a3 with ⟨b1, b2, b3⟩ | ⟨b1, b2, b3⟩ <;> rw [abs_le] at b1
      · exact ⟨.right, by clear * - b1 b2 b3; close_side⟩
      · exact ⟨.top, by clear * - b1 b2 b3; close_side⟩
    · rw [abs_le] at a1
      refine ⟨by clear * - a1 a2 a2'; close_side, ?_⟩
      rcases a3 with ⟨b1, b2, b3⟩ | ⟨b1, b2, b3⟩ <;> rw [abs_le] at b1
      · exact ⟨.top, by clear * - b1 b2 b3; close_side⟩
      · exact ⟨.right, by clear * - b1 b2 b3; close_side⟩
  · have c1 : ¬ u < 1 / 4 := c1
    have c2 : u < 1 / 2 := c2
    obtain ⟨k1, k2⟩ := q2 (not_lt.1 c1) c2
    obtain ⟨ox, gx⟩ := dnX k1
    obtain ⟨oy, gy⟩ := upY k2
    have hfin := one_large (a := -1) (b := 1) hε bc bs (by norm_num) (by norm_num) (by linarith) (by linarith)
    obtain ⟨hp, hso⟩ := nn _ (four .left .top _ _ _ _ ox.n1.1 ox.n2.1 oy.n1.1 oy.n2.1)
    obtain ⟨u', v, α, β, r, hl, α0, α1, αβ, β1, hsel⟩ :=
      select ox oy (hfin.imp (fun h => gx (by linarith)) (fun h => gy (by linarith))) hp hso
    refine ⟨u', v, α, β, r, hl, α0, α1, αβ, β1, ?_⟩
    clear hl hp hso ox oy gx gy upX upY dnX dnY q1 q2 q3 q4 nn four hx hy hun es ec er hfin bs bc hC hS hp1 hp2 hn1 hn2
    rcases hsel with ⟨rfl, a1, ⟨a2, a2'⟩, a3⟩ | ⟨rfl, a1, ⟨a2, a2'⟩, a3⟩
    · rw [abs_le] at a1
      refine ⟨by clear * - a1 a2 a2'; close_side, ?_⟩
      rcases a3 with ⟨b1, b2, b3⟩ | ⟨b1, b2, b3⟩ <;> rw [abs_le] at b1
      · exact ⟨.left, by clear * - b1 b2 b3; close_side⟩
      · exact ⟨.top, by clear * - b1 b2 b3; close_side⟩
    · rw [abs_le] at a1
      refine ⟨by clear * - a1 a2 a2'; close_side, ?_⟩
      rcases a3 with ⟨b1, b2, b3⟩ | ⟨b1, b2, b3⟩ <;> rw [abs_le] at b1
      · exact ⟨.top, by clear * - b1 b2 b3; close_side⟩
      · exact ⟨.left, by clear * - b1 b2 b3; close_side⟩
  · have c2 : ¬ u < 1 / 2 := c2
    have c3 : u < 3 / 4 := c3
    obtain ⟨k1, k2⟩ := q3 (not_lt.1 c2) c3
    obtain ⟨ox, gx⟩ := dnX k1
    obtain ⟨oy, gy⟩ := dnY k2
    have hfin := one_large (a := -1) (b := -1) hε bc bs (by norm_num) (by norm_num) (by linarith) (by linarith)
    obtain ⟨hp, hso⟩ := nn _ (four .left .bottom _ _ _ _ ox.n1.1 ox.n2.1 oy.n1.1 oy.n2.1)
    obtain ⟨u', v, α, β, r, hl, α0, α1, αβ, β1, hsel⟩ :=
      select ox oy (hfin.imp (fun h => gx (by linarith)) (fun h => gy (by linarith))) hp hso
    refine ⟨u', v, α, β, r, hl, α0, α1, αβ, β1, ?_⟩
    clear hl hp hso ox oy gx gy upX upY dnX dnY q1 q2 q3 q4 nn four hx hy hun es ec er hfin bs bc hC hS hp1 hp2 hn1 hn2
    rcases hsel with ⟨rfl, a1, ⟨a2, a2'⟩, a3⟩ | ⟨rfl, a1, ⟨a2, a2'⟩, a3⟩
    · rw [abs_le] at a1
      refine ⟨by clear * - a1 a2 a2'; close_side, ?_⟩
      rcases a3 with ⟨b1, b2, b3⟩ | ⟨b1, b2, b3⟩ <;> rw [abs_le] at b1
      · exact ⟨.left, by clear * - b1 b2 b3; close_side⟩
      · exact ⟨.bottom, by clear * - b1 b2 b3; close_side⟩
    · rw [abs_le] at a1
      refine ⟨by clear * - a1 a2 a2'; close_side, ?_⟩
      rcases a3 with ⟨b1, b2, b3⟩ | ⟨b1, b2, b3⟩ <;> rw [abs_le] at b1
      · exact ⟨.bottom, by clear * - b1 b2 b3; close_side⟩
      · exact ⟨.left, by clear * - b1 b2 b3; close_side⟩
  · have c3 : ¬ u < 3 / 4 := c3
    obtain ⟨k1, k2⟩ := q4 (not_lt.1 c3)
    obtain ⟨ox, gx⟩ := upX k1
    obtain ⟨oy, gy⟩ := dnY k2
    have hfin := one_large (a := 1) (b := -1) hε bc bs (by norm_num) (by norm_num) (by linarith) (by linarith)
    obtain ⟨hp, hso⟩ := nn _ (four .right .bottom _ _ _ _ ox.n1.1 ox.n2.1 oy.n1.1 oy.n2.1)
    obtain ⟨u', v, α, β, r, hl, α0, α1, αβ, β1, hsel⟩ :=
      select ox oy (hfin.imp (fun h => gx (by linarith)) (fun h => gy (by linarith))) hp hso
    refine ⟨u', v, α, β, r, hl, α0, α1, αβ, β1, ?_⟩
    clear hl hp hso ox oy gx gy upX upY dnX dnY q1 q2 q3 q4 nn four hx hy hun es ec er hfin bs bc hC hS hp1 hp2 hn1 hn2
    rcases hsel with ⟨rfl, a1, ⟨a2, a2'⟩, a3⟩ | ⟨rfl, a1, ⟨a2, a2'⟩, a3⟩
    · rw [abs_le] at a1
      refine ⟨by clear * - a1 a2 a2'; close_side, ?_⟩
      rcases a3 with ⟨b1, b2, b3⟩ | ⟨b1, b2, b3⟩ <;> rw [abs_le] at b1
      · exact ⟨.right, by clear * - b1 b2 b3; close_side⟩
      · exact ⟨.bottom, by clear * - b1 b2 b3; close_side⟩
    · rw [abs_le] at a1
      refine ⟨by clear * - a1 a2 a2'; close_side, ?_⟩
      rcases a3 with ⟨b1, b2, b3⟩ | ⟨b1, b2, b3⟩ <;> rw [abs_le] at b1
      · exact ⟨.bottom, by clear * - b1 b2 b3; close_side⟩
      · exact ⟨.right, by clear * - b1 b2 b3; close_side⟩

end Verif.Proof
