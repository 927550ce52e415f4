import Verif.Proof.SingleQuarter
/-!
# The pose converter in single precision: pillars, and where the exact ray leaves the room
-/
namespace Verif.Proof
open Verif Verif.Spec Verif.Convert Verif.Single Verif.Binary32 Verif.Search Verif.Detect

variable {exp : F → F}

theorem abs_mul_unit {u z b : ℝ} (hu : |u| ≤ 1) (hz : |z| ≤ b) : |u * z| ≤ b := by
  rw [abs_mul]
  calc |u| * |z| ≤ 1 * |z| := mul_le_mul_of_nonneg_right hu (abs_nonneg z)
    _ ≤ b := by rw [one_mul]; exact hz

/-- The exact ray hits the line near which the computed ray ends, between the two pillars. -/
theorem exit_num {x y x1 y0 y1 C S α τ : ℝ} (hτ0 : 0 < τ) (hτ : τ ≤ 32 / 100000) (hx : x < x1 - τ - τ) (hα : 0 ≤ α)
    (hyy : y1 - y0 = 84 / 1000) (h1 : |x + α * C - x1| ≤ τ) (h2 : y0 - τ ≤ y + α * S) (h3 : y + α * S ≤ y1 + τ)
    (hsq : S ^ 2 + C ^ 2 = 1) (hp : 1 / 100 ≤ |S * (x - (x1 + 3 / 1000)) - C * (y - (y1 + 3 / 1000))|)
    (hq : 1 / 100 ≤ |S * (x - (x1 + 3 / 1000)) - C * (y - (y0 - 3 / 1000))|) :
    0 < C ∧ ∃ a, 0 < a ∧ x + a * C = x1 ∧ |α - a| ≤ 15 * τ ∧ y0 < y + a * S ∧ y + a * S < y1 := by
  have h1' := abs_le.1 h1
  have hS : |S| ≤ 1 := abs_le_one_iff_mul_self_le_one.2 (by nlinarith)
  have hC : |C| ≤ 1 := abs_le_one_iff_mul_self_le_one.2 (by nlinarith)
  have hC0 : 0 < C := by
    by_contra hn
    have := mul_nonpos_of_nonneg_of_nonpos hα (not_lt.1 hn)
    linarith
  have hC1 := (abs_le.1 hC).2
  have hS1 := abs_le.1 hS
  -- the cosine is not small
  have e1 : S * (x - (x1 + 3 / 1000)) - C * (y - (y1 + 3 / 1000)) =
      S * (x + α * C - x1 - 3 / 1000) + C * (y1 + 3 / 1000 - (y + α * S)) := by ring
  have b1 : |S * (x + α * C - x1 - 3 / 1000)| ≤ 3 / 1000 + τ := by
    exact abs_mul_unit hS (by rw [abs_le]; constructor <;> linarith)
  have hC7 : 7 / 100 ≤ C := by
    rw [e1] at hp
    have := hp.trans (abs_add_le _ _)
    rw [abs_mul C, abs_of_pos hC0, abs_of_pos (show 0 < y1 + 3 / 1000 - (y + α * S) by linarith)] at this
    by_contra hn
    push Not at hn
    have : C * (y1 + 3 / 1000 - (y + α * S)) ≤ 7 / 100 * (88 / 1000) :=
      mul_le_mul hn.le (by linarith) (by linarith) (by norm_num)
    linarith
  refine ⟨hC0, (x1 - x) / C, div_pos (by linarith) hC0, by field_simp; ring, ?_⟩
  obtain ⟨a, ha⟩ : ∃ a, a = (x1 - x) / C := ⟨_, rfl⟩
  rw [← ha]
  have haC : a * C = x1 - x := by rw [ha]; field_simp
  have hd : |α - a| ≤ 15 * τ := by
    have e : (α - a) * C = x + α * C - x1 := by rw [sub_mul, haC]; ring
    rw [← e, abs_mul, abs_of_pos hC0] at h1
    have := mul_le_mul_of_nonneg_left hC7 (abs_nonneg (α - a))
    linarith
  have hd' := abs_le.1 hd
  have hm : |(a - α) * S| ≤ 15 * τ := by
    rw [mul_comm]
    exact abs_mul_unit hS (by rw [abs_sub_comm]; exact hd)
  have hm' := abs_le.1 hm
  have ey : y + a * S = y + α * S + (a - α) * S := by ring
  have s3 : |S * (-(3 / 1000))| ≤ 3 / 1000 := by rw [abs_mul]; norm_num; linarith
  refine ⟨hd, ?_, ?_⟩
  · by_contra hn
    push Not at hn
    have e2 : S * (x - (x1 + 3 / 1000)) - C * (y - (y0 - 3 / 1000)) = S * (-(3 / 1000)) + C * (y0 - 3 / 1000 - (y + a * S)) := by
      have : x = x1 - a * C := by linarith
      rw [this]; ring
    rw [e2] at hq
    have h5 := hq.trans (abs_add_le _ _)
    have : |C * (y0 - 3 / 1000 - (y + a * S))| ≤ 3 / 1000 := by
      exact abs_mul_unit hC (by rw [abs_le]; constructor <;> linarith)
    linarith
  · by_contra hn
    push Not at hn
    have e2 : S * (x - (x1 + 3 / 1000)) - C * (y - (y1 + 3 / 1000)) = S * (-(3 / 1000)) + C * (y1 + 3 / 1000 - (y + a * S)) := by
      have : x = x1 - a * C := by linarith
      rw [this]; ring
    rw [e2] at hp
    have h5 := hp.trans (abs_add_le _ _)
    have : |C * (y1 + 3 / 1000 - (y + a * S))| ≤ 3 / 1000 := by
      exact abs_mul_unit hC (by rw [abs_le]; constructor <;> linarith)
    linarith

/-- The distance of the line of sight from a pillar. -/
theorem pillar_dist {sn c S C ε X Y A B rx ry a b : ℝ} (hε0 : 0 ≤ ε) (hε : ε ≤ 1 / 1000) (hs : |sn - S| ≤ ε) (hc : |c - C| ≤ ε) (hS : |S| ≤ 1)
    (hC : |C| ≤ 1) (hx : |rx - X| ≤ 3 / 10 ^ 6) (hy : |ry - Y| ≤ 3 / 10 ^ 6) (ha : |a - A| ≤ 1 / 10 ^ 8) (hb : |b - B| ≤ 1 / 10 ^ 8)
    (hX : |X - A| ≤ 91 / 1000) (hY : |Y - B| ≤ 91 / 1000) :
    ∃ d, (Arith.sub (arith exp) ((arith exp).mul (.fin sn) ((arith exp).sub (.fin rx) (.fin a)))
      ((arith exp).mul (.fin c) ((arith exp).sub (.fin ry) (.fin b)))).abs = .fin d ∧
      |d - (|S * (X - A) - C * (Y - B)|)| ≤ ε / 5 + 7 / 10 ^ 6 := by
  -- one product
  have term : ∀ {sn S rx X a A : ℝ}, |sn - S| ≤ ε → |S| ≤ 1 → |rx - X| ≤ 3 / 10 ^ 6 → |a - A| ≤ 1 / 10 ^ 8 → |X - A| ≤ 91 / 1000 →
      ∃ p, (arith exp).mul (.fin sn) ((arith exp).sub (.fin rx) (.fin a)) = .fin p ∧
        |p - S * (X - A)| ≤ 91 / 1000 * ε + 3100 / 10 ^ 9 := by
    intro sn S rx X a A hs hS hx ha hX
    have hs' := abs_le.1 hs
    have hS' := abs_le.1 hS
    have hx' := abs_le.1 hx
    have ha' := abs_le.1 ha
    have hX' := abs_le.1 hX
    norm_num at hx' ha'
    obtain ⟨g, eg, bg⟩ := rnd_within (z := rx + -a) (c := 1 / 10) (by rw [abs_le]; constructor <;> linarith) (by norm_num)
    have bg' := abs_le.1 bg
    norm_num at bg'
    have hg : |g - (X - A)| ≤ 3021 / 10 ^ 9 := by rw [abs_le]; constructor <;> norm_num <;> linarith
    have hg1 : |g| ≤ 92 / 1000 := by rw [abs_le]; constructor <;> linarith
    have hsn : |sn| ≤ 1001 / 1000 := by rw [abs_le]; constructor <;> linarith
    have hprod : |sn * g| ≤ 1 / 10 := by
      rw [abs_mul]
      calc _ ≤ 1001 / 1000 * (92 / 1000 : ℝ) := mul_le_mul hsn hg1 (abs_nonneg _) (by norm_num)
        _ ≤ _ := by norm_num
    obtain ⟨p, ep, bp⟩ := rnd_within (z := sn * g) (c := 1 / 10) hprod (by norm_num)
    refine ⟨p, ?_, ?_⟩
    · have : (arith exp).sub (.fin rx) (.fin a) = .fin g := eg
      rw [this]; exact ep
    · have e : p - S * (X - A) = (p - sn * g) + (sn * (g - (X - A)) + (sn - S) * (X - A)) := by ring
      rw [e]
      have a1 := abs_add_le (p - sn * g) (sn * (g - (X - A)) + (sn - S) * (X - A))
      have a2 := abs_add_le (sn * (g - (X - A))) ((sn - S) * (X - A))
      rw [abs_mul, abs_mul] at a2
      have a3 : |sn| * |g - (X - A)| ≤ 1001 / 1000 * (3021 / 10 ^ 9) := mul_le_mul hsn hg (abs_nonneg _) (by norm_num)
      have a4 : |sn - S| * |X - A| ≤ ε * (91 / 1000) := mul_le_mul hs hX (abs_nonneg _) hε0
      norm_num at a3 bp ⊢
      linarith
  obtain ⟨p, ep, bp⟩ := term hs hS hx ha hX
  obtain ⟨q, eq, bq⟩ := term hc hC hy hb hY
  have bp' := abs_le.1 bp
  have bq' := abs_le.1 bq
  norm_num at bp' bq'
  have hm1 : |S * (X - A)| ≤ 91 / 1000 := abs_mul_unit hS hX
  have hm2 : |C * (Y - B)| ≤ 91 / 1000 := abs_mul_unit hC hY
  have hm1' := abs_le.1 hm1
  have hm2' := abs_le.1 hm2
  obtain ⟨z, ez, bz⟩ := rnd_within (z := p + -q) (c := 1 / 5) (by rw [abs_le]; constructor <;> linarith) (by norm_num)
  have bz' := abs_le.1 bz
  norm_num at bz'
  rw [ep, eq]
  have e3 : (arith exp).sub (.fin p) (.fin q) = .fin z := ez
  rw [e3]
  refine ⟨|z|, rfl, ?_⟩
  refine (abs_abs_sub_abs_le _ _).trans ?_
  rw [abs_le]
  norm_num
  constructor <;> linarith

/-- Near a pillar or not, in terms of the two distances. -/
theorem near_two {L : Lib} {f : Finder} {x y θ : F} {p q : F × F} {d1 d2 R : ℝ} (hf : f.pillars (rotation (arith exp) θ) = (p, q))
    (h1 : (Arith.sub (arith exp) ((arith exp).mul (L.sin θ) ((arith exp).sub x p.1))
      ((arith exp).mul (L.cos θ) ((arith exp).sub y p.2))).abs = .fin d1)
    (h2 : (Arith.sub (arith exp) ((arith exp).mul (L.sin θ) ((arith exp).sub x q.1))
      ((arith exp).mul (L.cos θ) ((arith exp).sub y q.2))).abs = .fin d2) (hR : f.ignoreRadius = .fin R) :
    ¬ f.isNearPillar (arith exp) L x y θ ↔ R ≤ d1 ∧ R ≤ d2 := by
  unfold Finder.isNearPillar
  dsimp only
  rw [hf, hR]
  dsimp only
  rw [h1, h2]
  have m1 : fmin .pinf (.fin d1) = .fin d1 := by
    unfold fmin
    rw [if_neg (by intro h; exact h), if_neg (by intro h; exact h), if_pos (by trivial)]
  rw [m1]
  unfold fmin
  rw [if_neg (show ¬ (F.fin d2).isNan from fun h => h), if_neg (show ¬ (F.fin d1).isNan from fun h => h)]
  by_cases h : d2 < d1
  · rw [if_pos (show (F.fin d2).lt (.fin d1) from h)]
    show ¬ d2 < R ↔ _
    constructor
    · intro g; constructor <;> linarith
    · intro g; linarith [g.2]
  · rw [if_neg (show ¬ (F.fin d2).lt (.fin d1) from h)]
    show ¬ d1 < R ↔ _
    constructor
    · intro g; constructor <;> linarith
    · intro g; linarith [g.1]

end Verif.Proof
