import Verif.Proof.Convert
/-!
# How far apart the two distances of a returned wall are
-/
namespace Verif.Proof
open Verif Verif.Spec Verif.Detect Verif.Convert Verif.Search

/-- The corner towards which a direction points. -/
noncomputable def corner (sw : ℝ) (θ : ℝ) : ℝ × ℝ :=
  open Classical in (if 0 < Real.cos θ then sw else 0, if 0 < Real.sin θ then sw else 0)

/-- The pillar in this corner is one of the two examined. -/
theorem corner_clear {sw ww ir il : ℝ} {p : Pose} (hn : ¬ (Converter.new sw ww ir il).isNearPillar p) (hc : Real.cos p.theta ≠ 0)
    (hs : Real.sin p.theta ≠ 0) : ir ≤ lineDist p (corner sw p.theta) := by
  by_contra hlt
  refine hn (near_of_le (q := corner sw p.theta) ?_ le_rfl (not_le.mp hlt))
  have hrng := revolution_range p.theta
  unfold Converter.pillars corner
  show (_, _) = _ ∨ (_, _) = _
  have h1 := @quad1 p.theta
  have h2 := @quad2 p.theta
  have h3 := @quad3 p.theta
  have h4 := @quad4 p.theta
  generalize revolution p.theta = r at *
  generalize Real.cos p.theta = c at *
  generalize Real.sin p.theta = s at *
  have k : (r < 1 / 4 ∧ 0 < c ∧ 0 < s) ∨ (1 / 4 ≤ r ∧ r < 1 / 2 ∧ ¬ 0 < c ∧ 0 < s) ∨ (1 / 2 ≤ r ∧ r < 3 / 4 ∧ ¬ 0 < c ∧ ¬ 0 < s) ∨
      (3 / 4 ≤ r ∧ 0 < c ∧ ¬ 0 < s) := by
    by_cases g1 : r < 1 / 4
    · have := h1 g1; exact .inl ⟨g1, this.1, lt_of_le_of_ne this.2 (Ne.symm hs)⟩
    by_cases g2 : r < 1 / 2
    · have := h2 g2 (not_lt.mp g1); exact .inr (.inl ⟨not_lt.mp g1, g2, not_lt.mpr this.1, this.2⟩)
    by_cases g3 : r < 3 / 4
    · have := h3 g3 (not_lt.mp g2); exact .inr (.inr (.inl ⟨not_lt.mp g2, g3, not_lt.mpr this.1.le, not_lt.mpr this.2⟩))
    · have := h4 (not_lt.mp g3)
      exact .inr (.inr (.inr ⟨not_lt.mp g3, lt_of_le_of_ne this.1 (Ne.symm hc), not_lt.mpr this.2.le⟩))
  rcases k with ⟨k1, k2, k3⟩ | ⟨k1, k1', k2, k3⟩ | ⟨k1, k1', k2, k3⟩ | ⟨k1, k2, k3⟩ <;>
    simp only [k2, k3, if_true, if_false] <;> split_ifs with g1 g2 g3 <;> first
        | exact Or.inl rfl
        | exact Or.inr rfl
        | (exfalso; linarith)
        | (exfalso; linarith [g1.1, g1.2])
        | (exfalso; exact g1 ⟨by linarith, by linarith⟩)

/-- Beyond the pillar of a corner the ray goes on for at least twice the free distance from the face of the pillar. -/
theorem gap_core {c s δ w ir g : ℝ} (h1 : s ^ 2 + c ^ 2 = 1) (hc : 0 ≤ c) (hs : 0 ≤ s) (hδ : 0 ≤ δ) (hw : 0 ≤ w) (hir : w < ir)
    (hd : ir ≤ |c * (δ + w) - s * w|) (hg : δ ≤ g * s) (g0 : 0 ≤ g) : 2 * (ir - w) ≤ g := by
  have hs1 : s ≤ 1 := by nlinarith
  have hc1 : c ≤ 1 := by nlinarith
  rcases le_abs'.mp hd with h | h
  · exfalso
    nlinarith [mul_nonneg hc (add_nonneg hδ hw), mul_nonneg hw (sub_nonneg.mpr hs1)]
  · have h2 : c * δ ≤ g * (s * c) := by nlinarith
    have h3 : s * c ≤ 1 / 2 := by nlinarith [sq_nonneg (s - c)]
    have h4 : g * (s * c) ≤ g / 2 := by nlinarith
    have h5 : ir - w ≤ c * δ := by nlinarith [mul_nonneg hw (sub_nonneg.mpr hc1), mul_nonneg hs hw]
    linarith

set_option maxHeartbeats 1000000 in
/-- A ray that goes on beyond a side: the two distances differ by a square, or by twice the free distance of the pillars. -/
theorem exits_gap {sw ww ir il : ℝ} (hww : 0 < ww) (hsw : ww < sw) (hir : ww / 2 < ir) {p : Pose} {u : Dir} {α β : ℝ} (h : Exits sw ww p u α β)
    (hr : ww / 2 < p.x ∧ p.x < sw - ww / 2 ∧ ww / 2 < p.y ∧ p.y < sw - ww / 2)
    (hn : ¬ (Converter.new sw ww ir il).isNearPillar p) : min sw (2 * (ir - ww / 2)) ≤ β - α := by
  obtain ⟨hpos, hle, -, hside, -, -, hout⟩ := h
  have h1 := Real.sin_sq_add_cos_sq p.theta
  have hcl := @corner_clear sw ww ir il p hn
  have hray := lineDist_ray p α (corner sw p.theta)
  obtain ⟨r1, r2, r3, r4⟩ := hr
  have hg : 0 ≤ β - α := sub_nonneg.mpr hle
  rw [hray] at hcl
  clear hray
  simp only [corner, ray, Box.inside, Box.extend, Box.onSide, room0] at *
  have eβx : p.x + β * Real.cos p.theta = p.x + α * Real.cos p.theta + (β - α) * Real.cos p.theta := by ring
  have eβy : p.y + β * Real.sin p.theta = p.y + α * Real.sin p.theta + (β - α) * Real.sin p.theta := by ring
  rw [eβx, eβy] at hout
  clear eβx eβy
  generalize β - α = g at *
  have hc1 : Real.cos p.theta ≤ 1 := Real.cos_le_one _
  have hs1 : Real.sin p.theta ≤ 1 := Real.sin_le_one _
  have hc2 : -1 ≤ Real.cos p.theta := Real.neg_one_le_cos _
  have hs2 : -1 ≤ Real.sin p.theta := Real.neg_one_le_sin _
  generalize Real.cos p.theta = c at *
  generalize Real.sin p.theta = s at *
  have ex : ∃ X, X = p.x + α * c := ⟨_, rfl⟩
  have ey : ∃ Y, Y = p.y + α * s := ⟨_, rfl⟩
  obtain ⟨X, hX⟩ := ex
  obtain ⟨Y, hY⟩ := ey
  rw [← hX, ← hY] at hcl hout hside
  simp only [not_and_or, not_lt] at hout
  -- the part beyond a side with the normal `n` and the other direction `l`
  have key : ∀ n l d : ℝ, l ^ 2 + n ^ 2 = 1 → 0 < n → n ≤ 1 → 0 ≤ d → (l = 0 ∨ l < 0 ∨ ir ≤ |n * (d + ww / 2) - l * (ww / 2)|) →
      (sw ≤ g * n ∨ (d ≤ g * l ∧ (d = 0 → 0 < l))) → min sw (2 * (ir - ww / 2)) ≤ g := by
    intro n l d e1 e2 e3 e4 e5 e6
    rcases e6 with e6 | ⟨e6, e7⟩
    · refine (min_le_left _ _).trans ?_
      nlinarith
    · have hl : 0 < l := by
        by_contra hl
        have : g * l ≤ 0 := mul_nonpos_of_nonneg_of_nonpos hg (not_lt.mp hl)
        exact hl (e7 (by linarith))
      refine (min_le_right _ _).trans (gap_core e1 e2.le hl.le e4 (by linarith) hir ?_ e6 hg)
      rcases e5 with e5 | e5 | e5
      · linarith
      · linarith
      · exact e5
  cases u
  · dsimp only at hout hside
    obtain ⟨f1, f2, f3⟩ := hside
    have hn0 : 0 < c := by
      by_contra hh
      have := mul_nonneg hpos.le (by linarith : 0 ≤ -c)
      linarith
    have cn : ∀ a b : ℝ, (if 0 < c then a else b) = a := fun a b => if_pos hn0
    have hcl' := fun hl : s ≠ 0 => hcl (by intro h0; linarith) hl
    rw [cn] at hcl'
    rcases hout with (o | o) | (o | o)
    · exfalso; nlinarith
    · refine (min_le_left _ _).trans ?_
      nlinarith
    · refine key (c) (-s) (Y - ww / 2) (by linear_combination h1) hn0 (by linarith) (by linarith) ?_ (.inr ⟨by linarith, fun h0 => ?_⟩)
      · by_cases hl : s < 0
        · right; right
          have := hcl' hl.ne
          rw [if_neg (by linarith)] at this
          rw [← abs_neg] at this
          first
            | (convert this using 2; rw [f1]; ring1)
            | (rw [abs_neg] at this; convert this using 2; rw [f1]; ring1)
        · rcases lt_trichotomy s 0 with h | h | h
          · first | exact .inr (.inl (by linarith)) | exact absurd h hl
          · exact .inl (by linarith)
          · first | exact .inr (.inl (by linarith)) | exact absurd h hl
      · by_contra hh
        have := mul_nonneg hpos.le (by linarith : 0 ≤ s)
        linarith
    · refine key (c) (s) (sw - ww / 2 - Y) (by linear_combination h1) hn0 (by linarith) (by linarith) ?_ (.inr ⟨by linarith, fun h0 => ?_⟩)
      · by_cases hl : 0 < s
        · right; right
          have := hcl' hl.ne'
          rw [if_pos hl] at this
          rw [← abs_neg] at this
          first
            | (convert this using 2; rw [f1]; ring1)
            | (rw [abs_neg] at this; convert this using 2; rw [f1]; ring1)
        · rcases lt_trichotomy s 0 with h | h | h
          · first | exact .inr (.inl (by linarith)) | exact absurd h hl
          · exact .inl (by linarith)
          · first | exact .inr (.inl (by linarith)) | exact absurd h hl
      · by_contra hh
        have := mul_nonneg hpos.le (by linarith : 0 ≤ -s)
        linarith
  · dsimp only at hout hside
    obtain ⟨f1, f2, f3⟩ := hside
    have hn0 : 0 < -c := by
      by_contra hh
      have := mul_nonneg hpos.le (by linarith : 0 ≤ c)
      linarith
    have cn : ∀ a b : ℝ, (if 0 < c then a else b) = b := fun a b => if_neg (by linarith)
    have hcl' := fun hl : s ≠ 0 => hcl (by intro h0; linarith) hl
    rw [cn] at hcl'
    rcases hout with (o | o) | (o | o)
    · refine (min_le_left _ _).trans ?_
      nlinarith
    · exfalso; nlinarith
    · refine key (-c) (-s) (Y - ww / 2) (by linear_combination h1) hn0 (by linarith) (by linarith) ?_ (.inr ⟨by linarith, fun h0 => ?_⟩)
      · by_cases hl : s < 0
        · right; right
          have := hcl' hl.ne
          rw [if_neg (by linarith)] at this
          rw [← abs_neg] at this
          first
            | (convert this using 2; rw [f1]; ring1)
            | (rw [abs_neg] at this; convert this using 2; rw [f1]; ring1)
        · rcases lt_trichotomy s 0 with h | h | h
          · first | exact .inr (.inl (by linarith)) | exact absurd h hl
          · exact .inl (by linarith)
          · first | exact .inr (.inl (by linarith)) | exact absurd h hl
      · by_contra hh
        have := mul_nonneg hpos.le (by linarith : 0 ≤ s)
        linarith
    · refine key (-c) (s) (sw - ww / 2 - Y) (by linear_combination h1) hn0 (by linarith) (by linarith) ?_ (.inr ⟨by linarith, fun h0 => ?_⟩)
      · by_cases hl : 0 < s
        · right; right
          have := hcl' hl.ne'
          rw [if_pos hl] at this
          rw [← abs_neg] at this
          first
            | (convert this using 2; rw [f1]; ring1)
            | (rw [abs_neg] at this; convert this using 2; rw [f1]; ring1)
        · rcases lt_trichotomy s 0 with h | h | h
          · first | exact .inr (.inl (by linarith)) | exact absurd h hl
          · exact .inl (by linarith)
          · first | exact .inr (.inl (by linarith)) | exact absurd h hl
      · by_contra hh
        have := mul_nonneg hpos.le (by linarith : 0 ≤ -s)
        linarith
  · dsimp only at hout hside
    obtain ⟨f1, f2, f3⟩ := hside
    have hn0 : 0 < s := by
      by_contra hh
      have := mul_nonneg hpos.le (by linarith : 0 ≤ -s)
      linarith
    have cn : ∀ a b : ℝ, (if 0 < s then a else b) = a := fun a b => if_pos hn0
    have hcl' := fun hl : c ≠ 0 => hcl hl (by intro h0; linarith)
    rw [cn] at hcl'
    rcases hout with (o | o) | (o | o)
    · refine key (s) (-c) (X - ww / 2) (by linear_combination h1) hn0 (by linarith) (by linarith) ?_ (.inr ⟨by linarith, fun h0 => ?_⟩)
      · by_cases hl : c < 0
        · right; right
          have := hcl' hl.ne
          rw [if_neg (by linarith)] at this
          rw [← abs_neg] at this
          first
            | (convert this using 2; rw [f1]; ring1)
            | (rw [abs_neg] at this; convert this using 2; rw [f1]; ring1)
        · rcases lt_trichotomy c 0 with h | h | h
          · first | exact .inr (.inl (by linarith)) | exact absurd h hl
          · exact .inl (by linarith)
          · first | exact .inr (.inl (by linarith)) | exact absurd h hl
      · by_contra hh
        have := mul_nonneg hpos.le (by linarith : 0 ≤ c)
        linarith
    · refine key (s) (c) (sw - ww / 2 - X) (by linear_combination h1) hn0 (by linarith) (by linarith) ?_ (.inr ⟨by linarith, fun h0 => ?_⟩)
      · by_cases hl : 0 < c
        · right; right
          have := hcl' hl.ne'
          rw [if_pos hl] at this
          rw [← abs_neg] at this
          first
            | (convert this using 2; rw [f1]; ring1)
            | (rw [abs_neg] at this; convert this using 2; rw [f1]; ring1)
        · rcases lt_trichotomy c 0 with h | h | h
          · first | exact .inr (.inl (by linarith)) | exact absurd h hl
          · exact .inl (by linarith)
          · first | exact .inr (.inl (by linarith)) | exact absurd h hl
      · by_contra hh
        have := mul_nonneg hpos.le (by linarith : 0 ≤ -c)
        linarith
    · exfalso; nlinarith
    · refine (min_le_left _ _).trans ?_
      nlinarith
  · dsimp only at hout hside
    obtain ⟨f1, f2, f3⟩ := hside
    have hn0 : 0 < -s := by
      by_contra hh
      have := mul_nonneg hpos.le (by linarith : 0 ≤ s)
      linarith
    have cn : ∀ a b : ℝ, (if 0 < s then a else b) = b := fun a b => if_neg (by linarith)
    have hcl' := fun hl : c ≠ 0 => hcl hl (by intro h0; linarith)
    rw [cn] at hcl'
    rcases hout with (o | o) | (o | o)
    · refine key (-s) (-c) (X - ww / 2) (by linear_combination h1) hn0 (by linarith) (by linarith) ?_ (.inr ⟨by linarith, fun h0 => ?_⟩)
      · by_cases hl : c < 0
        · right; right
          have := hcl' hl.ne
          rw [if_neg (by linarith)] at this
          rw [← abs_neg] at this
          first
            | (convert this using 2; rw [f1]; ring1)
            | (rw [abs_neg] at this; convert this using 2; rw [f1]; ring1)
        · rcases lt_trichotomy c 0 with h | h | h
          · first | exact .inr (.inl (by linarith)) | exact absurd h hl
          · exact .inl (by linarith)
          · first | exact .inr (.inl (by linarith)) | exact absurd h hl
      · by_contra hh
        have := mul_nonneg hpos.le (by linarith : 0 ≤ c)
        linarith
    · refine key (-s) (c) (sw - ww / 2 - X) (by linear_combination h1) hn0 (by linarith) (by linarith) ?_ (.inr ⟨by linarith, fun h0 => ?_⟩)
      · by_cases hl : 0 < c
        · right; right
          have := hcl' hl.ne'
          rw [if_pos hl] at this
          rw [← abs_neg] at this
          first
            | (convert this using 2; rw [f1]; ring1)
            | (rw [abs_neg] at this; convert this using 2; rw [f1]; ring1)
        · rcases lt_trichotomy c 0 with h | h | h
          · first | exact .inr (.inl (by linarith)) | exact absurd h hl
          · exact .inl (by linarith)
          · first | exact .inr (.inl (by linarith)) | exact absurd h hl
      · by_contra hh
        have := mul_nonneg hpos.le (by linarith : 0 ≤ -c)
        linarith
    · refine (min_le_left _ _).trans ?_
      nlinarith
    · exfalso; nlinarith

end Verif.Proof
