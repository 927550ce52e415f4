import Verif.Props.Sim
import Verif.Proof.Gap
/-!
# C34, C66: how far apart the two distances are, and that one look is enough
-/
namespace Verif.Props
open Verif Verif.Control Verif.Search Verif.Detect Verif.Sim Verif.Spec Verif.Convert Verif.Proof

/-- **C34, gap.** From any pose, also outside of the maze: the distance without the wall exceeds the one with it by at least a square, or
twice the distance that rays keep from pillars beyond half the thickness of a wall. -/
theorem C34_gap {sw ww ir il : ℝ} (hww : 0 < ww) (hsw : ww < sw) (hir : ww / 2 < ir) {W : Nat}
    {sort : List (Dir × F) → List (Dir × F)} (hs : Sorts sort) {p : Pose} {info : WallInfo}
    (h : (Converter.new sw ww ir il).convert W sort p = some info) :
    ∃ a b, info.existing = .fin a ∧ info.notExisting = .fin b ∧ il < a ∧ a + min sw (2 * (ir - ww / 2)) ≤ b := by
  obtain ⟨hn, hr, u, a, b, -, ha, hb, he, hl, -⟩ := convert_some hww hsw hs
    (rx := ((Converter.new sw ww ir il).remquo p.x).1) (qx := ((Converter.new sw ww ir il).remquo p.x).2)
    (ry := ((Converter.new sw ww ir il).remquo p.y).1) (qy := ((Converter.new sw ww ir il).remquo p.y).2) rfl rfl h
  have := exits_gap hww hsw hir he hr hn
  exact ⟨a, b, ha, hb, hl, by linarith⟩

/-- **C34, gap of the default converter.** 14 millimetres. -/
theorem C34_gap_default {W : Nat} {sort : List (Dir × F) → List (Dir × F)} (hs : Sorts sort) {p : Pose} {info : WallInfo}
    (h : Converter.default.convert W sort p = some info) :
    ∃ a b, info.existing = .fin a ∧ info.notExisting = .fin b ∧ 8 / 1000 < a ∧ a + 14 / 1000 ≤ b := by
  obtain ⟨a, b, ha, hb, hl, hg⟩ := C34_gap (by norm_num) (by norm_num) (by norm_num) hs h
  refine ⟨a, b, ha, hb, hl, le_trans ?_ hg⟩
  norm_num

/-- The centre of a square, looking along a wall, is such a pose. -/
example : ∃ info, Converter.default.convert 16 demoSort (centre 128) = some info := by
  obtain ⟨b, h⟩ := C35_wrap
  exact ⟨_, h⟩

theorem likelihood_far {a m s : ℝ} (hs : 0 < s) (h : 7 * s ≤ |m - a|) : likelihood a m s ≤ 1 / 25 := by
  have h7 : 7 ≤ |(m - a) / s| := by rw [abs_div, abs_of_pos hs, le_div_iff₀ hs]; exact h
  have h49 : 49 ≤ ((m - a) / s) ^ 2 := by
    rw [← sq_abs]; nlinarith
  have h1 := Real.add_one_le_exp (((m - a) / s) ^ 2 / 2)
  unfold likelihood
  rw [neg_div, Real.exp_neg, ← one_div]
  exact one_div_le_one_div_of_le (by norm_num) (by linarith)

theorem bayes_up {p l n : ℝ} (hp : 1 / 2 ≤ p) (hp1 : p < 1) (hl : l = 1) (hn0 : 0 < n) (hn : n ≤ 1 / 25) : 9 / 10 < bayes p l n := by
  subst hl
  unfold bayes
  have : 0 < 1 - p := by linarith
  have h1 := mul_le_mul_of_nonneg_left hn this.le
  rw [lt_div_iff₀ (by positivity)]
  linarith

theorem bayes_down {p l n : ℝ} (hp0 : 0 < p) (hp : p ≤ 1 / 2) (hn : n = 1) (hl0 : 0 < l) (hl : l ≤ 1 / 25) : bayes p l n < 1 / 10 := by
  subst hn
  unfold bayes
  have h1 := mul_le_mul_of_nonneg_left hl hp0.le
  have : 0 < 1 - p := by linarith
  rw [div_lt_iff₀ (by positivity)]
  linarith

/-- **C66, at once.** One look of a detector that does not lean to the wrong side, fed with a simulated reading: it does not panic, it does not
lean to the wrong side afterwards, no belief about another wall changes, and if it reports anything, then the wall or the opening that is there, never
that it does not know. -/
theorem C66_once {W : Nat} (hW : Supported W) {sort : List (Dir × F) → List (Dir × F)} (hs : Sorts sort) (s : Simulator)
    (hw : Reachable W s.walls) (pose : Pose) (info : WallInfo) (hi : Converter.default.convert W sort pose = some info)
    (d : Detector) (hd : Leaning W s.walls d) :
    ∃ mean d' r, s.distanceFromWall (Converter.default.convert W sort) W pose = .ok (some (.fin mean, .fin (2 / 1000))) ∧
      detectAndUpdate exact (Converter.default.convert W sort) W d (.fin mean) (.fin (2 / 1000)) pose = .ok (d', r) ∧
      Leaning W s.walls d' ∧ (∀ j, j ≠ info.coord.asIndex W → d' j = d j) ∧
      ((r = none ∧ d' = d ∧ (isZero (d (info.coord.asIndex W)) ∨ isOne exact (d (info.coord.asIndex W)))) ∨
        (Walls.wallState W s.walls info.coord = .ok (.checked true) ∧ r = some (info.coord, .checked true)) ∨
        (Walls.wallState W s.walls info.coord ≠ .ok (.checked true) ∧ r = some (info.coord, .checked false))) := by
  have hc : GoodConverter (Converter.default.convert W sort) W := C34_good (by norm_num) (by norm_num) hW hs
  obtain ⟨a0, b0, ha0, hb0, -, hgap⟩ := C34_gap_default hs hi
  generalize Converter.default.convert W sort = convert at *
  obtain ⟨hv, -⟩ := hc _ _ hi
  obtain ⟨st, hst⟩ := C05_readable hW hw _ hv
  obtain ⟨a, b, hab, hl⟩ := look hc hi hst
  rw [hab] at ha0 hb0 hi
  obtain rfl : a = a0 := by cases ha0; rfl
  obtain rfl : b = b0 := by cases hb0; rfl
  clear ha0 hb0
  generalize info.coord = c at *
  obtain ⟨p, hp, hp0, hp1, hpt, hpf⟩ := hd _ hv
  by_cases hz : isZero (d (c.asIndex W)) ∨ isOne exact (d (c.asIndex W))
  · exact ⟨_, d, none, hl, detect_settled exact hW _ _ _ hi hv hz, hd, fun _ _ => rfl, .inl ⟨rfl, rfl, hz⟩⟩
  · have hop := (open_iff p hp0 hp1).mp (by rwa [hp] at hz)
    have upd : ∀ q : ℝ, 0 ≤ q → q ≤ 1 → (Walls.wallState W s.walls c = .ok (.checked true) → 1 / 2 ≤ q) →
        (Walls.wallState W s.walls c ≠ .ok (.checked true) → q ≤ 1 / 2) →
        Leaning W s.walls (fun j => if j = c.asIndex W then .fin q else d j) := by
      intro q q0 q1 qt qf c' hv'
      by_cases e : c' = c
      · subst e
        exact ⟨q, by simp, q0, q1, qt, qf⟩
      · have : c'.asIndex W ≠ c.asIndex W := fun h => e (Verif.Grid.asIndex_inj hW hv' hv h)
        simp only [if_neg this]
        exact hd c' hv'
    by_cases ht : st = .checked true
    · subst ht
      rw [if_pos rfl] at hl
      have hq := bayes_up (hpt hst) hop.lt_one (likelihood_self a (2 / 1000)) (likelihood_pos b a (2 / 1000))
        (likelihood_far (by norm_num) (by rw [abs_sub_comm]; exact le_trans (by linarith) (le_abs_self _)))
      have hmem := bayes_mem hop.pos hop.lt_one (likelihood_pos a a (2 / 1000)) (likelihood_pos b a (2 / 1000))
      refine ⟨_, _, _, hl, detect_open (o := ⟨a, 2 / 1000, pose⟩) hW hi hv (by norm_num) hp hop,
        upd _ hmem.1.le hmem.2.1.le (fun _ => by linarith) (fun h => absurd hst h), fun _ hj => if_neg hj, .inr (.inl ⟨hst, ?_⟩)⟩
      rw [report_true hq]
    · rw [if_neg ht] at hl
      have hne : Walls.wallState W s.walls c ≠ .ok (.checked true) := by rw [hst]; simpa using ht
      have hq := bayes_down hop.pos (hpf hne) (likelihood_self b (2 / 1000)) (likelihood_pos a b (2 / 1000))
        (likelihood_far (by norm_num) (le_trans (by linarith) (le_abs_self _)))
      have hmem := bayes_mem hop.pos hop.lt_one (likelihood_pos a b (2 / 1000)) (likelihood_pos b b (2 / 1000))
      refine ⟨_, _, _, hl, detect_open (o := ⟨b, 2 / 1000, pose⟩) hW hi hv (by norm_num) hp hop,
        upd _ hmem.1.le hmem.2.1.le (fun h => absurd h hne) (fun _ => by linarith), fun _ hj => if_neg hj, .inr (.inr ⟨hne, ?_⟩)⟩
      rw [report_false hq]

end Verif.Props
