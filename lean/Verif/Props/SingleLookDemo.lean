import Verif.Props.SingleLook
import Verif.Props.SingleFindModel
import Verif.Props.DetectWalls
import Verif.Props.Accuracy
/-!
# C130: detectors to start from, libraries that are steep enough, and an example
-/
namespace Verif.Props
open Verif Verif.Spec Verif.Convert Verif.Single Verif.Binary32 Verif.Search Verif.Detect Verif.Proof

variable {exp : F → F}

/-- **C130.** The detectors that `new` and `with_walls` return are not settled against the truth, if the map is right. -/
theorem C130_start {W : Nat} (hW : Supported W) (truth : Coord → Bool) :
    NoError W truth Detect.new ∧
    ∀ w : Walls.Walls, (∀ c, Valid W c → ∃ st, Walls.wallState W w c = .ok st ∧ (st = .unchecked ∨ st = .checked (truth c))) →
      ∃ d, withWalls W w = .ok d ∧ NoError W truth d := by
  have half : ∀ t, NotWrong t (1 / 2) := by
    intro t; cases t <;> simp [NotWrong] <;> norm_num
  refine ⟨fun c _ => ⟨1 / 2, rfl, half _⟩, fun w hw => ?_⟩
  obtain ⟨d, hd, h1, -⟩ := C40_with_walls W hW w (fun c hc => (hw c hc).imp fun _ h => h.1)
  refine ⟨d, hd, fun c hc => ?_⟩
  obtain ⟨k1, k2, k3⟩ := h1 c hc
  obtain ⟨st, es, rfl | rfl⟩ := hw c hc
  · exact ⟨1 / 2, k3.2 es, half _⟩
  · cases ht : truth c <;> rw [ht] at es
    · exact ⟨0, k2.2 es, by simp [NotWrong]; norm_num⟩
    · exact ⟨1, k1.2 es, by simp [NotWrong]; norm_num⟩

/-- An exponential function that errs by a fifth at most is steep enough. -/
theorem steep_of_accurate {ε : ℝ} (h : AccurateExp exp ε) (hε : ε ≤ 1 / 5) : Steep exp := by
  intro x hx
  have h6 : 400 ≤ Real.exp x := by
    have h1 := Real.exp_one_gt_d9
    have h2 : Real.exp 6 = Real.exp 1 ^ 6 := by rw [← Real.exp_nat_mul]; norm_num
    have h3 : (2.718 : ℝ) ^ 6 ≤ Real.exp 1 ^ 6 := pow_le_pow_left₀ (by norm_num) (by linarith) 6
    have h4 := Real.exp_le_exp.2 hx
    rw [h2] at h4
    norm_num at h3
    linarith
  rcases h.acc x (by linarith) with ⟨y, ey, by'⟩ | ⟨e, -⟩
  · refine .inr ⟨y, ?_, ey⟩
    have := (abs_le.1 by').1
    have : ε * Real.exp x ≤ 1 / 5 * Real.exp x := mul_le_mul_of_nonneg_right hε (by linarith)
    linarith
  · exact .inl e

/-- From the centre of the cell `(3, 0)` with 42 mm measured: the wall `(7, 0)` is reported and believed in. -/
example : ∃ d', detectAndUpdate (arith expRounded) (lookAt (arith expRounded) (libOf Control.Trig.real 3) 16 demoSort) 16 Detect.new
    (.fin (42 / 1000)) (.fin (2 / 1000)) (centre 3) = .ok (d', some (⟨7, 0⟩, .checked true)) ∧
    ∃ p, d' (Coord.asIndex 16 ⟨7, 0⟩) = .fin p ∧ 96 / 100 ≤ p := by
  obtain ⟨e, b, h, he⟩ := centre_found (exp := expRounded)
  have hs : lookAt (arith expRounded) (libOf Control.Trig.real 3) 16 demoSort (centre 3) = some ⟨⟨7, 0⟩, .fin e, .fin b⟩ := h
  have hacc := accurateExp_rounded
  obtain ⟨p', hr, g | ⟨rfl, g⟩⟩ := C130_look hacc.toGoodExp (steep_of_accurate hacc (by norm_num)) (L := libOf Control.Trig.real 3) (ε := 0) (by norm_num)
    (W := 16) ⟨4, by decide⟩ demoSort_sorts (fun _ => true) ⟨42 / 1000, 2 / 1000, centre 3⟩
    ⟨by simp only [centre]; rw [abs_le]; norm_num, by simp only [centre]; rw [abs_le]; norm_num, by simp [centre], real_trig 3 _,
      by norm_num, by norm_num⟩ _ hs ⟨e, rfl, by rw [abs_sub_comm]; exact he.trans (by norm_num)⟩ Detect.new (1 / 2) rfl (by simp [NotWrong]; norm_num)
  · refine ⟨_, g, p', Function.update_self .., ?_⟩
    have : 96 / 100 ≤ p' ∧ p' ≤ 1 := by simpa [SettledRight] using hr
    exact this.1
  · exfalso
    have : (96 : ℝ) / 100 ≤ 1 / 2 ∧ (1 : ℝ) / 2 ≤ 1 := by simpa [SettledRight] using hr
    norm_num at this

end Verif.Props
