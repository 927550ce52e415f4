import Verif.Props.Lane
/-!
# C116: how far the robot is from its target, from round to round
-/
namespace Verif.Props
open Verif

/-- Where the robot is off, seen from a target: place, the state of the tracker, and speed; the sum of the controller; and how much too fast the robot will take
itself to be in the next round. -/
structure Off where
  e : ℝ
  q : ℝ
  w : ℝ
  S : ℝ
  d : ℝ

noncomputable def Along.off (s : Along) (y v : ℝ) : Off :=
  ⟨y - s.y, v - s.xi, v - s.v, s.sum, 0.76094276 * (s.ev - s.vp) + (1 - 0.76094276) * ((s.vp - s.v) / 2)⟩

/-- What changes: the speed `v` of the target and its acceleration `a`, the change `dv` of its speed, and how much farther than `v` for a round it has come. -/
structure Change where
  v : ℝ
  a : ℝ
  dv : ℝ
  far : ℝ

noncomputable def Off.lag (o : Off) (c : Change) : ℝ := o.w + c.dv - o.d
noncomputable def Off.e1 (o : Off) (c : Change) : ℝ := o.e + 0.001 * o.lag c + c.far
noncomputable def Off.want (o : Off) (c : Change) : ℝ := c.a + 4 * o.lag c + 40 * o.e1 c
noncomputable def Off.q1 (o : Off) (c : Change) : ℝ := o.q + c.dv - 0.001 * o.want c

/-- By how much the reference of the controller is more than the speed. -/
noncomputable def Off.more (o : Off) (fast : Bool) (c : Change) : ℝ := o.w + c.dv + if fast then - o.q1 c else 2 * c.v * o.e1 c

noncomputable def Off.accel (o : Off) (fast : Bool) (c : Change) : ℝ := if fast then o.want c else c.a

noncomputable def Off.volt (o : Off) (fast : Bool) (c : Change) : ℝ :=
  (o.accel fast c * 0.4443 + (c.v - (o.w + c.dv) + o.more fast c)) / 1.865 + 4.8497 * (o.more fast c - o.d) + 29.5783 * o.S

/-- The gain of speed in the round. -/
noncomputable def Off.gain (o : Off) (fast : Bool) (c : Change) : ℝ := (1 - 0.4443 / (0.4443 + 0.001)) * (1.865 * o.volt fast c - (c.v - (o.w + c.dv)))

noncomputable def Off.next (o : Off) (fast : Bool) (c : Change) : Off where
  e := o.e1 c
  q := o.q1 c
  w := o.w + c.dv - o.gain fast c
  S := o.S + 0.001 * (o.more fast c - o.d)
  d := 0.76094276 * o.d - (1 - 0.76094276) * (o.gain fast c / 2)

theorem off_step (s : Along) {y0 v0 y v a : ℝ} (fast : Bool) (o : Off) (ho : s.off y0 v0 = o) (c : Change) (hc : c = ⟨v, a, v - v0, y - y0 - 0.001 * v⟩)
    (hm : if fast then 0.2 < |v| ∧ 0.2 < |v - o.q1 c| else 0 ≤ v ∧ v ≤ 0.2) :
    (s.step y v a).off y v = o.next fast c ∧ s.volt y v a = o.volt fast c ∧ y - s.place = o.e1 c := by
  subst ho hc
  set o := s.off y0 v0 with ho
  set c : Change := ⟨v, a, v - v0, y - y0 - 0.001 * v⟩ with hc
  have h1 : v - s.speed = o.lag c := by simp only [ho, hc, Off.lag, Along.off, Along.speed]; ring
  have h2 : y - s.place = o.e1 c := by
    unfold Off.e1
    rw [← h1]
    simp only [ho, hc, Along.off, Along.place]; ring
  have h3 : s.want y v a = o.want c := by unfold Along.want Off.want; rw [h1, h2]
  have h4 : v - s.nextXi y v a = o.q1 c := by
    unfold Along.nextXi Off.q1
    rw [h3]
    simp only [ho, hc, Along.off]; ring
  have h5 : s.nextXi y v a = v - o.q1 c := by rw [← h4]; ring
  have h6 : s.reference y v a = (s.v + o.more fast c, o.accel fast c) := by
    unfold Along.reference Off.more Off.accel
    rw [h5, h3, h2]
    have hw : o.w + c.dv = v - s.v := by simp only [ho, hc, Along.off]; ring
    cases fast with
    | true =>
      simp only [if_true] at hm ⊢
      rw [if_pos hm, hw]
      refine Prod.ext ?_ rfl
      dsimp only
      ring
    | false =>
      simp only [Bool.false_eq_true, if_false] at hm ⊢
      have : |v| = v := abs_of_nonneg hm.1
      rw [if_neg (by rw [this]; intro h; linarith [h.1, hm.2]), this, hw]
      refine Prod.ext ?_ rfl
      dsimp only
      ring
  have h7 : s.speed = s.v + o.d := by simp only [ho, Along.off, Along.speed]; ring
  have hw : s.v = v - (o.w + c.dv) := by simp only [ho, hc, Along.off]; ring
  have h8 : s.volt y v a = o.volt fast c := by
    unfold Along.volt Off.volt
    rw [h6, h7]
    dsimp only
    rw [hw]
    simp only [ho, hc, Along.off]
    ring
  refine ⟨?_, h8, h2⟩
  have h9 : (s.step y v a).v = s.v + o.gain fast c := by
    unfold Along.step Off.gain
    dsimp only
    rw [h8, show c.v = v from rfl, ← hw]
    ring
  unfold Off.next
  unfold Along.off
  rw [h9]
  unfold Along.step
  dsimp only
  rw [h2, h4, h6, h7]
  simp only [Off.mk.injEq, true_and]
  refine ⟨?_, ?_, ?_⟩
  · rw [hw]; ring
  · simp only [ho, Along.off]; ring
  · ring

end Verif.Props
