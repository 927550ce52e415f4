import Verif.Props.SingleRunTest
import Verif.Spec.Guard
/-!
# C133: a round of the fast run that does not fail had finite numbers only
-/
namespace Verif.Props
open Verif Verif.Spec Verif.Single

/-- A finite number. -/
def Ordinary (f : F) : Prop := ∃ r : ℝ, f = .fin r

/-- Position, angle, velocities and accelerations are finite numbers. -/
def Orderly (s : State) : Prop :=
  (Ordinary s.x.x ∧ Ordinary s.x.v ∧ Ordinary s.x.a) ∧ (Ordinary s.y.x ∧ Ordinary s.y.v ∧ Ordinary s.y.a) ∧
  Ordinary s.theta.x ∧ Ordinary s.theta.v ∧ Ordinary s.theta.a

/-- The library has no finite cosine of what is infinite or not a number. -/
def Strict (L : Lib) : Prop := ∀ f : F, ¬ Ordinary f → ¬ Ordinary (L.cos f)

section ordinary
variable {A : Arith} {x y : F}

theorem ord_add (h : Ordinary (A.add x y)) : Ordinary x ∧ Ordinary y := by
  cases x <;> cases y <;> first | exact ⟨⟨_, rfl⟩, ⟨_, rfl⟩⟩ | (obtain ⟨r, hr⟩ := h; cases hr)

theorem ord_neg (h : Ordinary x.neg) : Ordinary x := by
  cases x <;> first | exact ⟨_, rfl⟩ | (obtain ⟨r, hr⟩ := h; cases hr)

theorem ord_sub (h : Ordinary (A.sub x y)) : Ordinary x ∧ Ordinary y :=
  ⟨(ord_add h).1, ord_neg (ord_add h).2⟩

theorem not_ord_infOf (r : ℝ) : ¬ Ordinary (F.infOf r) := by
  rintro ⟨s, hs⟩
  unfold F.infOf at hs
  split_ifs at hs

theorem ord_mul (h : Ordinary (A.mul x y)) : Ordinary x ∧ Ordinary y := by
  cases x <;> cases y <;> first | exact ⟨⟨_, rfl⟩, ⟨_, rfl⟩⟩ | exact absurd h (not_ord_infOf _) | (obtain ⟨r, hr⟩ := h; cases hr)

theorem ord_div (h : Ordinary (A.div x y)) : Ordinary x := by
  cases x with
  | fin r => exact ⟨r, rfl⟩
  | nan => obtain ⟨r, hr⟩ := h; cases y <;> cases hr
  | pinf =>
    obtain ⟨r, hr⟩ := h
    cases y with
    | fin b => simp only [Arith.div] at hr; split_ifs at hr
    | _ => cases hr
  | ninf =>
    obtain ⟨r, hr⟩ := h
    cases y with
    | fin b => simp only [Arith.div] at hr; split_ifs at hr
    | _ => cases hr

end ordinary

/-- What the controller needs for a finite voltage. -/
theorem ord_each {A : Arith} {r dr y dy period sum : F} {p : Params} (h : Ordinary (controlEach A r dr y dy p period sum).1) :
    Ordinary r ∧ Ordinary dr ∧ Ordinary y ∧ Ordinary dy ∧ Ordinary sum := by
  obtain ⟨h1, hd⟩ := ord_add (show Ordinary (A.add (A.add (A.add _ _) _) _) from h)
  obtain ⟨h2, hi⟩ := ord_add h1
  obtain ⟨-, hp⟩ := ord_add h2
  obtain ⟨d1, d2⟩ := ord_sub (ord_mul hd).2
  obtain ⟨p1, p2⟩ := ord_sub (ord_mul hp).2
  exact ⟨p1, d1, p2, d2, (ord_mul hi).2⟩

/-- What the solution of the constraint needs for finite accelerations. -/
theorem ord_solve {A : Arith} {a1 a2 b u1 u2 : F} (h : Ordinary (solve A a1 a2 b u1 u2).1 ∨ Ordinary (solve A a1 a2 b u1 u2).2) : Ordinary u1 ∧ Ordinary u2 := by
  have h1 : Ordinary (solve A a1 a2 b u1 u2).1 := h.elim id fun h => (ord_mul (ord_add h).1).2
  unfold solve at h1
  dsimp only at h1
  obtain ⟨q1, q2⟩ := ord_sub (ord_mul (ord_neg (ord_div h1))).2
  exact ⟨(ord_sub q1).2, (ord_mul q2).2⟩

/-- The supervisor makes nothing finite. -/
theorem ord_supervise {A : Arith} {L : Platform} {g : Supervisor} {i o : Input} {s : State} (h : g.supervise A L i s = .ok o) (h1 : Ordinary o.ux) (h2 : Ordinary o.uy) :
    Ordinary i.ux ∧ Ordinary i.uy := by
  unfold Supervisor.supervise at h
  simp only [bind, Except.bind] at h
  split at h
  · cases h
  split at h
  · cases h
  rename_i c _
  obtain ⟨a1, a2, b⟩ := c
  dsimp only at h
  unfold applyConstraints at h
  split_ifs at h
  · cases h; exact ⟨h1, h2⟩
  all_goals
    simp only [bind, Except.bind, pure, Except.pure] at h
    repeat' split at h
    all_goals first
    | (cases h; done)
    | (cases h
       first
       | exact ord_solve (.inl h1)
       | exact (ord_solve (.inl h2)).symm)

/-- **C133.** For every arithmetic: in every round that does not fail, the position, angle, velocities and accelerations that the robot takes itself to have
are finite, and so were the sums of errors of the controller. -/
theorem C133_finite (A : Arith) {L : Platform} (hL : Strict L.toLib) (g : Supervisor) (m : Sprint) {m' : Sprint} (h : g.turn A L m = .ok (true, m')) :
    Orderly m'.robot.state ∧ Ordinary m.robot.controller.transSum ∧ Ordinary m.robot.controller.rotSum := by
  obtain ⟨h1, h2, h3⟩ := sprint_turn A L g m
  rcases hu : upcoming A L.toLib m.stints with e | ⟨_ | t, st⟩
  · rw [h1 e hu] at h; cases h
  · obtain ⟨m1, e1, e2⟩ := h2 st hu
    rw [e1] at h
    cases h
  rcases h3 t st hu with ⟨e, e1, -⟩ | ⟨m1, e1, -, i, hi, l, -, -, e3⟩
  · rw [e1] at h; cases h
  rw [e1] at h
  cases h
  rw [e3]
  have hl : Ordinary (voltages A L m t i).left := by obtain ⟨r, hr, -⟩ := l; exact ⟨r, hr⟩
  unfold voltages at hl
  obtain ⟨v1, v2⟩ := ord_sub (show Ordinary (A.sub _ _) from hl)
  obtain ⟨r1, r2, y1, y2, s1⟩ := ord_each (period := m.robot.controller.period) v1
  obtain ⟨r3, r4, y3, y4, s2⟩ := ord_each (period := m.robot.controller.period) v2
  refine ⟨?_, s1, s2⟩
  unfold wished at hi
  generalize supposed A L m = s at *
  obtain ⟨b1, b2⟩ := ord_add (show Ordinary (A.add (A.mul s.x.v (L.cos s.theta.x)) (A.mul s.y.v (L.sin s.theta.x))) from y1)
  obtain ⟨b3, b4⟩ := ord_add (show Ordinary (A.add (A.mul s.x.a (L.cos s.theta.x)) (A.mul s.y.a (L.sin s.theta.x))) from y2)
  have hc : Ordinary (L.cos s.theta.x) := (ord_mul b1).2
  have hs : Ordinary (L.sin s.theta.x) := (ord_mul b2).2
  have hθ : Ordinary s.theta.x := by
    by_contra hn
    exact hL _ hn hc
  have hpos : Ordinary s.x.x ∧ Ordinary s.y.x := by
    have r1' := r1
    have r2' := r2
    unfold Single.Tracker.track at r1' r2'
    dsimp only at r1' r2'
    split_ifs at r1' r2'
    · unfold fast at r2'
      obtain ⟨u1, u2⟩ := ord_add (show Ordinary (A.add (A.mul i.ux (L.cos s.theta.x)) (A.mul i.uy (L.sin s.theta.x))) from r2')
      obtain ⟨w1, w2⟩ := ord_supervise hi (ord_mul u1).1 (ord_mul u2).1
      exact ⟨(ord_sub (ord_mul (ord_add (show Ordinary (A.add _ (A.mul _ (A.sub t.x.x s.x.x))) from w1)).2).2).2,
        (ord_sub (ord_mul (ord_add (show Ordinary (A.add _ (A.mul _ (A.sub t.y.x s.y.x))) from w2)).2).2).2⟩
    · unfold slow at r1'
      dsimp only at r1'
      obtain ⟨q1, q2⟩ := ord_add (ord_mul (ord_add r1').2).2
      exact ⟨(ord_sub (ord_mul q1).1).2, (ord_sub (ord_mul q2).1).2⟩
  exact ⟨⟨hpos.1, (ord_mul b1).1, (ord_mul b3).1⟩, ⟨hpos.2, (ord_mul b2).1, (ord_mul b4).1⟩, hθ, y3, y4⟩

/-- The same in whole runs: after at least one round, while the loop goes on. -/
theorem C133_finite_run (A : Arith) {L : Platform} (hL : Strict L.toLib) (g : Supervisor) (n : Nat) (m : Sprint) {m' : Sprint}
    (h : g.go A L (n + 1) m = .ok (true, m')) : Orderly m'.robot.state := by
  induction n generalizing m with
  | zero =>
    rw [Supervisor.go] at h
    rcases ht : g.turn A L m with e | ⟨_ | _, m1⟩
    · rw [ht] at h; cases h
    · rw [ht] at h; cases h
    · rw [ht] at h
      have h' : (.ok (true, m1) : R (Bool × Sprint)) = .ok (true, m') := h
      injection h' with h'
      injection h' with _ h'
      rw [← h']
      exact (C133_finite A hL g m ht).1
  | succ n ih =>
    rw [Supervisor.go] at h
    rcases ht : g.turn A L m with e | ⟨_ | _, m1⟩
    · rw [ht] at h; cases h
    · rw [ht] at h; cases h
    · rw [ht] at h
      exact ih m1 h

/-- A case: a robot that takes itself to be infinitely far away. Whatever the arithmetic, the rest of the robot, the supervisor and the trajectories are: its next round fails or is
the last one. -/
example (A : Arith) (g : Supervisor) (m : Sprint) (h : m.robot.state.x.x = .pinf) (m' : Sprint) :
    g.turn A (platformOf Control.Trig.real 3.14 (2 ^ 32 - 1)) m ≠ .ok (true, m') := by
  intro ht
  have hL : Strict (platformOf Control.Trig.real 3.14 (2 ^ 32 - 1)).toLib := by
    rintro (_ | _ | _ | r) hf
    · rintro ⟨s, hs⟩; cases hs
    · rintro ⟨s, hs⟩; cases hs
    · rintro ⟨s, hs⟩; cases hs
    · exact absurd ⟨r, rfl⟩ hf
  obtain ⟨⟨⟨hx, -⟩, -⟩, -⟩ := C133_finite A hL g m ht
  obtain ⟨h1, h2, h3⟩ := sprint_turn A (platformOf Control.Trig.real 3.14 (2 ^ 32 - 1)) g m
  rcases hu : upcoming A (platformOf Control.Trig.real 3.14 (2 ^ 32 - 1)).toLib m.stints with e | ⟨_ | t, st⟩
  · rw [h1 e hu] at ht; cases ht
  · obtain ⟨m1, e1, e2⟩ := h2 st hu
    rw [e1] at ht
    cases ht
  rcases h3 t st hu with ⟨e, e1, -⟩ | ⟨m1, e1, -, i, hi, l, -, -, e3⟩
  · rw [e1] at ht; cases ht
  · rw [e1] at ht
    cases ht
    rw [e3] at hx
    have := (ord_add (show Ordinary (A.add m.robot.state.x.x _) from hx)).1
    rw [h] at this
    obtain ⟨r, hr⟩ := this
    cases hr

end Verif.Props
