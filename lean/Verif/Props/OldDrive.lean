import Verif.Spec.OldRobot
import Verif.Props.Control
import Mathlib.Tactic.Ring
import Mathlib.Tactic.Linarith
import Mathlib.Tactic.FieldSimp
import Mathlib.Tactic.NormNum
/-!
# C101: the former controller and its fail-safe
-/
namespace Verif.Props
open Verif Verif.Spec Verif.Old.Robot
open Verif.Control (Params)

theorem not_allowed {th : ℝ} {v : F} : ¬ (F.fin th).lt v.abs ↔ Allowed th v := by
  cases v <;> simp [F.lt, F.abs, Allowed, F.le, F.isNan]

/-- **C101, fail-safe.** In any arithmetic, with any references and measured values, whether numbers or not: every call gives each motor exactly one
voltage, first the left one, then the right one. Either the call succeeds and neither voltage exceeds the threshold (it may not be a number), or it fails,
both voltages are zero, and the error reports voltages of which at least one exceeds the threshold. -/
theorem C101_safe (A : Arith) (l : List (ControlTarget × ControlTarget)) (c : Old.Robot.Controller) :
    (controls A l c).2.length = l.length ∧ (controls A l c).1.threshold = c.threshold ∧ ∀ deed ∈ (controls A l c).2,
      (∃ a b, deed = ([.left a, .right b], .ok ()) ∧ Allowed c.threshold a ∧ Allowed c.threshold b) ∨
      (∃ e, deed = ([.left (.fin 0), .right (.fin 0)], .error e) ∧ (¬ Allowed c.threshold e.left ∨ ¬ Allowed c.threshold e.right)) := by
  induction l generalizing c with
  | nil => exact ⟨rfl, rfl, by simp [controls]⟩
  | cons p l ih =>
    obtain ⟨r, y⟩ := p
    have hd : (c.control A r y).1.threshold = c.threshold ∧
      ((∃ a b, (c.control A r y).2 = ([.left a, .right b], .ok ()) ∧ Allowed c.threshold a ∧ Allowed c.threshold b) ∨
      (∃ e, (c.control A r y).2 = ([.left (.fin 0), .right (.fin 0)], .error e) ∧ (¬ Allowed c.threshold e.left ∨ ¬ Allowed c.threshold e.right))) := by
      unfold Old.Robot.Controller.control
      dsimp only
      split
      · rename_i h
        refine ⟨rfl, .inr ⟨_, rfl, ?_⟩⟩
        exact h.imp (fun h => fun h' => not_allowed.2 h' h) (fun h => fun h' => not_allowed.2 h' h)
      · rename_i h
        rw [not_or, not_allowed, not_allowed] at h
        exact ⟨rfl, .inl ⟨_, _, rfl, h.1, h.2⟩⟩
    obtain ⟨i1, i2, i3⟩ := ih (c.control A r y).1
    rw [hd.1] at i2 i3
    refine ⟨by simpa [controls] using i1, i2, ?_⟩
    intro deed hm
    rcases List.mem_cons.1 hm with rfl | hm
    · exact hd.2
    · exact i3 deed hm

/-- **C101, stopping** gives both motors zero. -/
theorem C101_stop : Old.Robot.Controller.stop = [.left (.fin 0), .right (.fin 0)] := rfl

theorem controls_append (A : Arith) (l l' : List (ControlTarget × ControlTarget)) (c : Old.Robot.Controller) :
    controls A (l ++ l') c = ((controls A l' (controls A l c).1).1, (controls A l c).2 ++ (controls A l' (controls A l c).1).2) := by
  induction l generalizing c with
  | nil => rfl
  | cons p l ih =>
    obtain ⟨r, y⟩ := p
    show ((controls A (l ++ l') (c.control A r y).1).1, _ :: (controls A (l ++ l') (c.control A r y).1).2) = _
    rw [ih]
    rfl

theorem calculate_eq {p : Params} (hk : p.modelK ≠ 0) (T s r dr y dy : ℝ) :
    (Siso.mk (.fin s) p T).calculate exact (.fin r) (.fin dr) (.fin y) (.fin dy) =
      (⟨.fin (s + (r - y) * T), p, T⟩, .fin ((p.modelT1 * dr + r) / p.modelK + p.kp * (r - y) + p.kd * (dr - dy) + p.ki * s)) := by
  simp only [Siso.calculate, exact, Arith.sub, Arith.mul, Arith.add, Arith.div, F.neg, if_neg hk, Prod.mk.injEq, Siso.mk.injEq, F.fin.injEq, and_true]
  constructor <;> ring

theorem control_eq {c : Old.Robot.Controller} {ts rs T : ℝ} {p q : Params} (hp : p.modelK ≠ 0) (hq : q.modelK ≠ 0)
    (ht : c.trans = ⟨.fin ts, p, T⟩) (hr : c.rot = ⟨.fin rs, q, T⟩) (r y : Control.ControlTarget) {vt vr : ℝ}
    (hvt : vt = (p.modelT1 * r.a + r.v) / p.modelK + p.kp * (r.v - y.v) + p.kd * (r.a - y.a) + p.ki * ts)
    (hvr : vr = (q.modelT1 * r.alpha + r.omega) / q.modelK + q.kp * (r.omega - y.omega) + q.kd * (r.alpha - y.alpha) + q.ki * rs) :
    (c.control exact (inF r) (inF y)).1 = ⟨⟨.fin (ts + (r.v - y.v) * T), p, T⟩, ⟨.fin (rs + (r.omega - y.omega) * T), q, T⟩, c.threshold⟩ ∧
    Safely c.threshold (vt - vr) (vt + vr) (c.control exact (inF r) (inF y)).2 := by
  classical
  have e : c.control exact (inF r) (inF y) =
      if c.threshold < |vt - vr| ∨ c.threshold < |vt + vr| then
        (⟨⟨.fin (ts + (r.v - y.v) * T), p, T⟩, ⟨.fin (rs + (r.omega - y.omega) * T), q, T⟩, c.threshold⟩,
          [.left (.fin 0), .right (.fin 0)], .error ⟨.fin (vt - vr), .fin (vt + vr)⟩)
      else (⟨⟨.fin (ts + (r.v - y.v) * T), p, T⟩, ⟨.fin (rs + (r.omega - y.omega) * T), q, T⟩, c.threshold⟩,
          [.left (.fin (vt - vr)), .right (.fin (vt + vr))], .ok ()) := by
    unfold Old.Robot.Controller.control
    rw [ht, hr]
    simp only [inF]
    have e1 : exact.sub (.fin vt) (.fin vr) = .fin (vt - vr) := by simp [Arith.sub, F.neg, Arith.add, exact, sub_eq_add_neg]
    have e2 : exact.add (.fin vt) (.fin vr) = .fin (vt + vr) := rfl
    simp only [calculate_eq hp, calculate_eq hq, ← hvt, ← hvr, e1, e2, F.abs, F.lt]
  rw [e]
  split
  · rename_i h
    exact ⟨rfl, fun h' => absurd h (by rw [not_or, not_lt, not_lt]; exact h'), fun _ => rfl⟩
  · rename_i h
    exact ⟨rfl, fun _ => rfl, fun h' => absurd h' h⟩

theorem controls_sums {p q : Params} (hp : p.modelK ≠ 0) (hq : q.modelK ≠ 0) {T : ℝ} (l : List (Control.ControlTarget × Control.ControlTarget)) :
    ∀ (c : Old.Robot.Controller) (ts rs : ℝ), c.trans = ⟨.fin ts, p, T⟩ → c.rot = ⟨.fin rs, q, T⟩ →
    (controls exact (l.map fun x => (inF x.1, inF x.2)) c).1 =
      ⟨⟨.fin (ts + ((l.map fun x => x.1.v - x.2.v).map (· * T)).sum), p, T⟩,
        ⟨.fin (rs + ((l.map fun x => x.1.omega - x.2.omega).map (· * T)).sum), q, T⟩, c.threshold⟩ := by
  induction l with
  | nil =>
    intro c ts rs ht hr
    obtain ⟨c1, c2, c3⟩ := c
    simp only at ht hr
    simp [controls, ht, hr]
  | cons x l ih =>
    intro c ts rs ht hr
    obtain ⟨r, y⟩ := x
    have h := (control_eq hp hq ht hr r y rfl rfl).1
    show (controls exact (l.map fun x => (inF x.1, inF x.2)) (c.control exact (inF r) (inF y)).1).1 = _
    rw [h]
    rw [ih _ _ _ rfl rfl]
    simp only [List.map_cons, List.sum_cons, Old.Robot.Controller.mk.injEq, Siso.mk.injEq, F.fin.injEq, and_true]
    constructor <;> ring

/-- **C101, law.** In real numbers, a new controller computes for every call the voltages of the PID law with feed-forward, whose integral is over the
errors of all the calls before, including those at which the fail-safe stopped the motors. It applies them if neither exceeds the threshold, and stops the
motors and reports the two voltages otherwise. -/
theorem C101_law {p q : Params} (hp : p.modelK ≠ 0) (hq : q.modelK ≠ 0) (T th : ℝ) (pre : List (Control.ControlTarget × Control.ControlTarget))
    (r y : Control.ControlTarget) :
    let vt := pidVoltage p T r.v r.a y.v y.a (pre.map fun x => x.1.v - x.2.v)
    let vr := pidVoltage q T r.omega r.alpha y.omega y.alpha (pre.map fun x => x.1.omega - x.2.omega)
    ∃ deed, Safely th (vt - vr) (vt + vr) deed ∧
      (controls exact ((pre ++ [(r, y)]).map fun x => (inF x.1, inF x.2)) (.new p q T th)).2 =
        (controls exact (pre.map fun x => (inF x.1, inF x.2)) (.new p q T th)).2 ++ [deed] := by
  intro vt vr
  rw [List.map_append, controls_append]
  have h := controls_sums hp hq (T := T) pre (.new p q T th) 0 0 rfl rfl
  simp only [zero_add] at h
  have hc := (control_eq (c := (controls exact (pre.map fun x => (inF x.1, inF x.2)) (.new p q T th)).1) hp hq (by rw [h]) (by rw [h]) r y
    (vt := vt) (vr := vr) (by simp only [vt, pidVoltage]) (by simp only [vr, pidVoltage])).2
  rw [(C101_safe exact _ _).2.1] at hc
  exact ⟨_, hc, rfl⟩

/-- **C101, poison.** Once a reference or measured speed is not a number, every voltage applied by the controller from then on is not a number, and every
call succeeds: the fail-safe never acts again. In any arithmetic. -/
theorem C101_poison (A : Arith) (c : Old.Robot.Controller) (r y : ControlTarget) (l : List (ControlTarget × ControlTarget))
    (h : r.v = .nan ∨ y.v = .nan ∨ r.omega = .nan ∨ y.omega = .nan) :
    ∀ deed ∈ (controls A ((r, y) :: l) c).2, deed = ([.left .nan, .right .nan], .ok ()) := by
  have n1 : ∀ x, A.add .nan x = .nan := fun x => by cases x <;> rfl
  have n2 : ∀ x, A.add x .nan = .nan := fun x => by cases x <;> rfl
  have n3 : ∀ x, A.sub .nan x = .nan := fun x => by cases x <;> rfl
  have n4 : ∀ x, A.sub x .nan = .nan := fun x => by cases x <;> rfl
  have n5 : ∀ x, A.mul .nan x = .nan := fun x => by cases x <;> rfl
  have n6 : ∀ x, A.mul x .nan = .nan := fun x => by cases x <;> rfl
  have calc1 : ∀ (s : Siso) (r dr y dy : F), r = .nan ∨ y = .nan ∨ s.errorSum = .nan →
      (s.calculate A r dr y dy).2 = .nan ∧ (s.calculate A r dr y dy).1.errorSum = .nan := by
    rintro s r dr y dy (rfl | rfl | h)
    · simp [Siso.calculate, n1, n2, n3, n4, n5, n6]
    · simp [Siso.calculate, n1, n2, n3, n4, n5, n6]
    · refine ⟨?_, ?_⟩
      · simp [Siso.calculate, n1, n2, n3, n4, n5, n6, h]
      · simp [Siso.calculate, n1, n2, n3, n4, n5, n6, h]
  have hout : ∀ (c : Old.Robot.Controller) (r y : ControlTarget),
      (c.trans.calculate A r.v r.a y.v y.a).2 = .nan ∨ (c.rot.calculate A r.omega r.alpha y.omega y.alpha).2 = .nan →
      (c.control A r y).2 = ([.left .nan, .right .nan], .ok ()) ∧
      (c.control A r y).1.trans = (c.trans.calculate A r.v r.a y.v y.a).1 ∧
      (c.control A r y).1.rot = (c.rot.calculate A r.omega r.alpha y.omega y.alpha).1 := by
    intro c r y h
    unfold Old.Robot.Controller.control
    dsimp only
    have e1 : A.sub (c.trans.calculate A r.v r.a y.v y.a).2 (c.rot.calculate A r.omega r.alpha y.omega y.alpha).2 = .nan := by
      rcases h with h | h <;> rw [h]
      · exact n3 _
      · exact n4 _
    have e2 : A.add (c.trans.calculate A r.v r.a y.v y.a).2 (c.rot.calculate A r.omega r.alpha y.omega y.alpha).2 = .nan := by
      rcases h with h | h <;> rw [h]
      · exact n1 _
      · exact n2 _
    rw [e1, e2, if_neg (by simp [F.abs, F.lt])]
    exact ⟨rfl, rfl, rfl⟩
  have hstep : ∀ (c : Old.Robot.Controller) (r y : ControlTarget),
      (r.v = .nan ∨ y.v = .nan ∨ c.trans.errorSum = .nan) ∨ (r.omega = .nan ∨ y.omega = .nan ∨ c.rot.errorSum = .nan) →
      (c.control A r y).2 = ([.left .nan, .right .nan], .ok ()) ∧
      ((c.control A r y).1.trans.errorSum = .nan ∨ (c.control A r y).1.rot.errorSum = .nan) := by
    intro c r y h
    rcases h with h | h
    · obtain ⟨h1, h2, h3⟩ := hout c r y (.inl (calc1 _ _ _ _ _ h).1)
      exact ⟨h1, .inl (by rw [h2]; exact (calc1 _ _ _ _ _ h).2)⟩
    · obtain ⟨h1, h2, h3⟩ := hout c r y (.inr (calc1 _ _ _ _ _ h).1)
      exact ⟨h1, .inr (by rw [h3]; exact (calc1 _ _ _ _ _ h).2)⟩
  have main : ∀ (l : List (ControlTarget × ControlTarget)) (c : Old.Robot.Controller), c.trans.errorSum = .nan ∨ c.rot.errorSum = .nan →
      ∀ deed ∈ (controls A l c).2, deed = ([.left .nan, .right .nan], .ok ()) := by
    intro l
    induction l with
    | nil => intro c _ deed hd; simp [controls] at hd
    | cons p l ih =>
      intro c hc deed hd
      obtain ⟨r, y⟩ := p
      obtain ⟨h1, h2⟩ := hstep c r y (hc.imp (fun h => .inr (.inr h)) (fun h => .inr (.inr h)))
      rcases List.mem_cons.1 hd with rfl | hd
      · exact h1
      · exact ih _ h2 deed hd
  obtain ⟨h1, h2⟩ := hstep c r y (by tauto)
  intro deed hd
  rcases List.mem_cons.1 hd with rfl | hd
  · exact h1
  · exact main l _ h2 deed hd

/-- Non-vacuity: standing still and asked for 1 m/s, a controller with feed-forward and proportional gain 1 and threshold 3 applies 2 V to both motors;
asked for 2 m/s it stops them and reports 4 V; and a second call with 1 m/s integrates the first error. -/
example :
    let p : Params := ⟨1, 1, 0, 1, 0⟩
    let still : Control.ControlTarget := ⟨0, 0, 0, 0⟩
    (controls exact ([(⟨1, 0, 0, 0⟩, still)].map fun x => (inF x.1, inF x.2)) (.new p p 0.5 3)).2 = [([.left (.fin 2), .right (.fin 2)], .ok ())] ∧
    (controls exact ([(⟨2, 0, 0, 0⟩, still)].map fun x => (inF x.1, inF x.2)) (.new p p 0.5 3)).2 =
      [([.left (.fin 0), .right (.fin 0)], .error ⟨.fin 4, .fin 4⟩)] ∧
    (controls exact ([(⟨2, 0, 0, 0⟩, still), (⟨1, 0, 0, 0⟩, still)].map fun x => (inF x.1, inF x.2)) (.new p p 0.5 3)).2 =
      [([.left (.fin 0), .right (.fin 0)], .error ⟨.fin 4, .fin 4⟩), ([.left (.fin 3), .right (.fin 3)], .ok ())] := by
  intro p still
  have a : (controls exact ([(⟨2, 0, 0, 0⟩, still)].map fun x => (inF x.1, inF x.2)) (.new p p 0.5 3)).2 =
      [([.left (.fin 0), .right (.fin 0)], .error ⟨.fin 4, .fin 4⟩)] := by
    obtain ⟨d, h1, h2⟩ := C101_law (p := p) (q := p) (by norm_num [p]) (by norm_num [p]) 0.5 3 [] ⟨2, 0, 0, 0⟩ still
    rw [List.nil_append] at h2
    rw [h2]
    norm_num [pidVoltage, p, still, Safely] at h1
    rw [h1]; rfl
  refine ⟨?_, a, ?_⟩
  · obtain ⟨d, h1, h2⟩ := C101_law (p := p) (q := p) (by norm_num [p]) (by norm_num [p]) 0.5 3 [] ⟨1, 0, 0, 0⟩ still
    rw [List.nil_append] at h2
    rw [h2]
    norm_num [pidVoltage, p, still, Safely] at h1
    rw [h1]; rfl
  · obtain ⟨d, h1, h2⟩ := C101_law (p := p) (q := p) (by norm_num [p]) (by norm_num [p]) 0.5 3 [(⟨2, 0, 0, 0⟩, still)] ⟨1, 0, 0, 0⟩ still
    rw [List.singleton_append] at h2
    rw [h2, a]
    norm_num [pidVoltage, p, still, Safely] at h1
    rw [h1]; rfl

end Verif.Props
