import Verif.Props.Pace
/-!
# C119: the rounds of a straight fast run

Speeding up and slowing down is computed, with integer bounds for all numbers. While the robot drives with constant speed, what it is off becomes smaller and smaller; when it
slows down, what is left of that adds to what slowing down brings about.
-/
namespace Verif.Props
open Verif

/-- What changes in round `n`. -/
noncomputable def Pace.change (P : Pace) (n : Nat) : Change where
  v := (P.at n).2.1
  a := (P.at n).2.2
  dv := (P.at n).2.1 - (P.at (n - 1)).2.1
  far := (P.at n).1 - (P.at (n - 1)).1 - 0.001 * (P.at n).2.1

/-- What is wanted of a round, for limits of voltage, distance, speed, acceleration and difference of speed. -/
structure RunRound (vb eb mb wb lb : ℝ) (o : Off) (fast : Bool) (c : Change) : Prop where
  mode : if fast then mb < c.v ∧ mb < c.v - o.q1 c else 0 ≤ c.v ∧ c.v ≤ 0.2
  speed : 0 ≤ c.v ∧ c.v ≤ 1
  volt : |o.volt fast c| ≤ vb
  near : |o.e1 c| ≤ eb
  want : |o.want c| ≤ wb
  lag : |o.lag c| ≤ lb

/-! ## Bounds -/

structure IvPace where
  p : Iv
  u : Iv
  dn : Iv
  t2 : Iv
  n1 : Nat
  n2 : Nat
  n3 : Nat
  n4 : Nat

structure IvPace.Has (B : IvPace) (P : Pace) : Prop where
  p : B.p.Has P.p
  u : B.u.Has P.u
  dn : B.dn.Has P.dn
  t2 : B.t2.Has P.t2
  n1 : P.n1 = B.n1
  n2 : P.n2 = B.n2
  n3 : P.n3 = B.n3
  n4 : P.n4 = B.n4

namespace IvPace

/-- Bounds of the times within the parts. -/
def rUp (B : IvPace) (n : Nat) : Iv := (B.u.scale 2 1).sub (.cst n 1000)
def sDown (B : IvPace) (n : Nat) : Iv := (Iv.cst n 1000).sub B.t2
def rDown (B : IvPace) (n : Nat) : Iv := (B.t2.add (B.dn.scale 2 1)).sub (.cst n 1000)
def x2 (B : IvPace) : Iv := (B.p.mul B.u).add (B.p.mul (B.t2.sub (B.u.scale 2 1)))

/-- Bounds of a target. -/
def spot (B : IvPace) (n : Nat) : Places :=
  if n ≤ B.n1 then ⟨.cst (n ^ 3 : Nat) 60000000, .cst (n ^ 2 : Nat) 20000, .cst n 10⟩
  else if n ≤ B.n2 then
    let r := B.rUp n
    let rr := r.mul r
    ⟨((B.p.mul B.u).sub (B.p.mul r)).add ((rr.mul r).scale 100 6), B.p.sub (rr.scale 50 1), r.scale 100 1⟩
  else if n ≤ B.n3 then ⟨(B.p.mul B.u).add (B.p.mul ((Iv.cst n 1000).sub (B.u.scale 2 1))), B.p, ⟨0, 0⟩⟩
  else if n ≤ B.n4 then
    let s := B.sDown n
    let ss := s.mul s
    ⟨(B.x2.add (B.p.mul s)).sub ((ss.mul s).scale 100 6), B.p.sub (ss.scale 50 1), s.scale (-100) 1⟩
  else
    let r := B.rDown n
    let rr := r.mul r
    ⟨((B.x2.add ((B.p.add (.cst 1 2)).mul B.dn)).sub (r.scale 1 2)).sub ((rr.mul r).scale 100 6), (Iv.cst 1 2).add (rr.scale 50 1), r.scale (-100) 1⟩

/-- Bounds of a change, when the target is in another part than the one before. -/
def jump (B : IvPace) (n : Nat) : Changes :=
  let a := B.spot n
  let b := B.spot (n - 1)
  ⟨a.v, a.a, a.v.sub b.v, (a.x.sub b.x).sub (a.v.scale 1 1000)⟩

def change (B : IvPace) (n : Nat) : Changes :=
  if n = 0 then ⟨⟨0, 0⟩, ⟨0, 0⟩, ⟨0, 0⟩, ⟨0, 0⟩⟩
  else if n ≤ B.n1 then ⟨.cst (n ^ 2 : Nat) 20000, .cst n 10, .cst (2 * n - 1) 20000, .cst (1 - 3 * n) 60000000⟩
  else if n ≤ B.n2 then
    if n - 1 ≤ B.n1 then B.jump n else
      let r := B.rUp n
      ⟨B.p.sub ((r.mul r).scale 50 1), r.scale 100 1, (r.scale 1 10).add (.cst 1 20000), (r.scale (-1) 20000).sub (.cst 1 60000000)⟩
  else if n ≤ B.n3 then if n - 1 ≤ B.n2 then B.jump n else ⟨B.p, ⟨0, 0⟩, ⟨0, 0⟩, ⟨0, 0⟩⟩
  else if n ≤ B.n4 then
    if n - 1 ≤ B.n3 then B.jump n else
      let s := B.sDown n
      ⟨B.p.sub ((s.mul s).scale 50 1), s.scale (-100) 1, (s.scale (-1) 10).add (.cst 1 20000), (s.scale 1 20000).sub (.cst 1 60000000)⟩
  else
    if n - 1 ≤ B.n4 then B.jump n else
      let r := B.rDown n
      ⟨(Iv.cst 1 2).add ((r.mul r).scale 50 1), r.scale (-100) 1, (r.scale (-1) 10).sub (.cst 1 20000), (r.scale 1 20000).add (.cst 1 60000000)⟩

/-- The rounds before `n`, from number `i` on; `none` when one is not as wanted. -/
def run (B : IvPace) (test : Offs → Bool → Changes → Bool) : Nat → Nat → Offs → Option Offs
  | 0, _, o => some o
  | n + 1, i, o =>
    let c := B.change i
    if test o (decide (64 ≤ i)) c then B.run test n (i + 1) (o.next (decide (64 ≤ i)) c) else none

end IvPace

/-- The limits, in thousandths of volt, millionths of metre, and thousandths of units. -/
def Offs.fine (vb eb mb wb lb : Int) (o : Offs) (fast : Bool) (c : Changes) : Bool :=
  (bif fast then decide (mb * Iv.unit < 1000 * c.v.lo) && decide (mb * Iv.unit < 1000 * (c.v.sub (o.q1 c)).lo) else decide (5 * c.v.hi ≤ Iv.unit)) &&
  (decide (0 ≤ c.v.lo) && decide (c.v.hi ≤ Iv.unit)) &&
  (decide (-vb * Iv.unit ≤ 1000 * (o.volt fast c).lo) && decide (1000 * (o.volt fast c).hi ≤ vb * Iv.unit)) &&
  (decide (-eb * Iv.unit ≤ 1000000 * (o.e1 c).lo) && decide (1000000 * (o.e1 c).hi ≤ eb * Iv.unit)) &&
  (decide (-wb * Iv.unit ≤ 1000 * (o.want c).lo) && decide (1000 * (o.want c).hi ≤ wb * Iv.unit)) &&
  (decide (-lb * Iv.unit ≤ 1000 * (o.lag c).lo) && decide (1000 * (o.lag c).hi ≤ lb * Iv.unit))

theorem Iv.Has.abs {i : Iv} {x : ℝ} (h : i.Has x) {b q : Int} (hq : 0 < q) (h1 : -b * Iv.unit ≤ q * i.lo) (h2 : q * i.hi ≤ b * Iv.unit) : |x| ≤ (b : ℝ) / q := by
  have k1 : ((-b * Iv.unit : Int) : ℝ) ≤ (q * i.lo : Int) := by exact_mod_cast h1
  have k2 : ((q * i.hi : Int) : ℝ) ≤ (b * Iv.unit : Int) := by exact_mod_cast h2
  have hq' : (0 : ℝ) < q := by exact_mod_cast hq
  unfold Iv.unit at k1 k2
  push_cast at k1 k2
  have l1 := mul_le_mul_of_nonneg_left h.1 hq'.le
  have l2 := mul_le_mul_of_nonneg_left h.2 hq'.le
  rw [abs_le, neg_div', div_le_iff₀ hq', le_div_iff₀ hq']
  constructor
  · nlinarith
  · nlinarith

theorem has_fine {b : Offs} {o : Off} {k : Changes} {c : Change} (h : b.Has o) (h' : k.Has c) (fast : Bool) {vb eb mb wb lb : Int}
    (hg : b.fine vb eb mb wb lb fast k = true) : RunRound (vb / 1000) (eb / 1000000) (mb / 1000) (wb / 1000) (lb / 1000) o fast c := by
  unfold Offs.fine at hg
  simp only [Bool.and_eq_true, decide_eq_true_eq] at hg
  obtain ⟨⟨⟨⟨⟨g1, g2, g3⟩, g4, g5⟩, g6, g7⟩, g8, g9⟩, g10, g11⟩ := hg
  have hx := h'.v.sub (has_q1 h h')
  have cast : ∀ {a b : Int}, a ≤ b → (a : ℝ) ≤ b := fun h => by exact_mod_cast h
  have cast' : ∀ {a b : Int}, a < b → (a : ℝ) < b := fun h => by exact_mod_cast h
  have g2 := cast g2
  have g3 := cast g3
  have v1 := h'.v.1
  have v2 := h'.v.2
  unfold Iv.unit at g3
  push_cast at g2 g3
  constructor
  · cases fast
    · simp only [cond_false, decide_eq_true_eq] at g1
      have k2 := cast g1
      unfold Iv.unit at k2
      push_cast at k2
      simp only [Bool.false_eq_true, if_false]
      constructor <;> linarith
    · simp only [cond_true, Bool.and_eq_true, decide_eq_true_eq] at g1
      have k1 := cast' g1.1
      have k2 := cast' g1.2
      have k4 := hx.1
      unfold Iv.unit at k1 k2
      push_cast at k1 k2
      simp only [if_true]
      constructor <;> linarith
  · constructor <;> linarith
  · exact_mod_cast (has_volt h h' fast).abs (by norm_num) g4 g5
  · exact_mod_cast (has_e1 h h').abs (by norm_num) g6 g7
  · exact_mod_cast (has_want h h').abs (by norm_num) g8 g9
  · exact_mod_cast (has_lag h h').abs (by norm_num) g10 g11

section
variable {B : IvPace} {P : Pace} (h : B.Has P)
include h

theorem has_rUp (n : Nat) : (B.rUp n).Has (2 * P.u - n / 1000) :=
  (((h.u.scale 2 (by norm_num))).sub (Iv.has_cst _ (by norm_num))).eq (by push_cast; ring)
theorem has_sDown (n : Nat) : (B.sDown n).Has (n / 1000 - P.t2) := ((Iv.has_cst _ (by norm_num)).sub h.t2).eq (by push_cast; ring)
theorem has_rDown (n : Nat) : (B.rDown n).Has (P.t2 + 2 * P.dn - n / 1000) :=
  ((h.t2.add (h.dn.scale 2 (by norm_num))).sub (Iv.has_cst _ (by norm_num))).eq (by push_cast; ring)
theorem has_x2 : B.x2.Has (P.p * P.u + P.p * (P.t2 - 2 * P.u)) :=
  ((h.p.mul h.u).add (h.p.mul (h.t2.sub (h.u.scale 2 (by norm_num))))).eq (by push_cast; ring)

theorem has_at (n : Nat) : (B.spot n).x.Has (P.at n).1 ∧ (B.spot n).v.Has (P.at n).2.1 ∧ (B.spot n).a.Has (P.at n).2.2 := by
  unfold IvPace.spot Pace.at
  rw [h.n1, h.n2, h.n3, h.n4]
  have hn : (Iv.cst n 1000).Has ((n : ℝ) / 1000) := (Iv.has_cst _ (by norm_num)).eq (by push_cast; ring)
  split
  · exact ⟨(Iv.has_cst _ (by norm_num)).eq (by push_cast; ring), (Iv.has_cst _ (by norm_num)).eq (by push_cast; ring), (Iv.has_cst _ (by norm_num)).eq (by push_cast; ring)⟩
  split
  · have hu := has_rUp h n
    exact ⟨(((h.p.mul h.u).sub (h.p.mul hu)).add (((hu.mul hu).mul hu).scale 100 (by norm_num))).eq (by push_cast; ring),
      (h.p.sub ((hu.mul hu).scale 50 (by norm_num))).eq (by push_cast; ring), (hu.scale 100 (by norm_num)).eq (by push_cast; ring)⟩
  split
  · exact ⟨((h.p.mul h.u).add (h.p.mul (hn.sub (h.u.scale 2 (by norm_num))))).eq (by push_cast; ring), h.p, has_zero⟩
  split
  · have hu := has_sDown h n
    exact ⟨(((has_x2 h).add (h.p.mul hu)).sub (((hu.mul hu).mul hu).scale 100 (by norm_num))).eq (by push_cast; ring),
      (h.p.sub ((hu.mul hu).scale 50 (by norm_num))).eq (by push_cast; ring), (hu.scale (-100) (by norm_num)).eq (by push_cast; ring)⟩
  · have hu := has_rDown h n
    have hh : (Iv.cst 1 2).Has (1 / 2) := (Iv.has_cst _ (by norm_num)).eq (by push_cast; ring)
    exact ⟨((((has_x2 h).add ((h.p.add hh).mul h.dn)).sub (hu.scale 1 (by norm_num))).sub (((hu.mul hu).mul hu).scale 100 (by norm_num))).eq (by push_cast; ring),
      (hh.add ((hu.mul hu).scale 50 (by norm_num))).eq (by push_cast; ring), (hu.scale (-100) (by norm_num)).eq (by push_cast; ring)⟩

theorem has_jump (n : Nat) : (B.jump n).Has (P.change n) := by
  obtain ⟨a1, a2, a3⟩ := has_at h n
  obtain ⟨b1, b2, b3⟩ := has_at h (n - 1)
  exact ⟨a2, a3, a2.sub b2, ((a1.sub b1).sub (a2.scale 1 (by norm_num))).eq (by simp only [Pace.change]; push_cast; ring)⟩

theorem has_change (h12 : B.n1 ≤ B.n2) (h23 : B.n2 ≤ B.n3) (h34 : B.n3 ≤ B.n4) (n : Nat) : (B.change n).Has (P.change n) := by
  unfold IvPace.change
  by_cases h0 : n = 0
  · subst h0
    rw [if_pos rfl]
    have : P.change 0 = ⟨0, 0, 0, 0⟩ := by unfold Pace.change Pace.at; simp
    rw [this]
    exact ⟨has_zero, has_zero, has_zero, has_zero⟩
  rw [if_neg h0]
  have hc : ((n - 1 : Nat) : ℝ) = n - 1 := by rw [Nat.cast_sub (by omega)]; simp
  by_cases c1 : n ≤ B.n1
  · rw [if_pos c1]
    have : P.change n = ⟨n ^ 2 / 20000, n / 10, (2 * n - 1) / 20000, (1 - 3 * n) / 60000000⟩ := by
      unfold Pace.change Pace.at
      rw [h.n1, if_pos c1, if_pos (by omega)]
      simp only [Change.mk.injEq, true_and, hc]
      exact ⟨by ring, by ring⟩
    rw [this]
    exact ⟨(Iv.has_cst _ (by norm_num)).eq (by push_cast; ring), (Iv.has_cst _ (by norm_num)).eq (by push_cast; ring),
      (Iv.has_cst _ (by norm_num)).eq (by push_cast; ring), (Iv.has_cst _ (by norm_num)).eq (by push_cast; ring)⟩
  rw [if_neg c1]
  by_cases c2 : n ≤ B.n2
  · rw [if_pos c2]
    split
    · exact has_jump h n
    rename_i c1'
    have hr := has_rUp h n
    have : P.change n = ⟨P.p - 50 * ((2 * P.u - n / 1000) * (2 * P.u - n / 1000)), 100 * (2 * P.u - n / 1000), (2 * P.u - n / 1000) / 10 + 1 / 20000,
        -(2 * P.u - n / 1000) / 20000 - 1 / 60000000⟩ := by
      unfold Pace.change Pace.at
      rw [h.n1, h.n2, if_neg c1, if_pos c2, if_neg c1', if_pos (by omega)]
      simp only [Change.mk.injEq, true_and, hc]
      exact ⟨by ring, by ring⟩
    rw [this]
    exact ⟨(h.p.sub ((hr.mul hr).scale 50 (by norm_num))).eq (by push_cast; ring), (hr.scale 100 (by norm_num)).eq (by push_cast; ring),
      ((hr.scale 1 (by norm_num)).add (Iv.has_cst _ (by norm_num))).eq (by push_cast; ring),
      ((hr.scale (-1) (by norm_num)).sub (Iv.has_cst _ (by norm_num))).eq (by push_cast; ring)⟩
  rw [if_neg c2]
  by_cases c3 : n ≤ B.n3
  · rw [if_pos c3]
    split
    · exact has_jump h n
    rename_i c2'
    have : P.change n = ⟨P.p, 0, 0, 0⟩ := by
      unfold Pace.change Pace.at
      rw [h.n1, h.n2, h.n3, if_neg c1, if_neg c2, if_pos c3, if_neg (by omega), if_neg c2', if_pos (by omega)]
      simp only [Change.mk.injEq, true_and, hc]
      exact ⟨by ring, by ring⟩
    rw [this]
    exact ⟨h.p, has_zero, has_zero, has_zero⟩
  rw [if_neg c3]
  by_cases c4 : n ≤ B.n4
  · rw [if_pos c4]
    split
    · exact has_jump h n
    rename_i c3'
    have hr := has_sDown h n
    have : P.change n = ⟨P.p - 50 * ((n / 1000 - P.t2) * (n / 1000 - P.t2)), -100 * (n / 1000 - P.t2), -(n / 1000 - P.t2) / 10 + 1 / 20000,
        (n / 1000 - P.t2) / 20000 - 1 / 60000000⟩ := by
      unfold Pace.change Pace.at
      rw [h.n1, h.n2, h.n3, h.n4, if_neg c1, if_neg c2, if_neg c3, if_pos c4, if_neg (by omega), if_neg (by omega), if_neg c3', if_pos (by omega)]
      simp only [Change.mk.injEq, true_and, hc]
      exact ⟨by ring, by ring⟩
    rw [this]
    exact ⟨(h.p.sub ((hr.mul hr).scale 50 (by norm_num))).eq (by push_cast; ring), (hr.scale (-100) (by norm_num)).eq (by push_cast; ring),
      ((hr.scale (-1) (by norm_num)).add (Iv.has_cst _ (by norm_num))).eq (by push_cast; ring),
      ((hr.scale 1 (by norm_num)).sub (Iv.has_cst _ (by norm_num))).eq (by push_cast; ring)⟩
  rw [if_neg c4]
  split
  · exact has_jump h n
  rename_i c4'
  have hr := has_rDown h n
  have : P.change n = ⟨1 / 2 + 50 * ((P.t2 + 2 * P.dn - n / 1000) * (P.t2 + 2 * P.dn - n / 1000)), -100 * (P.t2 + 2 * P.dn - n / 1000),
      -(P.t2 + 2 * P.dn - n / 1000) / 10 - 1 / 20000, (P.t2 + 2 * P.dn - n / 1000) / 20000 + 1 / 60000000⟩ := by
    unfold Pace.change Pace.at
    rw [h.n1, h.n2, h.n3, h.n4, if_neg c1, if_neg c2, if_neg c3, if_neg c4, if_neg (by omega), if_neg (by omega), if_neg (by omega), if_neg c4']
    simp only [Change.mk.injEq, true_and, hc]
    exact ⟨by ring, by ring⟩
  rw [this]
  exact ⟨((Iv.has_cst _ (by norm_num)).add ((hr.mul hr).scale 50 (by norm_num))).eq (by push_cast; ring), (hr.scale (-100) (by norm_num)).eq (by push_cast; ring),
    ((hr.scale (-1) (by norm_num)).sub (Iv.has_cst _ (by norm_num))).eq (by push_cast; ring),
    ((hr.scale 1 (by norm_num)).add (Iv.has_cst _ (by norm_num))).eq (by push_cast; ring)⟩

end

/-- What the robot is off after `n` rounds from round `i` on. -/
noncomputable def Pace.off (P : Pace) (i : Nat) (o : Off) : Nat → Off
  | 0 => o
  | n + 1 => (P.off i o n).next (decide (64 ≤ i + n)) (P.change (i + n))

theorem pace_run {B : IvPace} {P : Pace} (h : B.Has P) (h12 : B.n1 ≤ B.n2) (h23 : B.n2 ≤ B.n3) (h34 : B.n3 ≤ B.n4) {vb eb mb wb lb : Int} {i0 : Nat} {o0 : Off} :
    ∀ (n k : Nat) (b b' : Offs), B.run (Offs.fine vb eb mb wb lb) n (i0 + k) b = some b' → b.Has (P.off i0 o0 k) →
    b'.Has (P.off i0 o0 (k + n)) ∧ ∀ j, k ≤ j → j < k + n →
      RunRound (vb / 1000) (eb / 1000000) (mb / 1000) (wb / 1000) (lb / 1000) (P.off i0 o0 j) (decide (64 ≤ i0 + j)) (P.change (i0 + j))
  | 0, k, b, b', hr, hb => by
    cases hr
    exact ⟨hb, fun j h1 h2 => by omega⟩
  | n + 1, k, b, b', hr, hb => by
    unfold IvPace.run at hr
    dsimp only at hr
    split at hr
    · rename_i hg
      obtain ⟨k1, k2⟩ := pace_run h h12 h23 h34 (vb := vb) (eb := eb) (mb := mb) (wb := wb) (lb := lb) (i0 := i0) (o0 := o0) n (k + 1) _ b' hr
        (has_next hb (has_change h h12 h23 h34 _) _)
      refine ⟨by rwa [show k + (n + 1) = k + 1 + n by omega], fun j h1 h2 => ?_⟩
      rcases Nat.eq_or_lt_of_le h1 with rfl | h1
      · exact has_fine hb (has_change h h12 h23 h34 _) _ hg
      · exact k2 j h1 (by omega)
    · cases hr

/-! ## What adds up -/

def Off.plus (a b : Off) : Off where
  e := a.e + b.e
  q := a.q + b.q
  w := a.w + b.w
  S := a.S + b.S
  d := a.d + b.d

theorem plus_next (a b : Off) (c : Change) : (a.plus b).next true c = (a.next true (.steady c.v)).plus (b.next true c) := by
  simp only [Off.plus, Off.next, Off.e1, Off.q1, Off.gain, Off.volt, Off.more, Off.accel, Off.want, Off.lag, Change.steady, if_true, Off.mk.injEq]
  refine ⟨?_, ?_, ?_, ?_, ?_⟩ <;> ring

theorem free_volt (o : Off) : (o.volt true (.steady 0)) ^ 2 ≤ 19000 * o.size := by
  have h : 19000 * o.size - (o.volt true (.steady 0)) ^ 2 =
      (195780951733857836839/8695562500000000) * ((1) * o.e + (6569355617139079025/195780951733857836839) * o.q + (2248242346405562495739/195780951733857836839000) * o.w + (-148887424798756511975/195780951733857836839) * o.S + (664510224219437504261/195780951733857836839000) * o.d) ^ 2 +
      (982554543891440092293847/195780951733857836839) * ((1) * o.q + (-45186807791909360769040593/51713397046917899594413000) * o.w + (-918482269346805872032995/51713397046917899594413) * o.S + (-173987893315347287663057/51713397046917899594413000) * o.d) ^ 2 +
      (21988083441125355583553960196501/51713397046917899594413000000) * ((1) * o.w + (1018895326520094325969932089000/42861761093811609324666589077) * o.S + (13371771180773688167487817181/1157267549532913451765997905079) * o.d) ^ 2 +
      (582099826521778722088507051718852/1587472633104133678691355151) * ((1) * o.S + (-217502129258363834047080363702059/41359724516021119727341290516865800) * o.d) ^ 2 +
      (90562013977625917755481258519122457/310197933870158397955059678876493500) * ((1) * o.d) ^ 2 := by
    simp only [Off.size, Off.volt, Off.more, Off.accel, Off.want, Off.q1, Off.e1, Off.lag, Change.steady, if_true]
    ring
  have : 0 ≤ 19000 * o.size - (o.volt true (.steady 0)) ^ 2 := by rw [h]; positivity
  linarith

/-- What is left of earlier rounds, when it is small. -/
theorem free_round {o : Off} (h : o.size ≤ 2.6182e-6) : |o.volt true (.steady 0)| ≤ 0.224 ∧ |o.e1 (.steady 0)| ≤ 0.001635 ∧ |o.q1 (.steady 0)| ≤ 0.101 ∧
    |o.want (.steady 0)| ≤ 3 ∧ |o.lag (.steady 0)| ≤ 0.5 := by
  have h0 := size_bounds o
  have h' : (o.next true (.steady 0)).size ≤ 2.6182e-6 := by
    have := size_steady o 0
    have := size_nonneg o
    norm_num at *
    linarith
  have h1 := size_bounds (o.next true (.steady 0))
  have he : |o.e1 (.steady 0)| ≤ 0.001635 := by
    refine abs_le_of_sq_le_sq (?_ : (o.next true (.steady 0)).e ^ 2 ≤ _) (by norm_num)
    have := sq_nonneg (o.next true (.steady 0)).q
    have := sq_nonneg (o.next true (.steady 0)).w
    have := sq_nonneg (o.next true (.steady 0)).S
    have := sq_nonneg (o.next true (.steady 0)).d
    norm_num at *
    linarith
  have hq : |o.q1 (.steady 0)| ≤ 0.101 := by
    refine abs_le_of_sq_le_sq (?_ : (o.next true (.steady 0)).q ^ 2 ≤ _) (by norm_num)
    have := sq_nonneg (o.next true (.steady 0)).e
    have := sq_nonneg (o.next true (.steady 0)).w
    have := sq_nonneg (o.next true (.steady 0)).S
    have := sq_nonneg (o.next true (.steady 0)).d
    norm_num at *
    linarith
  have hw : |o.w| ≤ 0.142 := by
    refine abs_le_of_sq_le_sq ?_ (by norm_num)
    have := sq_nonneg o.e
    have := sq_nonneg o.q
    have := sq_nonneg o.S
    have := sq_nonneg o.d
    norm_num at *
    linarith
  have hd : |o.d| ≤ 0.3535 := by
    refine abs_le_of_sq_le_sq ?_ (by norm_num)
    have := sq_nonneg o.e
    have := sq_nonneg o.q
    have := sq_nonneg o.S
    have := sq_nonneg o.w
    norm_num at *
    linarith
  have hl : |o.lag (.steady 0)| ≤ 0.5 := by
    unfold Off.lag Change.steady
    rw [abs_le] at hw hd ⊢
    norm_num at *
    constructor <;> linarith
  refine ⟨?_, he, hq, ?_, hl⟩
  · refine abs_le_of_sq_le_sq ((free_volt o).trans ?_) (by norm_num)
    norm_num at h ⊢
    linarith
  · unfold Off.want
    rw [show (Change.steady 0).a = 0 from rfl]
    rw [abs_le] at he hl ⊢
    norm_num at *
    constructor <;> linarith

/-- A round while slowing down. -/
theorem plus_round {a b : Off} {c : Change} (ha : a.size ≤ 2.6182e-6) (hb : RunRound 3.4 0.00036 0.35 40 0.05 b true c) :
    RunRound 3.7 0.002 0.2 50 0.6 (a.plus b) true c := by
  obtain ⟨h1, h2, h3, h4, h5⟩ := free_round ha
  obtain ⟨m1, m2⟩ := if_pos (c := (true : Bool) = true) rfl ▸ hb.mode
  have e2 : (a.plus b).e1 c = a.e1 (.steady 0) + b.e1 c := by simp only [Off.plus, Off.e1, Off.lag, Change.steady]; ring
  have e3 : (a.plus b).q1 c = a.q1 (.steady 0) + b.q1 c := by simp only [Off.plus, Off.q1, Off.want, Off.e1, Off.lag, Change.steady]; ring
  have e4 : (a.plus b).want c = a.want (.steady 0) + b.want c := by simp only [Off.plus, Off.want, Off.e1, Off.lag, Change.steady]; ring
  have e5 : (a.plus b).lag c = a.lag (.steady 0) + b.lag c := by simp only [Off.plus, Off.lag, Change.steady]; ring
  have e1 : (a.plus b).volt true c = a.volt true (.steady 0) + b.volt true c := by
    simp only [Off.plus, Off.volt, Off.more, Off.accel, Off.q1, Off.want, Off.e1, Off.lag, Change.steady, if_true]; ring
  have k1 := hb.volt
  have k2 := hb.near
  have k3 := hb.want
  have k4 := hb.lag
  constructor
  · rw [if_pos rfl, e3]
    have := abs_le.1 h3
    norm_num at *
    constructor <;> linarith
  · exact hb.speed
  · rw [e1]
    refine (abs_add_le _ _).trans ?_
    norm_num at *
    linarith
  · rw [e2]
    refine (abs_add_le _ _).trans ?_
    norm_num at *
    linarith
  · rw [e4]
    refine (abs_add_le _ _).trans ?_
    norm_num at *
    linarith
  · rw [e5]
    refine (abs_add_le _ _).trans ?_
    norm_num at *
    linarith

/-- A round with constant speed. -/
theorem steady_round {o : Off} {v : ℝ} (ho : o.size ≤ 2.6182e-6) (hv : 0.5 ≤ v) (hv' : v ≤ 1) : RunRound 3.7 0.002 0.2 50 0.6 o true (.steady v) := by
  obtain ⟨h1, h2, h3, h4, h5⟩ := free_round ho
  have e1 : o.volt true (.steady v) = o.volt true (.steady 0) + v / 1.865 := by
    simp only [Off.volt, Off.more, Off.accel, Off.q1, Off.want, Off.e1, Off.lag, Change.steady, if_true]; ring
  constructor
  · rw [if_pos rfl]
    have h3 : |o.q1 (.steady v)| ≤ 0.101 := h3
    have := abs_le.1 h3
    rw [show (Change.steady v).v = v from rfl]
    norm_num at *
    constructor <;> linarith
  · exact ⟨by rw [show (Change.steady v).v = v from rfl]; linarith, hv'⟩
  · rw [e1]
    have := abs_le.1 h1
    rw [abs_le]
    norm_num at *
    constructor <;> linarith
  · exact (show |o.e1 (.steady v)| ≤ _ from h2).trans (by norm_num)
  · exact (show |o.want (.steady v)| ≤ _ from h4).trans (by norm_num)
  · exact (show |o.lag (.steady v)| ≤ _ from h5).trans (by norm_num)

end Verif.Props
