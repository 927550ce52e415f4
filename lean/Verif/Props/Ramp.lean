import Verif.Props.Cruise
/-!
# C116: the first 201 rounds

The robot starts from rest. Its first targets do not depend on the maze or on anything else, so the rounds are computed, with integer bounds for all numbers.
-/
namespace Verif.Props
open Verif

/-! ## Bounds -/

/-- Integer bounds of a real number, in units of `10 ^ -18`. -/
structure Iv where
  lo : Int
  hi : Int

namespace Iv

def unit : Int := 1000000000000000000

/-- The number is within the bounds. -/
def Has (i : Iv) (x : ℝ) : Prop := (i.lo : ℝ) ≤ x * 1000000000000000000 ∧ x * 1000000000000000000 ≤ (i.hi : ℝ)

/-- Division with rounding up. -/
def up (a b : Int) : Int := -((-a) / b)

def add (a b : Iv) : Iv := ⟨a.lo + b.lo, a.hi + b.hi⟩
def sub (a b : Iv) : Iv := ⟨a.lo - b.hi, a.hi - b.lo⟩
/-- The constant `p / q`. -/
def cst (p q : Int) : Iv := ⟨p * unit / q, up (p * unit) q⟩
/-- Multiplication with the constant `p / q`. -/
def scale (p q : Int) (a : Iv) : Iv := if 0 ≤ p then ⟨p * a.lo / q, up (p * a.hi) q⟩ else ⟨p * a.hi / q, up (p * a.lo) q⟩
def mul (a b : Iv) : Iv :=
  let l := min (min (a.lo * b.lo) (a.lo * b.hi)) (min (a.hi * b.lo) (a.hi * b.hi))
  let h := max (max (a.lo * b.lo) (a.lo * b.hi)) (max (a.hi * b.lo) (a.hi * b.hi))
  ⟨l / unit, up h unit⟩

theorem down_le {a b : Int} (hb : 0 < b) : ((a / b : Int) : ℝ) ≤ (a : ℝ) / b := by
  rw [le_div_iff₀ (by exact_mod_cast hb)]
  exact_mod_cast Int.ediv_mul_le a hb.ne'

theorem le_up {a b : Int} (hb : 0 < b) : (a : ℝ) / b ≤ ((up a b : Int) : ℝ) := by
  have := down_le (a := -a) hb
  unfold up
  push_cast at this ⊢
  rw [neg_div] at this
  linarith

theorem Has.add {a b : Iv} {x y : ℝ} (h : a.Has x) (h' : b.Has y) : (a.add b).Has (x + y) := by
  unfold Has Iv.add at *
  push_cast
  exact ⟨by linarith [h.1, h'.1], by linarith [h.2, h'.2]⟩

theorem Has.sub {a b : Iv} {x y : ℝ} (h : a.Has x) (h' : b.Has y) : (a.sub b).Has (x - y) := by
  unfold Has Iv.sub at *
  push_cast
  exact ⟨by linarith [h.1, h'.2], by linarith [h.2, h'.1]⟩

theorem has_cst (p : Int) {q : Int} (hq : 0 < q) : (cst p q).Has ((p : ℝ) / q) := by
  unfold Has cst
  have e : ((p * unit : Int) : ℝ) / q = (p : ℝ) / q * 1000000000000000000 := by unfold unit; push_cast; ring
  rw [← e]
  exact ⟨down_le hq, le_up hq⟩

theorem Has.scale {a : Iv} {x : ℝ} (h : a.Has x) (p : Int) {q : Int} (hq : 0 < q) : (a.scale p q).Has ((p : ℝ) / q * x) := by
  have hq' : (0 : ℝ) < q := by exact_mod_cast hq
  unfold Iv.scale
  split
  · rename_i hp
    have hp' : (0 : ℝ) ≤ p := by exact_mod_cast hp
    refine ⟨(down_le hq).trans ?_, le_trans ?_ (le_up hq)⟩
    · push_cast
      rw [div_le_iff₀ hq', show (p : ℝ) / q * x * 1000000000000000000 * q = p * (x * 1000000000000000000) by field_simp]
      exact mul_le_mul_of_nonneg_left h.1 hp'
    · push_cast
      rw [le_div_iff₀ hq', show (p : ℝ) / q * x * 1000000000000000000 * q = p * (x * 1000000000000000000) by field_simp]
      exact mul_le_mul_of_nonneg_left h.2 hp'
  · rename_i hp
    have hp' : (p : ℝ) ≤ 0 := by exact_mod_cast (not_le.1 hp).le
    refine ⟨(down_le hq).trans ?_, le_trans ?_ (le_up hq)⟩
    · push_cast
      rw [div_le_iff₀ hq', show (p : ℝ) / q * x * 1000000000000000000 * q = p * (x * 1000000000000000000) by field_simp]
      exact mul_le_mul_of_nonpos_left h.2 hp'
    · push_cast
      rw [le_div_iff₀ hq', show (p : ℝ) / q * x * 1000000000000000000 * q = p * (x * 1000000000000000000) by field_simp]
      exact mul_le_mul_of_nonpos_left h.1 hp'

theorem corners {a b x c d y : ℝ} (h1 : a ≤ x) (h2 : x ≤ b) (h3 : c ≤ y) (h4 : y ≤ d) :
    min (min (a * c) (a * d)) (min (b * c) (b * d)) ≤ x * y ∧ x * y ≤ max (max (a * c) (a * d)) (max (b * c) (b * d)) := by
  have k (z : ℝ) : min (z * c) (z * d) ≤ z * y ∧ z * y ≤ max (z * c) (z * d) := by
    rcases le_total 0 z with hz | hz
    · exact ⟨(min_le_left _ _).trans (mul_le_mul_of_nonneg_left h3 hz), (mul_le_mul_of_nonneg_left h4 hz).trans (le_max_right _ _)⟩
    · exact ⟨(min_le_right _ _).trans (mul_le_mul_of_nonpos_left h4 hz), (mul_le_mul_of_nonpos_left h3 hz).trans (le_max_left _ _)⟩
  rcases le_total 0 y with hy | hy
  · exact ⟨(min_le_left _ _).trans ((k a).1.trans (mul_le_mul_of_nonneg_right h1 hy)), (mul_le_mul_of_nonneg_right h2 hy).trans ((k b).2.trans (le_max_right _ _))⟩
  · exact ⟨(min_le_right _ _).trans ((k b).1.trans (mul_le_mul_of_nonpos_right h2 hy)), (mul_le_mul_of_nonpos_right h1 hy).trans ((k a).2.trans (le_max_left _ _))⟩

theorem Has.mul {a b : Iv} {x y : ℝ} (h : a.Has x) (h' : b.Has y) : (a.mul b).Has (x * y) := by
  have hu : (0 : Int) < unit := by decide
  obtain ⟨k1, k2⟩ := corners h.1 h.2 h'.1 h'.2
  unfold Iv.mul
  refine ⟨(down_le hu).trans ?_, le_trans ?_ (le_up hu)⟩
  · rw [div_le_iff₀ (by exact_mod_cast hu)]
    unfold unit
    push_cast
    linarith
  · rw [le_div_iff₀ (by exact_mod_cast hu)]
    unfold unit
    push_cast
    linarith

end Iv

/-! ## The targets of the start -/

/-- Target number `n` of the first trajectory: way, speed and acceleration, for the peak speed `pk` and half the time `τ` that it takes to reach it. -/
noncomputable def rampAt (τ pk : ℝ) (n : Nat) : ℝ × ℝ × ℝ :=
  if n ≤ 54 then (n ^ 3 / 60000000, n ^ 2 / 20000, n / 10)
  else if n ≤ 109 then
    (pk * τ - pk * (2 * τ - n / 1000) + 100 / 6 * ((2 * τ - n / 1000) * (2 * τ - n / 1000) * (2 * τ - n / 1000)),
      pk - 50 * ((2 * τ - n / 1000) * (2 * τ - n / 1000)), 100 * (2 * τ - n / 1000))
  else (pk * τ + pk * (n / 1000 - 2 * τ), pk, 0)

/-- The change in round `n`. -/
noncomputable def rampChange (τ pk : ℝ) (n : Nat) : Change where
  v := (rampAt τ pk n).2.1
  a := (rampAt τ pk n).2.2
  dv := (rampAt τ pk n).2.1 - (rampAt τ pk (n - 1)).2.1
  far := (rampAt τ pk n).1 - (rampAt τ pk (n - 1)).1 - 0.001 * (rampAt τ pk n).2.1

noncomputable def rampOff (τ pk : ℝ) : Nat → Off
  | 0 => ⟨0, 0, 0, 0, 0⟩
  | n + 1 => (rampOff τ pk n).next (decide (65 ≤ n)) (rampChange τ pk n)

theorem ramp_steady (τ pk : ℝ) {n : Nat} (hn : 111 ≤ n) : rampChange τ pk n = .steady pk := by
  obtain ⟨k, rfl⟩ : ∃ k, n = k + 111 := ⟨n - 111, by omega⟩
  unfold rampChange rampAt Change.steady
  simp only [Change.mk.injEq]
  rw [if_neg (by omega), if_neg (by omega), if_neg (by omega), if_neg (by omega), show k + 111 - 1 = k + 110 from rfl]
  push_cast
  refine ⟨rfl, rfl, sub_self _, ?_⟩
  ring

/-! ## The bounds of the rounds -/

structure Offs where
  e : Iv
  q : Iv
  w : Iv
  S : Iv
  d : Iv

structure Offs.Has (b : Offs) (o : Off) : Prop where
  e : b.e.Has o.e
  q : b.q.Has o.q
  w : b.w.Has o.w
  S : b.S.Has o.S
  d : b.d.Has o.d

structure Changes where
  v : Iv
  a : Iv
  dv : Iv
  far : Iv

structure Changes.Has (b : Changes) (c : Change) : Prop where
  v : b.v.Has c.v
  a : b.a.Has c.a
  dv : b.dv.Has c.dv
  far : b.far.Has c.far

namespace Offs

def w1 (o : Offs) (c : Changes) : Iv := o.w.add c.dv
def lag (o : Offs) (c : Changes) : Iv := (o.w1 c).sub o.d
def e1 (o : Offs) (c : Changes) : Iv := (o.e.add ((o.lag c).scale 1 1000)).add c.far
def want (o : Offs) (c : Changes) : Iv := (c.a.add ((o.lag c).scale 4 1)).add ((o.e1 c).scale 40 1)
def q1 (o : Offs) (c : Changes) : Iv := (o.q.add c.dv).sub ((o.want c).scale 1 1000)
def more (o : Offs) (fast : Bool) (c : Changes) : Iv := (o.w1 c).add (bif fast then (o.q1 c).scale (-1) 1 else (c.v.mul (o.e1 c)).scale 2 1)
def accel (o : Offs) (fast : Bool) (c : Changes) : Iv := bif fast then o.want c else c.a
def rest (o : Offs) (fast : Bool) (c : Changes) : Iv := (((o.more fast c).sub o.d).scale 48497 10000).add (o.S.scale 295783 10000)
def volt (o : Offs) (fast : Bool) (c : Changes) : Iv :=
  ((((o.accel fast c).scale 4443 10000).add ((c.v.sub (o.w1 c)).add (o.more fast c))).scale 1000 1865).add (o.rest fast c)
def gain (o : Offs) (fast : Bool) (c : Changes) : Iv :=
  ((((o.accel fast c).scale 4443 10000).add (o.more fast c)).add ((o.rest fast c).scale 1865 1000)).scale 10 4453
def next (o : Offs) (fast : Bool) (c : Changes) : Offs where
  e := o.e1 c
  q := o.q1 c
  w := (o.w1 c).sub (o.gain fast c)
  S := o.S.add (((o.more fast c).sub o.d).scale 1 1000)
  d := (o.d.scale 76094276 100000000).sub ((o.gain fast c).scale 23905724 200000000)

/-- What has to hold in a round. -/
def good (o : Offs) (fast : Bool) (c : Changes) : Bool :=
  (bif fast then decide (Iv.unit < 5 * c.v.lo) && decide (Iv.unit < 5 * (c.v.sub (o.q1 c)).lo) else decide (0 ≤ c.v.lo) && decide (5 * c.v.hi ≤ Iv.unit)) &&
  (decide (-37 * Iv.unit ≤ 10 * (o.volt fast c).lo) && decide (10 * (o.volt fast c).hi ≤ 37 * Iv.unit)) &&
  (decide (-Iv.unit ≤ 1000 * (o.e1 c).lo) && decide (1000 * (o.e1 c).hi ≤ Iv.unit))

end Offs

/-- What is wanted of a round. -/
structure SmoothRound (o : Off) (fast : Bool) (c : Change) : Prop where
  mode : if fast then 0.2 < |c.v| ∧ 0.2 < |c.v - o.q1 c| else 0 ≤ c.v ∧ c.v ≤ 0.2
  volt : |o.volt fast c| ≤ 3.7
  near : |o.e1 c| ≤ 0.001

section
variable {b : Offs} {o : Off} {k : Changes} {c : Change}

theorem Iv.Has.eq {i : Iv} {x y : ℝ} (h : i.Has x) (e : y = x) : i.Has y := e ▸ h

theorem has_w1 (h : b.Has o) (h' : k.Has c) : (b.w1 k).Has (o.w + c.dv) := h.w.add h'.dv
theorem has_lag (h : b.Has o) (h' : k.Has c) : (b.lag k).Has (o.lag c) := (has_w1 h h').sub h.d
theorem has_e1 (h : b.Has o) (h' : k.Has c) : (b.e1 k).Has (o.e1 c) :=
  ((h.e.add ((has_lag h h').scale 1 (by norm_num))).add h'.far).eq (by unfold Off.e1; push_cast; ring)
theorem has_want (h : b.Has o) (h' : k.Has c) : (b.want k).Has (o.want c) :=
  ((h'.a.add ((has_lag h h').scale 4 (by norm_num))).add ((has_e1 h h').scale 40 (by norm_num))).eq (by unfold Off.want; push_cast; ring)
theorem has_q1 (h : b.Has o) (h' : k.Has c) : (b.q1 k).Has (o.q1 c) :=
  ((h.q.add h'.dv).sub ((has_want h h').scale 1 (by norm_num))).eq (by unfold Off.q1; push_cast; ring)
theorem has_more (h : b.Has o) (h' : k.Has c) (fast : Bool) : (b.more fast k).Has (o.more fast c) := by
  cases fast
  · exact ((has_w1 h h').add ((h'.v.mul (has_e1 h h')).scale 2 (by norm_num))).eq (by unfold Off.more; push_cast; simp; ring)
  · exact ((has_w1 h h').add ((has_q1 h h').scale (-1) (by norm_num))).eq (by unfold Off.more; push_cast; simp)
theorem has_accel (h : b.Has o) (h' : k.Has c) (fast : Bool) : (b.accel fast k).Has (o.accel fast c) := by
  cases fast
  · exact h'.a
  · exact has_want h h'
theorem has_rest (h : b.Has o) (h' : k.Has c) (fast : Bool) : (b.rest fast k).Has (4.8497 * (o.more fast c - o.d) + 29.5783 * o.S) :=
  ((((has_more h h' fast).sub h.d).scale 48497 (by norm_num)).add (h.S.scale 295783 (by norm_num))).eq (by push_cast; ring)
theorem has_volt (h : b.Has o) (h' : k.Has c) (fast : Bool) : (b.volt fast k).Has (o.volt fast c) :=
  (((((has_accel h h' fast).scale 4443 (by norm_num)).add ((h'.v.sub (has_w1 h h')).add (has_more h h' fast))).scale 1000 (by norm_num)).add
    (has_rest h h' fast)).eq (by unfold Off.volt; push_cast; ring)
theorem has_gain (h : b.Has o) (h' : k.Has c) (fast : Bool) : (b.gain fast k).Has (o.gain fast c) :=
  (((((has_accel h h' fast).scale 4443 (by norm_num)).add (has_more h h' fast)).add ((has_rest h h' fast).scale 1865 (by norm_num))).scale 10 (by norm_num)).eq
    (by unfold Off.gain Off.volt; push_cast; ring)
theorem has_next (h : b.Has o) (h' : k.Has c) (fast : Bool) : (b.next fast k).Has (o.next fast c) where
  e := has_e1 h h'
  q := has_q1 h h'
  w := (has_w1 h h').sub (has_gain h h' fast)
  S := (h.S.add (((has_more h h' fast).sub h.d).scale 1 (by norm_num))).eq (by simp only [Off.next]; push_cast; ring)
  d := ((h.d.scale 76094276 (by norm_num)).sub ((has_gain h h' fast).scale 23905724 (by norm_num))).eq (by simp only [Off.next]; push_cast; ring)

theorem has_good (h : b.Has o) (h' : k.Has c) (fast : Bool) (hg : b.good fast k = true) : SmoothRound o fast c := by
  unfold Offs.good at hg
  simp only [Bool.and_eq_true, decide_eq_true_eq] at hg
  obtain ⟨⟨g1, g2, g3⟩, g4, g5⟩ := hg
  have hv := h'.v
  have hx := h'.v.sub (has_q1 h h')
  have hu := has_volt h h' fast
  have he := has_e1 h h'
  have cast : ∀ {a b : Int}, a ≤ b → (a : ℝ) ≤ b := fun h => by exact_mod_cast h
  have cast' : ∀ {a b : Int}, a < b → (a : ℝ) < b := fun h => by exact_mod_cast h
  constructor
  · cases fast
    · simp only [cond_false, Bool.and_eq_true, decide_eq_true_eq] at g1
      have k1 := cast g1.1
      have k2 := cast g1.2
      have k3 := hv.1
      have k4 := hv.2
      unfold Iv.unit at k1 k2
      push_cast at k1 k2
      simp only [Bool.false_eq_true, if_false]
      constructor <;> linarith
    · simp only [cond_true, Bool.and_eq_true, decide_eq_true_eq] at g1
      have k1 := cast' g1.1
      have k2 := cast' g1.2
      have k3 := hv.1
      have k4 := hx.1
      unfold Iv.unit at k1 k2
      push_cast at k1 k2
      simp only [if_true]
      constructor
      · refine lt_of_lt_of_le ?_ (le_abs_self _); linarith
      · refine lt_of_lt_of_le ?_ (le_abs_self _); linarith
  · have k1 := cast g2
    have k2 := cast g3
    have k3 := hu.1
    have k4 := hu.2
    unfold Iv.unit at k1 k2
    push_cast at k1 k2
    rw [abs_le]
    constructor <;> linarith
  · have k1 := cast g4
    have k2 := cast g5
    have k3 := he.1
    have k4 := he.2
    unfold Iv.unit at k1 k2
    push_cast at k1 k2
    rw [abs_le]
    constructor <;> linarith

end

/-! ## The computation -/

def ivPeak : Iv := ⟨299999999999999733, 299999999999999734⟩
def ivTau : Iv := ⟨54772255750516587, 54772255750516588⟩

structure Places where
  x : Iv
  v : Iv
  a : Iv

/-- Bounds of the target number `n`. -/
def ivAt (n : Nat) : Places :=
  if n ≤ 54 then ⟨.cst (n ^ 3 : Nat) 60000000, .cst (n ^ 2 : Nat) 20000, .cst n 10⟩
  else if n ≤ 109 then
    let u := (ivTau.scale 2 1).sub (.cst n 1000)
    let uu := u.mul u
    ⟨((ivPeak.mul ivTau).sub (ivPeak.mul u)).add ((uu.mul u).scale 100 6), ivPeak.sub (uu.scale 50 1), u.scale 100 1⟩
  else ⟨(ivPeak.mul ivTau).add (ivPeak.mul ((Iv.cst n 1000).sub (ivTau.scale 2 1))), ivPeak, ⟨0, 0⟩⟩

def ivChange (n : Nat) : Changes :=
  if n ≤ 110 then
    ⟨(ivAt n).v, (ivAt n).a, (ivAt n).v.sub (ivAt (n - 1)).v, ((ivAt n).x.sub (ivAt (n - 1)).x).sub ((ivAt n).v.scale 1 1000)⟩
  else ⟨ivPeak, ⟨0, 0⟩, ⟨0, 0⟩, ⟨0, 0⟩⟩

/-- The rounds before `n`, from number `i` on; `none` when one is not good. -/
def ivRun : Nat → Nat → Offs → Option Offs
  | 0, _, o => some o
  | n + 1, i, o => if o.good (decide (65 ≤ i)) (ivChange i) then ivRun n (i + 1) (o.next (decide (65 ≤ i)) (ivChange i)) else none

theorem has_zero : (⟨0, 0⟩ : Iv).Has 0 := by unfold Iv.Has; norm_num

section
variable {τ pk : ℝ} (hp : ivPeak.Has pk) (ht : ivTau.Has τ)
include hp ht

theorem ivAt_has (n : Nat) : (ivAt n).x.Has (rampAt τ pk n).1 ∧ (ivAt n).v.Has (rampAt τ pk n).2.1 ∧ (ivAt n).a.Has (rampAt τ pk n).2.2 := by
  unfold ivAt rampAt
  split
  · exact ⟨(Iv.has_cst _ (by norm_num)).eq (by push_cast; ring), (Iv.has_cst _ (by norm_num)).eq (by push_cast; ring), (Iv.has_cst _ (by norm_num)).eq (by push_cast; ring)⟩
  · have hn : (Iv.cst n 1000).Has ((n : ℝ) / 1000) := (Iv.has_cst _ (by norm_num)).eq (by push_cast; ring)
    have h2 : (ivTau.scale 2 1).Has (2 * τ) := (ht.scale 2 (by norm_num)).eq (by push_cast; ring)
    split
    · have hu := h2.sub hn
      exact ⟨(((hp.mul ht).sub (hp.mul hu)).add (((hu.mul hu).mul hu).scale 100 (by norm_num))).eq (by push_cast; ring),
        (hp.sub ((hu.mul hu).scale 50 (by norm_num))).eq (by push_cast; ring), (hu.scale 100 (by norm_num)).eq (by push_cast; ring)⟩
    · exact ⟨(hp.mul ht).add (hp.mul (hn.sub h2)), hp, has_zero⟩

theorem ivChange_has (n : Nat) : (ivChange n).Has (rampChange τ pk n) := by
  unfold ivChange
  obtain ⟨a1, a2, a3⟩ := ivAt_has hp ht n
  obtain ⟨b1, b2, b3⟩ := ivAt_has hp ht (n - 1)
  split
  · exact ⟨a2, a3, a2.sub b2, ((a1.sub b1).sub (a2.scale 1 (by norm_num))).eq (by simp only [rampChange]; push_cast; ring)⟩
  · rw [ramp_steady τ pk (by omega)]
    exact ⟨hp, has_zero, has_zero, has_zero⟩

theorem ivRun_has : ∀ (n i : Nat) (b b' : Offs), ivRun n i b = some b' → b.Has (rampOff τ pk i) →
    b'.Has (rampOff τ pk (i + n)) ∧ ∀ k, i ≤ k → k < i + n → SmoothRound (rampOff τ pk k) (decide (65 ≤ k)) (rampChange τ pk k)
  | 0, i, b, b', h, h' => by
    cases h
    exact ⟨h', fun k h1 h2 => by omega⟩
  | n + 1, i, b, b', h, h' => by
    unfold ivRun at h
    split at h
    · rename_i hg
      obtain ⟨k1, k2⟩ := ivRun_has n (i + 1) _ b' h (has_next h' (ivChange_has hp ht i) _)
      refine ⟨by rwa [show i + (n + 1) = i + 1 + n by omega], fun k h1 h2 => ?_⟩
      rcases Nat.eq_or_lt_of_le h1 with rfl | h1
      · exact has_good h' (ivChange_has hp ht i) _ hg
      · exact k2 k h1 (by omega)
    · cases h

end

/-- Bounds of the size. -/
def Offs.size (o : Offs) : Iv :=
  let t (p q : Int) (a b : Iv) := (a.mul b).scale p q
  ((((((((((((((t 119 100 o.e o.e).add (t 37 500 o.e o.q)).add (t 83 2500 o.e o.w)).add (t (-443) 250 o.e o.S)).add (t 103 50000 o.e o.d)).add
    (t 267 1000 o.q o.q)).add (t (-58) 125 o.q o.w)).add (t (-473) 50 o.q o.S)).add (t 9 5000 o.q o.d)).add (t 113 500 o.w o.w)).add
    (t 463 50 o.w o.S)).add (t (-71) 50000 o.w o.d)).add (t 116 1 o.S o.S)).add (t (-917) 5000 o.S o.d)).add (t 59 25000 o.d o.d)

theorem has_size {b : Offs} {o : Off} (h : b.Has o) : b.size.Has o.size := by
  have t {a c : Iv} {x y : ℝ} (p : Int) {q : Int} (hq : 0 < q) (h1 : a.Has x) (h2 : c.Has y) : ((a.mul c).scale p q).Has ((p : ℝ) / q * (x * y)) :=
    (h1.mul h2).scale p hq
  refine (((((((((((((((t 119 (by norm_num) h.e h.e).add (t 37 (by norm_num) h.e h.q)).add (t 83 (by norm_num) h.e h.w)).add (t (-443) (by norm_num) h.e h.S)).add
    (t 103 (by norm_num) h.e h.d)).add (t 267 (by norm_num) h.q h.q)).add (t (-58) (by norm_num) h.q h.w)).add (t (-473) (by norm_num) h.q h.S)).add
    (t 9 (by norm_num) h.q h.d)).add (t 113 (by norm_num) h.w h.w)).add (t 463 (by norm_num) h.w h.S)).add (t (-71) (by norm_num) h.w h.d)).add
    (t 116 (by norm_num) h.S h.S)).add (t (-917) (by norm_num) h.S h.d)).add (t 59 (by norm_num) h.d h.d)).eq ?_
  unfold Off.size
  push_cast
  ring

/-- The first 201 rounds are good, and the size after them is small. -/
def ivOk : Bool := match ivRun 201 0 ⟨⟨0, 0⟩, ⟨0, 0⟩, ⟨0, 0⟩, ⟨0, 0⟩, ⟨0, 0⟩⟩ with
  | none => false
  | some o => decide (o.size.hi ≤ 100000000000)

theorem ivOk_true : ivOk = true := by decide +kernel

theorem ramp_good {τ pk : ℝ} (hp : ivPeak.Has pk) (ht : ivTau.Has τ) :
    (∀ n, n < 201 → SmoothRound (rampOff τ pk n) (decide (65 ≤ n)) (rampChange τ pk n)) ∧ (rampOff τ pk 201).size ≤ 1e-7 := by
  have h := ivOk_true
  unfold ivOk at h
  split at h
  · cases h
  · rename_i o ho
    obtain ⟨k1, k2⟩ := ivRun_has hp ht _ _ _ _ ho ⟨has_zero, has_zero, has_zero, has_zero, has_zero⟩
    refine ⟨fun n hn => k2 n (Nat.zero_le _) (by omega), ?_⟩
    have hs := (has_size k1).2
    have hi : ((o.size.hi : Int) : ℝ) ≤ 100000000000 := by exact_mod_cast of_decide_eq_true h
    norm_num at hs ⊢
    linarith

end Verif.Props
