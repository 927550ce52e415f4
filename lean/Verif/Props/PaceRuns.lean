import Verif.Props.PaceIv
/-!
# C119: a straight fast run of any length can be followed
-/
namespace Verif.Props
open Verif Verif.Straight Verif.Spec

def Offs.none : Offs := ⟨⟨0, 0⟩, ⟨0, 0⟩, ⟨0, 0⟩, ⟨0, 0⟩, ⟨0, 0⟩⟩

noncomputable def Off.none : Off := ⟨0, 0, 0, 0, 0⟩

theorem has_none : Offs.none.Has Off.none := ⟨has_zero, has_zero, has_zero, has_zero, has_zero⟩

/-- What a straight way of so many squares needs. -/
def CanFollow (P : Pace) (N : Nat) : Prop := ∀ n, n ≤ N → RunRound 3.7 0.002 0.2 50 0.6 (P.off 0 .none n) (decide (64 ≤ n)) (P.change n)

theorem sqrt_has {x : ℝ} {lo hi : Int} (h0 : 0 ≤ x) (hl : 0 ≤ lo) (h1 : (lo : ℝ) ^ 2 ≤ x * 1000000000000000000 ^ 2) (h2 : x * 1000000000000000000 ^ 2 ≤ (hi : ℝ) ^ 2) (hh : 0 ≤ hi) :
    (⟨lo, hi⟩ : Iv).Has (Real.sqrt x) := by
  have e : Real.sqrt x * 1000000000000000000 = Real.sqrt (x * 1000000000000000000 ^ 2) := by
    rw [Real.sqrt_mul h0, Real.sqrt_sq (by norm_num)]
  have hh' : (0 : ℝ) ≤ hi := by exact_mod_cast hh
  constructor
  · rw [e]; exact Real.le_sqrt_of_sq_le h1
  · rw [e, Real.sqrt_le_left hh']; exact h2

theorem run_of_ok {B : IvPace} {P : Pace} (h : B.Has P) (h12 : B.n1 ≤ B.n2) (h23 : B.n2 ≤ B.n3) (h34 : B.n3 ≤ B.n4) {N : Nat}
    (hk : (B.run (Offs.fine 3700 2000 200 50000 600) (N + 1) 0 .none).isSome = true) : CanFollow P N := by
  obtain ⟨b', hb⟩ := Option.isSome_iff_exists.1 hk
  obtain ⟨-, k⟩ := pace_run h h12 h23 h34 (i0 := 0) (o0 := .none) (N + 1) 0 _ b' hb has_none
  intro n hn
  have := k n (Nat.zero_le _) (by omega)
  rw [zero_add] at this
  norm_num at this ⊢
  exact this

/-! ## One square -/

def iv1 : IvPace := ⟨⟨627605140209197998, 627605140209197999⟩, ⟨79221533701967547, 79221533701967548⟩, ⟨35721861682896371, 35721861682896372⟩,
  ⟨158443072792535000, 158443072792535040⟩, 79, 158, 158, 194⟩

noncomputable def pace1 : Pace where
  p := 0.5 + (8563436 : Nat) / 2 ^ 26
  u := Real.sqrt ((0.5 + (8563436 : Nat) / 2 ^ 26) / 100)
  dn := Real.sqrt ((0.5 + (8563436 : Nat) / 2 ^ 26 - 0.5) / 100)
  t2 := 2 * Real.sqrt ((0.5 + (8563436 : Nat) / 2 ^ 26) / 100) + (0.09 - reachDist (0.5 + (8563436 : Nat) / 2 ^ 26)) / (0.5 + (8563436 : Nat) / 2 ^ 26)
  n1 := 79
  n2 := 158
  n3 := 158
  n4 := 194

theorem u1 : iv1.u.Has pace1.u := sqrt_has (by norm_num) (by norm_num) (by norm_num) (by norm_num) (by norm_num)
theorem dn1 : iv1.dn.Has pace1.dn := sqrt_has (by norm_num) (by norm_num) (by norm_num) (by norm_num) (by norm_num)
theorem t21 : pace1.t2 = pace1.u + 0.09 / pace1.p - (1 + 0.5 / pace1.p) * pace1.dn := by
  unfold pace1 reachDist
  dsimp only
  generalize Real.sqrt _ = a
  generalize Real.sqrt _ = b
  norm_num
  ring

theorem has1 : iv1.Has pace1 := by
  have h1 := u1
  have h2 := dn1
  refine ⟨?_, h1, h2, ?_, rfl, rfl, rfl, rfl⟩
  · unfold Iv.Has iv1 pace1; norm_num
  · rw [t21]
    unfold Iv.Has iv1 at *
    have e : pace1.p = 0.5 + (8563436 : Nat) / 2 ^ 26 := rfl
    rw [e]
    norm_num at *
    constructor <;> linarith [h1.1, h1.2, h2.1, h2.2]

theorem fit1 : pace1.Fit 0.09 229 := by
  have h := has1
  have hu := h.u
  have hd := h.dn
  have ht := h.t2
  unfold Iv.Has iv1 at hu hd ht
  norm_num at hu hd ht
  have hr : reachDist pace1.p = pace1.p * pace1.u + (pace1.p + 0.5) * pace1.dn := rfl
  have hw : reachDist pace1.p ≤ 0.09 := by
    rw [hr, show pace1.p = 0.5 + (8563436 : Nat) / 2 ^ 26 from rfl]
    norm_num at *
    linarith [hu.2, hd.2]
  constructor
  case d0 => norm_num
  case peak =>
    refine run_peak (by norm_num) hw ?_
    unfold reachDist
    have k1 := (sqrt_has (x := (0.5 + ((8563436 : Nat) + 1) / 2 ^ 26) / 100) (lo := 79221534642400000) (hi := 100000000000000000) (by norm_num) (by norm_num) (by norm_num) (by norm_num) (by norm_num)).1
    have k2 := (sqrt_has (x := (0.5 + ((8563436 : Nat) + 1) / 2 ^ 26 - 0.5) / 100) (lo := 35721863768600000) (hi := 100000000000000000) (by norm_num) (by norm_num) (by norm_num) (by norm_num) (by norm_num)).1
    norm_num at k1 k2 ⊢
    linarith
  case p0 => unfold pace1; norm_num
  case p1 => unfold pace1; norm_num
  case way => exact hw
  case u => rfl
  case dn => rfl
  case t2 =>
    have : pace1.t2 = 2 * pace1.u + (0.09 - reachDist pace1.p) / pace1.p := rfl
    rw [this]
    have : pace1.p ≠ 0 := by unfold pace1; norm_num
    field_simp
    ring
  case n1 => rw [show pace1.n1 = 79 from rfl]; norm_num; constructor <;> linarith [hu.1, hu.2]
  case n2 => rw [show pace1.n2 = 158 from rfl]; norm_num; constructor <;> linarith [hu.1, hu.2]
  case n3 => rw [show pace1.n3 = 158 from rfl]; norm_num; constructor <;> linarith [ht.1, ht.2]
  case n4 => rw [show pace1.n4 = 194 from rfl]; norm_num; constructor <;> linarith [ht.1, ht.2, hd.1, hd.2]
  case n5 => norm_num; constructor <;> linarith [ht.1, ht.2, hd.1, hd.2]

theorem ok1 : (iv1.run (Offs.fine 3700 2000 200 50000 600) 230 0 .none).isSome = true := by decide +kernel

theorem run1 : CanFollow pace1 229 := run_of_ok has1 (by decide) (by decide) (by decide) ok1

/-! ## Two squares -/

def iv2 : IvPace := ⟨⟨919152021408081054, 919152021408081055⟩, ⟨95872416335882608, 95872416335882609⟩, ⟨64741950959797392, 64741950959797393⟩,
  ⟨191744837190165800, 191744837190165840⟩, 95, 191, 191, 256⟩

noncomputable def pace2 : Pace where
  p := 0.5 + (28128816 : Nat) / 2 ^ 26
  u := Real.sqrt ((0.5 + (28128816 : Nat) / 2 ^ 26) / 100)
  dn := Real.sqrt ((0.5 + (28128816 : Nat) / 2 ^ 26 - 0.5) / 100)
  t2 := 2 * Real.sqrt ((0.5 + (28128816 : Nat) / 2 ^ 26) / 100) + (0.18 - reachDist (0.5 + (28128816 : Nat) / 2 ^ 26)) / (0.5 + (28128816 : Nat) / 2 ^ 26)
  n1 := 95
  n2 := 191
  n3 := 191
  n4 := 256

theorem u2 : iv2.u.Has pace2.u := sqrt_has (by norm_num) (by norm_num) (by norm_num) (by norm_num) (by norm_num)
theorem dn2 : iv2.dn.Has pace2.dn := sqrt_has (by norm_num) (by norm_num) (by norm_num) (by norm_num) (by norm_num)
theorem t22 : pace2.t2 = pace2.u + 0.18 / pace2.p - (1 + 0.5 / pace2.p) * pace2.dn := by
  unfold pace2 reachDist
  dsimp only
  generalize Real.sqrt _ = a
  generalize Real.sqrt _ = b
  norm_num
  ring

theorem has2 : iv2.Has pace2 := by
  have h1 := u2
  have h2 := dn2
  refine ⟨?_, h1, h2, ?_, rfl, rfl, rfl, rfl⟩
  · unfold Iv.Has iv2 pace2; norm_num
  · rw [t22]
    unfold Iv.Has iv2 at *
    have e : pace2.p = 0.5 + (28128816 : Nat) / 2 ^ 26 := rfl
    rw [e]
    norm_num at *
    constructor <;> linarith [h1.1, h1.2, h2.1, h2.2]

theorem fit2 : pace2.Fit 0.18 321 := by
  have h := has2
  have hu := h.u
  have hd := h.dn
  have ht := h.t2
  unfold Iv.Has iv2 at hu hd ht
  norm_num at hu hd ht
  have hr : reachDist pace2.p = pace2.p * pace2.u + (pace2.p + 0.5) * pace2.dn := rfl
  have hw : reachDist pace2.p ≤ 0.18 := by
    rw [hr, show pace2.p = 0.5 + (28128816 : Nat) / 2 ^ 26 from rfl]
    norm_num at *
    linarith [hu.2, hd.2]
  constructor
  case d0 => norm_num
  case peak =>
    refine run_peak (by norm_num) hw ?_
    unfold reachDist
    have k1 := (sqrt_has (x := (0.5 + ((28128816 : Nat) + 1) / 2 ^ 26) / 100) (lo := 95872417113000000) (hi := 100000000000000000) (by norm_num) (by norm_num) (by norm_num) (by norm_num) (by norm_num)).1
    have k2 := (sqrt_has (x := (0.5 + ((28128816 : Nat) + 1) / 2 ^ 26 - 0.5) / 100) (lo := 64741952110600000) (hi := 100000000000000000) (by norm_num) (by norm_num) (by norm_num) (by norm_num) (by norm_num)).1
    norm_num at k1 k2 ⊢
    linarith
  case p0 => unfold pace2; norm_num
  case p1 => unfold pace2; norm_num
  case way => exact hw
  case u => rfl
  case dn => rfl
  case t2 =>
    have : pace2.t2 = 2 * pace2.u + (0.18 - reachDist pace2.p) / pace2.p := rfl
    rw [this]
    have : pace2.p ≠ 0 := by unfold pace2; norm_num
    field_simp
    ring
  case n1 => rw [show pace2.n1 = 95 from rfl]; norm_num; constructor <;> linarith [hu.1, hu.2]
  case n2 => rw [show pace2.n2 = 191 from rfl]; norm_num; constructor <;> linarith [hu.1, hu.2]
  case n3 => rw [show pace2.n3 = 191 from rfl]; norm_num; constructor <;> linarith [ht.1, ht.2]
  case n4 => rw [show pace2.n4 = 256 from rfl]; norm_num; constructor <;> linarith [ht.1, ht.2, hd.1, hd.2]
  case n5 => norm_num; constructor <;> linarith [ht.1, ht.2, hd.1, hd.2]

theorem ok2 : (iv2.run (Offs.fine 3700 2000 200 50000 600) 322 0 .none).isSome = true := by decide +kernel

theorem run2 : CanFollow pace2 321 := run_of_ok has2 (by decide) (by decide) (by decide) ok2

/-! ## Three squares and more -/

def iv3 : IvPace := ⟨⟨999999985098838806, 999999985098838807⟩, ⟨99999999254941937, 99999999254941938⟩, ⟨70710677064983531, 70710677064983532⟩,
  ⟨263933987153944600, 263934025200000000⟩, 99, 199, 263, 334⟩

/-- As if the robot began to slow down after three squares; `κ` is the number of squares beyond three. -/
noncomputable def pace3 (κ : Nat) : Pace where
  p := 1 - 1 / 2 ^ 26
  u := Real.sqrt ((1 - 1 / 2 ^ 26) / 100)
  dn := Real.sqrt ((1 - 1 / 2 ^ 26 - 0.5) / 100)
  t2 := 2 * Real.sqrt ((1 - 1 / 2 ^ 26) / 100) + (0.09 * (κ + 3) - reachDist (1 - 1 / 2 ^ 26)) / (1 - 1 / 2 ^ 26) - 0.09 * κ
  n1 := 99
  n2 := 199
  n3 := 263
  n4 := 334

noncomputable def paceK (κ : Nat) : Pace :=
  { pace3 κ with t2 := (pace3 κ).t2 + 0.09 * κ, n3 := 90 * κ + 263, n4 := 90 * κ + 334 }

theorem u3 (κ : Nat) : iv3.u.Has (pace3 κ).u := sqrt_has (by norm_num) (by norm_num) (by norm_num) (by norm_num) (by norm_num)
theorem dn3 (κ : Nat) : iv3.dn.Has (pace3 κ).dn := sqrt_has (by norm_num) (by norm_num) (by norm_num) (by norm_num) (by norm_num)
theorem t23 (κ : Nat) : (pace3 κ).t2 = (pace3 κ).u + 0.09 * (κ + 3) / (pace3 κ).p - (1 + 0.5 / (pace3 κ).p) * (pace3 κ).dn - 0.09 * κ := by
  unfold pace3 reachDist
  dsimp only
  generalize Real.sqrt _ = a
  generalize Real.sqrt _ = b
  norm_num
  ring

theorem has3 {κ : Nat} (hκ : κ ≤ 28) : iv3.Has (pace3 κ) := by
  have h1 := u3 κ
  have h2 := dn3 κ
  have hk : (κ : ℝ) ≤ 28 := by exact_mod_cast hκ
  have hk0 : (0 : ℝ) ≤ κ := κ.cast_nonneg
  refine ⟨?_, h1, h2, ?_, rfl, rfl, rfl, rfl⟩
  · unfold Iv.Has iv3 pace3; norm_num
  · rw [t23]
    unfold Iv.Has iv3 at *
    have e : (pace3 κ).p = 1 - 1 / 2 ^ 26 := rfl
    rw [e]
    norm_num at h1 h2 ⊢
    constructor <;> linarith [h1.1, h1.2, h2.1, h2.2]

theorem fitK {κ : Nat} (hκ : κ ≤ 28) : (paceK κ).Fit (0.09 * (κ + 3)) (90 * κ + 405) := by
  have h := has3 hκ
  have hu := h.u
  have hd := h.dn
  have ht := h.t2
  unfold Iv.Has iv3 at hu hd ht
  norm_num at hu hd ht
  have hk0 : (0 : ℝ) ≤ κ := κ.cast_nonneg
  have eu : (paceK κ).u = (pace3 κ).u := rfl
  have ed : (paceK κ).dn = (pace3 κ).dn := rfl
  have et : (paceK κ).t2 = (pace3 κ).t2 + 0.09 * κ := rfl
  have ep : (paceK κ).p = 1 - 1 / 2 ^ 26 := rfl
  have hr : reachDist (paceK κ).p = (paceK κ).p * (pace3 κ).u + ((paceK κ).p + 0.5) * (pace3 κ).dn := rfl
  have hw : reachDist (paceK κ).p ≤ 0.09 * (κ + 3) := by
    rw [hr, ep]
    norm_num
    linarith [hu.2, hd.2]
  constructor
  case d0 => norm_num; linarith
  case peak => exact run_peak_long (by norm_num; linarith)
  case p0 => rw [ep]; norm_num
  case p1 => rw [ep]; norm_num
  case way => exact hw
  case u => rfl
  case dn => rfl
  case t2 =>
    have : (paceK κ).t2 = 2 * (paceK κ).u + (0.09 * (κ + 3) - reachDist (paceK κ).p) / (paceK κ).p - 0.09 * κ + 0.09 * κ := rfl
    rw [this]
    have : (paceK κ).p ≠ 0 := by rw [ep]; norm_num
    field_simp
    ring
  case n1 => rw [show (paceK κ).n1 = 99 from rfl, eu]; norm_num; constructor <;> linarith [hu.1, hu.2]
  case n2 => rw [show (paceK κ).n2 = 199 from rfl, eu]; norm_num; constructor <;> linarith [hu.1, hu.2]
  case n3 => rw [show (paceK κ).n3 = 90 * κ + 263 from rfl, et]; push_cast; norm_num; constructor <;> linarith [ht.1, ht.2]
  case n4 => rw [show (paceK κ).n4 = 90 * κ + 334 from rfl, et, ed]; push_cast; norm_num; constructor <;> linarith [ht.1, ht.2, hd.1, hd.2]
  case n5 => rw [et, ed]; push_cast; norm_num; constructor <;> linarith [ht.1, ht.2, hd.1, hd.2]

/-- The first rounds do not depend on the length. -/
theorem early_at (κ : Nat) {n : Nat} (hn : n ≤ 263) : (paceK κ).at n = (pace3 κ).at n := by
  unfold Pace.at
  have e3 : (paceK κ).n3 = 90 * κ + 263 := rfl
  have e3' : (pace3 κ).n3 = 263 := rfl
  rw [e3, e3', if_pos (by omega : n ≤ 90 * κ + 263), if_pos hn]
  rfl

theorem early_change (κ : Nat) {n : Nat} (hn : n ≤ 263) : (paceK κ).change n = (pace3 κ).change n := by
  unfold Pace.change
  rw [early_at κ hn, early_at κ (by omega)]

theorem early_off (κ : Nat) : ∀ {n : Nat}, n ≤ 264 → (paceK κ).off 0 .none n = (pace3 κ).off 0 .none n
  | 0, _ => rfl
  | n + 1, hn => by
    unfold Pace.off
    rw [early_off κ (by omega), early_change κ (by omega)]

theorem mid_change (κ : Nat) {n : Nat} (h1 : 201 ≤ n) (h2 : n ≤ 90 * κ + 263) : (paceK κ).change n = .steady (paceK κ).p := by
  have hc : ((n - 1 : Nat) : ℝ) = n - 1 := by rw [Nat.cast_sub (by omega)]; simp
  unfold Pace.change Pace.at
  have e1 : (paceK κ).n1 = 99 := rfl
  have e2 : (paceK κ).n2 = 199 := rfl
  have e3 : (paceK κ).n3 = 90 * κ + 263 := rfl
  rw [e1, e2, e3, if_neg (by omega), if_neg (by omega), if_pos h2, if_neg (by omega), if_neg (by omega), if_pos (by omega)]
  unfold Change.steady
  simp only [Change.mk.injEq, true_and, hc]
  exact ⟨by ring, by ring⟩

/-- The last rounds depend on the length only by the place. -/
theorem late_at (κ : Nat) {m : Nat} (hm : 263 ≤ m) : (paceK κ).at (90 * κ + m) =
    (((pace3 κ).at m).1 + (pace3 κ).p * (0.09 * κ), ((pace3 κ).at m).2.1, ((pace3 κ).at m).2.2) := by
  unfold Pace.at
  have e1 : (paceK κ).n1 = 99 := rfl
  have e2 : (paceK κ).n2 = 199 := rfl
  have e3 : (paceK κ).n3 = 90 * κ + 263 := rfl
  have e4 : (paceK κ).n4 = 90 * κ + 334 := rfl
  have e1' : (pace3 κ).n1 = 99 := rfl
  have e2' : (pace3 κ).n2 = 199 := rfl
  have e3' : (pace3 κ).n3 = 263 := rfl
  have e4' : (pace3 κ).n4 = 334 := rfl
  have eu : (paceK κ).u = (pace3 κ).u := rfl
  have ed : (paceK κ).dn = (pace3 κ).dn := rfl
  have et : (paceK κ).t2 = (pace3 κ).t2 + 0.09 * κ := rfl
  have ep : (paceK κ).p = (pace3 κ).p := rfl
  rw [e1, e2, e3, e4, e1', e2', e3', e4', eu, ed, et, ep, if_neg (by omega), if_neg (by omega), if_neg (by omega : ¬ m ≤ 99), if_neg (by omega : ¬ m ≤ 199)]
  by_cases c3 : m ≤ 263
  · rw [if_pos (by omega), if_pos c3]
    simp only [Prod.mk.injEq, and_true]
    push_cast
    norm_num
    ring
  rw [if_neg (by omega), if_neg c3]
  by_cases c4 : m ≤ 334
  · rw [if_pos (by omega), if_pos c4]
    simp only [Prod.mk.injEq]
    push_cast
    refine ⟨?_, ?_, ?_⟩ <;> (norm_num; ring)
  · rw [if_neg (by omega), if_neg c4]
    simp only [Prod.mk.injEq]
    push_cast
    refine ⟨?_, ?_, ?_⟩ <;> (norm_num; ring)

theorem late_change (κ : Nat) {m : Nat} (hm : 264 ≤ m) : (paceK κ).change (90 * κ + m) = (pace3 κ).change m := by
  unfold Pace.change
  rw [show 90 * κ + m - 1 = 90 * κ + (m - 1) by omega, late_at κ (by omega), late_at κ (by omega)]
  simp only [Change.mk.injEq, true_and]
  ring

def ok3 : Bool := match iv3.run (Offs.fine 3700 2000 200 50000 600) 264 0 .none with
  | none => false
  | some o => decide (o.size.hi ≤ 2618200000000)

theorem ok3_true : ok3 = true := by decide +kernel
theorem ok3_late : (iv3.run (Offs.fine 3400 360 350 40000 50) 142 264 .none).isSome = true := by decide +kernel

theorem early3 {κ : Nat} (hκ : κ ≤ 28) : (∀ n, n < 264 → RunRound 3.7 0.002 0.2 50 0.6 ((pace3 κ).off 0 .none n) (decide (64 ≤ n)) ((pace3 κ).change n)) ∧
    ((pace3 κ).off 0 .none 264).size ≤ 2.6182e-6 := by
  have h := ok3_true
  unfold ok3 at h
  split at h
  · cases h
  · rename_i o ho
    obtain ⟨k1, k2⟩ := pace_run (has3 hκ) (by decide) (by decide) (by decide) (i0 := 0) (o0 := .none) _ 0 _ _ ho has_none
    refine ⟨fun n hn => ?_, ?_⟩
    · have := k2 n (Nat.zero_le _) (by omega)
      rw [zero_add] at this
      norm_num at this ⊢
      exact this
    · rw [zero_add] at k1
      have h1 := (has_size k1).2
      have h2 : ((o.size.hi : Int) : ℝ) ≤ 2618200000000 := by exact_mod_cast of_decide_eq_true h
      norm_num
      linarith

theorem late3 {κ : Nat} (hκ : κ ≤ 28) {m : Nat} (hm : m < 142) :
    RunRound 3.4 0.00036 0.35 40 0.05 ((pace3 κ).off 264 .none m) true ((pace3 κ).change (264 + m)) := by
  obtain ⟨b', hb⟩ := Option.isSome_iff_exists.1 ok3_late
  obtain ⟨-, k⟩ := pace_run (has3 hκ) (by decide) (by decide) (by decide) (i0 := 264) (o0 := .none) 142 0 _ b' hb has_none
  have := k m (Nat.zero_le _) (by omega)
  rw [decide_eq_true (by omega)] at this
  norm_num at this ⊢
  exact this

theorem runK {κ : Nat} (hκ : κ ≤ 28) : CanFollow (paceK κ) (90 * κ + 405) := by
  obtain ⟨h1, h2⟩ := early3 hκ
  have ep : (paceK κ).p = 1 - 1 / 2 ^ 26 := rfl
  have mid : ∀ i, i ≤ 90 * κ → ((paceK κ).off 0 .none (264 + i)).size ≤ 2.6182e-6 := by
    intro i
    induction i with
    | zero => intro _; rw [add_zero, early_off κ le_rfl]; exact h2
    | succ i ih =>
      intro hi
      have ih := ih (by omega)
      rw [← add_assoc, Pace.off, zero_add, decide_eq_true (by omega), mid_change κ (by omega) (by omega)]
      refine (size_steady _ _).trans ?_
      have := size_nonneg ((paceK κ).off 0 .none (264 + i))
      norm_num at ih ⊢
      linarith
  have late : ∀ m, ∃ a : Off, (paceK κ).off 0 .none (90 * κ + (264 + m)) = a.plus ((pace3 κ).off 264 .none m) ∧ a.size ≤ 2.6182e-6 := by
    intro m
    induction m with
    | zero =>
      refine ⟨(paceK κ).off 0 .none (90 * κ + 264), ?_, ?_⟩
      · have : ∀ a : Off, a = a.plus .none := fun a => by simp [Off.plus, Off.none]
        exact this _
      · have := mid (90 * κ) le_rfl
        rwa [add_comm] at this
    | succ m ih =>
      obtain ⟨a, e, ha⟩ := ih
      refine ⟨a.next true (.steady ((pace3 κ).change (264 + m)).v), ?_, ?_⟩
      · rw [show 90 * κ + (264 + (m + 1)) = 90 * κ + (264 + m) + 1 by omega, Pace.off, Pace.off, zero_add, e, late_change κ (by omega), decide_eq_true (by omega),
          decide_eq_true (by omega), plus_next]
      · refine (size_steady _ _).trans ?_
        have := size_nonneg a
        norm_num at ha ⊢
        linarith
  intro n hn
  by_cases c1 : n < 264
  · rw [early_off κ (by omega), early_change κ (by omega)]
    exact h1 n c1
  by_cases c2 : n < 90 * κ + 264
  · obtain ⟨i, rfl⟩ : ∃ i, n = 264 + i := ⟨n - 264, by omega⟩
    rw [mid_change κ (by omega) (by omega), decide_eq_true (by omega)]
    exact steady_round (mid i (by omega)) (by rw [ep]; norm_num) (by rw [ep]; norm_num)
  · obtain ⟨m, rfl⟩ : ∃ m, n = 90 * κ + (264 + m) := ⟨n - (90 * κ + 264), by omega⟩
    obtain ⟨a, e, ha⟩ := late m
    rw [e, late_change κ (by omega), decide_eq_true (by omega)]
    exact plus_round ha (late3 hκ (by omega))

theorem run_all {k : Nat} (h0 : 0 < k) (h1 : k ≤ 31) : ∃ P N, P.Fit (k * 0.09) N ∧ N + 1 = straightRounds k ∧ CanFollow P N ∧
    (P.n1 ≤ P.n2 ∧ P.n2 ≤ P.n3 ∧ P.n3 ≤ P.n4) ∧ P.n4 < N := by
  unfold straightRounds
  by_cases c1 : k = 1
  · subst c1
    exact ⟨pace1, 229, by simpa using fit1, rfl, run1, ⟨by show (79 : Nat) ≤ 158; decide, by show (158 : Nat) ≤ 158; decide, by show (158 : Nat) ≤ 194; decide⟩, by show (194 : Nat) < 229; decide⟩
  by_cases c2 : k = 2
  · subst c2
    exact ⟨pace2, 321, by have := fit2; norm_num at this ⊢; exact this, rfl, run2, ⟨by show (95 : Nat) ≤ 191; decide, by show (191 : Nat) ≤ 191; decide, by show (191 : Nat) ≤ 256; decide⟩, by show (256 : Nat) < 321; decide⟩
  · obtain ⟨κ, rfl⟩ : ∃ κ, k = κ + 3 := ⟨k - 3, by omega⟩
    rw [if_neg c1, if_neg c2]
    refine ⟨paceK κ, 90 * κ + 405, ?_, by omega, runK (by omega), ⟨by show (99 : Nat) ≤ 199; decide, by show 199 ≤ 90 * κ + 263; omega, by show 90 * κ + 263 ≤ 90 * κ + 334; omega⟩,
      by show 90 * κ + 334 < 90 * κ + 405; omega⟩
    have := fitK (κ := κ) (by omega)
    rwa [show ((κ + 3 : Nat) : ℝ) * 0.09 = 0.09 * (κ + 3) by push_cast; ring]

end Verif.Props
