import Verif.Proof.Rise
import Verif.Proof.SingleHunt
import Verif.Props.Driver
/-!
# Single moves of the fast run in single precision
-/
namespace Verif.Proof
open Verif Verif.Single Verif.Spec Verif.Binary32 Verif.Props

variable {exp : F → F} {L : Lib} {V a j p s w ℓ : ℝ} {W : Nat} {c : Dash} {g : Gen}

theorem rnd_same {z : ℝ} (hz : round24 z = z) (hb : |z| ≤ 2 ^ 100) : rnd z = .fin z := by
  obtain ⟨x, e, -⟩ := rnd_err hb
  rw [e, (rnd_fin e).1, hz]

/-- A trajectory starts where it is told to, with the speed it is told to. -/
theorem accel_start (hL : Rooted L) (G : Fit V a j g) {x y D : ℝ} (hx : Pace V x) (hy : Pace V y) (short : V / 2 ^ 14 ≤ D) :
    ((g.generate (arith exp) L (.fin 0) (.fin D) (.fin x) (.fin y)).1.calculate (arith exp) (.fin 0)).x = .fin 0 ∧
      ((g.generate (arith exp) L (.fin 0) (.fin D) (.fin x) (.fin y)).1.calculate (arith exp) (.fin 0)).v = .fin x := by
  obtain ⟨v1, v2⟩ := G.vel
  norm_num at v1 v2
  have D0 : 0 ≤ D := le_trans (by positivity) short
  obtain ⟨m, em, hm, -⟩ := aim_ok (exp := exp) (L := L) G hx hy (.fin D)
  obtain ⟨r, er, hr, -⟩ := peak_ok (exp := exp) hL G hx hm short
  have K := acc_ok (exp := exp) hL G (X := 0) (xs := .fin 0) (x := x) (y := r) ⟨0, rfl, by norm_num⟩ (by norm_num) ⟨hx.low, hx.high⟩ ⟨hr.low, hr.high⟩
  have xs : (g.acceleration (arith exp) L (.fin 0) (.fin x) (.fin r)).1.xStart = .fin 0 := by
    unfold Gen.acceleration
    dsimp only
  have vs := K.vStart
  obtain ⟨J, eJ, -⟩ := K.jM
  obtain ⟨t1, -, t3, et1, -, -, eT, t10, -, -, -, t30, -⟩ := K.times
  have z : rnd 0 = .fin 0 := rnd_zero
  have xb : |x| ≤ 2 ^ 100 := by
    rw [abs_of_nonneg hx.low]
    have : (256:ℝ) ≤ 2 ^ 100 := by norm_num
    linarith [hx.high]
  have fx := rnd_same hx.f32 xb
  have mul0 : ∀ r : ℝ, (arith exp).mul (.fin r) (.fin 0) = .fin 0 := fun r => by
    show rnd (r * 0) = _
    rw [mul_zero, z]
  have zmul : ∀ r : ℝ, (arith exp).mul (.fin 0) (.fin r) = .fin 0 := fun r => by
    show rnd (0 * r) = _
    rw [zero_mul, z]
  have div0 : ∀ r : ℝ, r ≠ 0 → (arith exp).div (.fin 0) (.fin r) = .fin 0 := fun r hr => by
    rw [div_rnd hr, zero_div, z]
  have add0 : (arith exp).add (.fin 0) (.fin 0) = .fin 0 := by
    show rnd (0 + 0) = _
    rw [add_zero, z]
  have calc0 : ((g.acceleration (arith exp) L (.fin 0) (.fin x) (.fin r)).1.calculate (arith exp) (.fin 0)).x = .fin 0 ∧
      ((g.acceleration (arith exp) L (.fin 0) (.fin x) (.fin r)).1.calculate (arith exp) (.fin 0)).v = .fin x := by
    unfold AccCalc.calculate
    rw [if_neg (show ¬ (F.fin 0).lt (.fin 0) from lt_irrefl (0:ℝ)), et1, if_pos (show (F.fin 0).le (.fin t1) from t10), vs, xs, eJ]
    dsimp only
    rw [mul0, mul0, mul0, mul0, div0 _ (by norm_num), div0 _ (by norm_num), add0, add0]
    refine ⟨rfl, ?_⟩
    show rnd (x + 0) = _
    rw [add_zero, fx]
  unfold Gen.generate
  dsimp only
  rw [if_neg (show ¬ (F.fin D).lt (.fin 0) from not_lt.2 D0)]
  dsimp only
  rw [em, er]
  unfold Overall.calculate Overall.unsigned
  dsimp only
  rw [if_neg (show ¬ (F.fin 0).lt (.fin 0) from lt_irrefl (0:ℝ)), eT, if_pos (show (F.fin 0).le (.fin t3) from t30), calc0.1, calc0.2]
  constructor
  · show (arith exp).add ((arith exp).mul (rnd (0 + -0)) _) _ = _
    rw [neg_zero, add_zero, z, zmul, add0]
  · show rnd (x * 1) = _
    rw [mul_one, fx]

/-- A first target in the origin is shifted to the pose. -/
theorem shift_first (hU : Circular L) {t : Target} {x y θ : ℝ} (hx : round24 x = x) (hy : round24 y = y) (hθ : round24 θ = θ)
    (bx : |x| ≤ 1000) (by' : |y| ≤ 1000) (bθ : |θ| ≤ 1000) (tx : t.x.x = .fin 0) (ty : t.y.x = .fin 0) (tθ : t.theta.x = .fin 0) :
    (shift (arith exp) L (.fin x) (.fin y) (.fin θ) t).x.x = .fin x ∧ (shift (arith exp) L (.fin x) (.fin y) (.fin θ) t).y.x = .fin y ∧
      (shift (arith exp) L (.fin x) (.fin y) (.fin θ) t).theta.x = .fin θ := by
  obtain ⟨σ, eσ, -⟩ := hU.sin θ
  obtain ⟨κ, eκ, -⟩ := hU.cos θ
  have big : (1000:ℝ) ≤ 2 ^ 100 := by norm_num
  have z : rnd 0 = .fin 0 := rnd_zero
  have zmul : ∀ r : ℝ, (arith exp).mul (.fin 0) (.fin r) = .fin 0 := fun r => by
    show rnd (0 * r) = _
    rw [zero_mul, z]
  have sub0 : (arith exp).sub (.fin 0) (.fin 0) = .fin 0 := by
    show rnd (0 + -0) = _
    rw [neg_zero, add_zero, z]
  have add0 : (arith exp).add (.fin 0) (.fin 0) = .fin 0 := by
    show rnd (0 + 0) = _
    rw [add_zero, z]
  have addf : ∀ r : ℝ, round24 r = r → |r| ≤ 1000 → (arith exp).add (.fin 0) (.fin r) = .fin r := fun r h b => by
    show rnd (0 + r) = _
    rw [zero_add, rnd_same h (b.trans big)]
  unfold shift
  dsimp only
  rw [tx, ty, tθ, eσ, eκ, zmul, zmul, sub0, add0, addf x hx bx, addf y hy by', addf θ hθ bθ]
  exact ⟨rfl, rfl, rfl⟩

/-! ## Straights and slaloms -/

theorem rises_mono {D D' η : ℝ} (R : Rises a j D η) (h : D ≤ D') : Rises a j D' η := ⟨R.gentle.trans h, fun k => (R.full k).trans h⟩

theorem dash_low (H : Dashes V a j p s w ℓ W c) : 1 / 2 ^ 6 ≤ V := by
  have h1 := H.pace.high
  have h2 := H.low
  have h3 := H.least
  norm_num at h3 ⊢
  linarith

/-- From rest, a straight of 14 % of a square ends at least as fast as the settings promise. -/
theorem dash_rise (hL : Rooted L) (H : Dashes V a j p s w ℓ W c) {D u : ℝ} (hD : 0.14 * s ≤ D)
    (hu : (c.gen.stretch (arith exp) L (.fin p) (.fin D) (.fin 0) (.fin w)).2 = .fin u) : ℓ ≤ u := by
  have h2 := H.low
  have h3 := H.least
  have s0 := H.w0
  obtain ⟨v1, v2⟩ := H.gen.fit.vel
  have v5 := H.gen.vel
  norm_num at h3 v1 s0
  have hV : 0 ≤ V / 2 ^ 20 := by positivity
  obtain ⟨u', eu', b⟩ := rise_end (exp := exp) hL H.gen.fit (rises_mono H.rise hD) (by norm_num at hV ⊢; linarith) H.top H.pace (by linarith)
    (by norm_num at hD ⊢; linarith)
  have e : (c.gen.stretch (arith exp) L (.fin p) (.fin D) (.fin 0) (.fin w)).2 =
      (c.gen.generate (arith exp) L (.fin 0) (.fin D) (.fin 0) (.fin w)).2.2 := rfl
  rw [e, eu'] at hu
  injection hu with hu
  subst hu
  rw [add_sub_cancel_right, min_eq_right h2] at b
  exact b

/-- The trajectories of moves in a maze of width `W`. -/
def RoamKind (W : Nat) : Run.TrajectoryKind → Prop
  | .straight n => n ≤ W
  | .straightDiagonal n => n ≤ 2 * W
  | .slalom _ _ => True

theorem stint_straight (A : Arith) (L : Lib) (n : Nat) : ∀ s, outputs (Stint.next A L) n (.straight s) = outputs (Stretch.next A) n s := by
  induction n with
  | zero => intro s; rfl
  | succ n ih => intro s; exact congrArg₂ List.cons rfl (ih _)

theorem stint_slalom (A : Arith) (L : Lib) (q : Outline) (n : Nat) : ∀ s, outputs (Stint.next A L) n (.slalom q s) = outputs (q.next A L) n s := by
  induction n with
  | zero => intro s; rfl
  | succ n ih => intro s; exact congrArg₂ List.cons rfl (ih _)

/-- The first target is in the origin, and all are of moderate size. -/
structure SoundStint (l : List Target) : Prop where
  first : ∃ t, l.head? = some t ∧ t.x.x = .fin 0 ∧ t.y.x = .fin 0 ∧ t.theta.x = .fin 0
  tame : ∀ t ∈ l, Tame t

theorem stretch_head (hL : Rooted L) (G : Fit V a j g) {x y D : ℝ} (hx : Pace V x) (hy : Pace V y) (short : V / 2 ^ 14 ≤ D) (long : D ≤ 10) {pp : F} :
    ∃ t, (Stretch.next (arith exp) (g.stretch (arith exp) L pp (.fin D) (.fin x) (.fin y)).1).1 = some t ∧ t.x.x = .fin 0 ∧ t.y.x = .fin 0 ∧ t.theta.x = .fin 0 := by
  have h := accel_first (exp := exp) hL G hx hy short long pp
  have k := (accel_start (exp := exp) hL G hx hy short).1
  unfold Gen.stretch Stretch.next Clock.next Clock.new at h ⊢
  dsimp only at h ⊢
  split_ifs at h ⊢ with hh
  · exact absurd rfl h
  · exact ⟨_, rfl, k, rfl, rfl⟩

theorem produces_head {σ α : Type} {next : σ → Option α × σ} {s : σ} {l : List α} (h : Produces next s l) {x : α} (hs : (next s).1 = some x) : l.head? = some x := by
  cases l with
  | nil => rw [produces_nil h] at hs; cases hs
  | cons y l => rw [(produces_cons h).1] at hs; exact hs

theorem chain_head {σ τ α : Type} {m : σ → Option α × σ} {n : τ → Option α × τ} {a : σ} {x : α} (h : (m a).1 = some x) (b : τ) :
    (Slalom.chainNext m n (some a, b)).1 = some x := by
  unfold Slalom.chainNext
  dsimp only
  rcases e : m a with ⟨y, a'⟩
  rw [e] at h
  cases h
  rfl

/-- A straight of the fast run. -/
theorem dash_straight (hL : Rooted L) (H : Dashes V a j p s w ℓ W c) {D x y b : ℝ} (hD : 0.14 * s ≤ D) (hD' : D ≤ 10) (hx : Pace V x) (hy : Pace V y) (xw : x ≤ w)
    (yw : y ≤ w) (b0 : 0 ≤ b) (hb : b ≤ x ∨ x = 0 ∧ y = w ∧ b = ℓ) :
    ∃ u l, (c.gen.stretch (arith exp) L (.fin p) (.fin D) (.fin x) (.fin y)).2 = .fin u ∧ Pace V u ∧ u ≤ w ∧ min b y ≤ u ∧
      Produces (Stretch.next (arith exp)) (c.gen.stretch (arith exp) L (.fin p) (.fin D) (.fin x) (.fin y)).1 l ∧ SoundStint l ∧ Aligned l := by
  have s0 := H.w0
  have v5 := H.gen.vel
  have short : V / 2 ^ 14 ≤ D := by norm_num at s0 hD ⊢; linarith
  obtain ⟨u, eu, hu, u1, u2, l, p1, h1⟩ := stretch_ok (exp := exp) hL H.gen (dash_low H) H.brief hx hy short hD'
  refine ⟨u, l, eu, hu, u2.trans (max_le xw yw), ?_, p1, ⟨?_, along_tame h1⟩, h1⟩
  · rcases hb with hb | ⟨rfl, rfl, rfl⟩
    · exact (min_le_min_right y hb).trans u1
    · exact min_le_of_left_le (dash_rise hL H hD eu)
  · obtain ⟨t, e, h⟩ := stretch_head (exp := exp) hL H.gen.fit hx hy short hD'
    exact ⟨t, produces_head p1 e, h⟩

theorem reference_high {s : ℝ} (s0 : 0 ≤ s) (kind : Run.SlalomKind) (d : Run.SlalomDirection) (hk : kind ≠ .search90) :
    3.2 * s ≤ (Slalom.parameters s 0 kind d).vRef ∧ (Slalom.parameters s 0 kind d).vRef ≤ 4.7 * s := by
  cases kind <;> first | exact absurd rfl hk | (cases d <;> simp only [Slalom.parameters, Slalom.createParams] <;> constructor <;> linarith)

/-- A slalom of the fast run. -/
theorem dash_slalom (hU : Circular L) (hL : Rooted L) (H : Dashes V a j p s w ℓ W c) (w5 : s ≤ 5) {kind : Run.SlalomKind} {d : Run.SlalomDirection}
    (hk : kind ≠ .search90) {x m y b : ℝ} (hx : Pace V x) (hm : Pace V m) (hy : Pace V y) (xw : x ≤ w) (mw : m ≤ w)
    (yw : y ≤ w) (b0 : 0.32 * ℓ ≤ b) (bm : b ≤ m) (hb : b ≤ x ∨ x = 0 ∧ m = w ∧ b = ℓ) :
    ∃ u l, ((outline (arith exp) (.fin s) (.fin 0) kind d).slalomWithTerminal (arith exp) L c.gen (.fin p) (.fin x) (.fin m) (.fin y)).2 = .fin u ∧
      Pace V u ∧ u ≤ w ∧ min b y ≤ u ∧ Produces ((outline (arith exp) (.fin s) (.fin 0) kind d).next (arith exp) L)
        ((outline (arith exp) (.fin s) (.fin 0) kind d).slalomWithTerminal (arith exp) L c.gen (.fin p) (.fin x) (.fin m) (.fin y)).1 l ∧ SoundStint l := by
  have s0 := H.w0
  obtain ⟨vRef, Q, hv, hl⟩ := C125_parameters (exp := exp) s0 w5 le_rfl (by norm_num) kind d
  obtain ⟨⟨r1, er1, sr1⟩, ⟨r2, er2, sr2⟩⟩ := hl hk
  obtain ⟨r1', er1', -, lr1⟩ := Q.lStart
  obtain ⟨r2', er2', -, lr2⟩ := Q.lEnd
  obtain rfl : r1 = r1' := by rw [er1] at er1'; injection er1'
  obtain rfl : r2 = r2' := by rw [er2] at er2'; injection er2'
  obtain ⟨θ, eθ, θ1, θ2⟩ := Q.theta
  norm_num at s0
  obtain ⟨f1, f2⟩ := reference_high (by linarith : 0 ≤ s) kind d hk
  obtain ⟨v1, v2⟩ := abs_le.1 hv
  have hs := H.slow
  have hf := H.fast
  have hh := H.high
  have hle := H.least
  have b00 : 0 ≤ b := by norm_num at hle; linarith
  generalize outline (arith exp) (.fin s) (.fin 0) kind d = q at *
  obtain ⟨u, l1, eu, hu, uw, ub, p1, h1, a1⟩ := dash_straight (exp := exp) hL H sr1 lr1 hx hm xw mw b00 hb
  rw [min_eq_left bm] at ub
  obtain ⟨u', l3, eu', hu', uw', ub', p3, -, a3⟩ := dash_straight (exp := exp) hL H sr2 lr2 hu hy uw yw b00 (.inl ub)
  have Su : Suitable vRef u := ⟨by linarith, by norm_num at hle ⊢; linarith, uw.trans hh, by linarith, by linarith⟩
  obtain ⟨l2, p2, h2⟩ := C125_bend (exp := exp) hU hL Q Su H.brief
  have e : q.slalomWithTerminal (arith exp) L c.gen (.fin p) (.fin x) (.fin m) (.fin y) =
      ((some (some (c.gen.stretch (arith exp) L (.fin p) (.fin r1) (.fin x) (.fin m)).1, q.bend (arith exp) L (.fin p) (.fin u)),
        (c.gen.stretch (arith exp) L (.fin p) (.fin r2) (.fin u) (.fin y)).1), .fin u') := by
    unfold Outline.slalomWithTerminal
    dsimp only
    rw [er1, er2, eu, eu']
  rw [e]
  obtain ⟨t, et, h⟩ := h1.first
  refine ⟨u', _, rfl, hu', uw', ub', produces_chain (shifted_produces p3) _ _ (produces_chain p2 _ _ p1), ⟨⟨t, ?_, h⟩, ?_⟩⟩
  · cases l1 with
    | nil => cases et
    | cons z l1 => exact et
  · intro t ht
    rcases List.mem_append.1 ht with ht | ht
    · rcases List.mem_append.1 ht with ht | ht
      · exact along_tame a1 t ht
      · exact h2.tame t ht
    · rw [eθ] at ht
      exact along_shift hU a3 Q.xCurveEnd Q.yCurveEnd θ2 t ht

/-- A move of the fast run. -/
theorem dash_stint (hU : Circular L) (hL : Rooted L) (H : Dashes V a j p s w ℓ W c) (w5 : s ≤ 5) {t : Run.TrajectoryKind} (ht : FastKind t) (hr : RoamKind W t)
    {x m y b : ℝ} (hx : Pace V x) (hm : Pace V m) (hy : Pace V y) (xw : x ≤ w) (mw : m ≤ w)
    (yw : y ≤ w) (b0 : 0.32 * ℓ ≤ b) (bm : b ≤ m) (hb : b ≤ x ∨ x = 0 ∧ m = w ∧ y = w ∧ b = ℓ) :
    ∃ u l, (c.stint (arith exp) L t (.fin x, .fin m, .fin y)).2 = .fin u ∧ Pace V u ∧ u ≤ w ∧ min b y ≤ u ∧
      Produces (Stint.next (arith exp) L) (c.stint (arith exp) L t (.fin x, .fin m, .fin y)).1 l ∧ SoundStint l := by
  have s0 := H.w0
  have hle := H.least
  norm_num at s0 hle
  have b00 : 0 ≤ b := by linarith
  have b100 : (1000:ℝ) ≤ 2 ^ 100 := by norm_num
  have hz := H.maze
  have n40 : (1:ℝ) / 10 ^ 40 ≤ 1 / 10 ^ 6 := by norm_num
  cases t with
  | straight n =>
    have hn : (1:ℝ) ≤ n := by exact_mod_cast ht
    have hn' : (n:ℝ) ≤ W := by exact_mod_cast hr
    have k1 : s ≤ n * s := le_mul_of_one_le_left (by linarith) hn
    have k2 : n * s ≤ 7 := (mul_le_mul_of_nonneg_right hn' (by linarith)).trans hz
    obtain ⟨D, eD, D0, bD⟩ := rnd_rel0 (z := n * s) (by linarith) (by linarith)
    obtain ⟨D1, D2⟩ := abs_le.1 bD
    norm_num at D1 D2 n40
    obtain ⟨u, l, eu, hu, uw, ub, p1, h1, -⟩ := dash_straight (exp := exp) (D := D) hL H (by linarith) (by linarith) hx hy xw yw b00
      (hb.imp_right fun h => ⟨h.1, h.2.2.1, h.2.2.2⟩)
    have e : c.stint (arith exp) L (.straight n) (.fin x, .fin m, .fin y) =
        (.straight (c.gen.stretch (arith exp) L (.fin p) (.fin D) (.fin x) (.fin y)).1, .fin u) := by
      unfold Dash.stint
      dsimp only
      rw [H.width, H.period, show (arith exp).mul (.fin (n : ℝ)) (.fin s) = .fin D from eD, eu]
    rw [e]
    exact ⟨u, l, rfl, hu, uw, ub, fun k => (stint_straight _ _ k _).trans (p1 k), h1⟩
  | straightDiagonal n =>
    have hn : (1:ℝ) ≤ n := by exact_mod_cast ht
    have hn' : (n:ℝ) ≤ 2 * W := by exact_mod_cast hr
    have k1 : s ≤ n * s := le_mul_of_one_le_left (by linarith) hn
    have k2 : n * s ≤ 14 := by
      have := mul_le_mul_of_nonneg_right hn' (show 0 ≤ s by linarith)
      linarith
    obtain ⟨q1, q2⟩ : 1.4142 ≤ √(2:ℝ) ∧ √(2:ℝ) ≤ 1.4143 :=
      ⟨Real.le_sqrt_of_sq_le (by norm_num), by rw [Real.sqrt_le_left (by norm_num)]; norm_num⟩
    obtain ⟨ρ, eρ, ρ0, bρ⟩ := rnd_rel0 (z := √2) (by positivity) (by linarith)
    obtain ⟨ρ1, ρ2⟩ := abs_le.1 bρ
    obtain ⟨D, eD, D0, bD⟩ := rnd_rel0 (z := n * s) (by linarith) (by linarith)
    obtain ⟨D1, D2⟩ := abs_le.1 bD
    norm_num at D1 D2 ρ1 ρ2 n40 q1 q2
    have ρp : 1.414 ≤ ρ := by linarith
    have ρh : ρ ≤ 1.415 := by linarith
    norm_num at ρp ρh
    have k3 : D / ρ ≤ 9.91 := by rw [div_le_iff₀ (by linarith)]; linarith
    have k4 : 0.5 * s ≤ D / ρ := by
      rw [le_div_iff₀ (by linarith)]
      have := mul_le_mul_of_nonneg_left ρh (show 0 ≤ 0.5 * s by linarith)
      linarith
    obtain ⟨E, eE, E0, bE⟩ := rnd_rel0 (z := D / ρ) (by linarith) (by linarith)
    obtain ⟨E1, E2⟩ := abs_le.1 bE
    norm_num at E1 E2
    obtain ⟨u, l, eu, hu, uw, ub, p1, h1, -⟩ := dash_straight (exp := exp) (D := E) hL H (by linarith) (by linarith) hx hy xw yw b00
      (hb.imp_right fun h => ⟨h.1, h.2.2.1, h.2.2.2⟩)
    have e : c.stint (arith exp) L (.straightDiagonal n) (.fin x, .fin m, .fin y) =
        (.straight (c.gen.stretch (arith exp) L (.fin p) (.fin E) (.fin x) (.fin y)).1, .fin u) := by
      unfold Dash.stint
      dsimp only
      rw [H.width, H.period, show (arith exp).mul (.fin (n : ℝ)) (.fin s) = .fin D from eD, show (arith exp).rnd (√2) = .fin ρ from eρ, div_rnd (by linarith : ρ ≠ 0), eE, eu]
    rw [e]
    exact ⟨u, l, rfl, hu, uw, ub, fun k => (stint_straight _ _ k _).trans (p1 k), h1⟩
  | slalom kind d =>
    obtain ⟨u, l, eu, hu, uw, ub, p1, h1⟩ := dash_slalom (exp := exp) (d := d) hU hL H w5 ht hx hm hy xw mw yw b0 bm (hb.imp_right fun h => ⟨h.1, h.2.1, h.2.2.2⟩)
    have e : c.stint (arith exp) L (.slalom kind d) (.fin x, .fin m, .fin y) =
        (.slalom (outline (arith exp) (.fin s) (.fin 0) kind d)
          ((outline (arith exp) (.fin s) (.fin 0) kind d).slalomWithTerminal (arith exp) L c.gen (.fin p) (.fin x) (.fin m) (.fin y)).1, .fin u) := by
      unfold Dash.stint
      dsimp only
      rw [H.width, H.period, eu]
    rw [e]
    exact ⟨u, l, rfl, hu, uw, ub, fun k => (stint_slalom _ _ _ k _).trans (p1 k), h1⟩

end Verif.Proof
