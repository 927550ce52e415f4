import Verif.Proof.Journey
import Verif.Props.Straight
/-!
# C124: straight and spin trajectories in single precision
-/
namespace Verif.Props
open Verif Verif.Spec Verif.Proof Verif.Binary32 Verif.Single

variable {exp : F → F} {L : Lib} {v a j : ℝ} {g : Gen}

/-! ## What is handed out -/

theorem straight_outputs (A : Arith) (c : Overall) (n : ℕ) : ∀ k : Clock, outputs (Journey.straight A) n ⟨c, k⟩ =
    (outputs (Clock.next A) n k).map (Option.map fun t => ⟨c.calculate A t, .zero, .zero⟩) := by
  induction n with
  | zero => intro k; rfl
  | succ n ih =>
    intro k
    rw [outputs, outputs, List.map_cons]
    exact congrArg₂ List.cons rfl (ih _)

theorem spin_outputs (A : Arith) (c : Overall) (n : ℕ) : ∀ k : Clock, outputs (Journey.spin A) n ⟨c, k⟩ =
    (outputs (Clock.next A) n k).map (Option.map fun t => ⟨.zero, .zero, c.calculate A t⟩) := by
  induction n with
  | zero => intro k; rfl
  | succ n ih =>
    intro k
    rw [outputs, outputs, List.map_cons]
    exact congrArg₂ List.cons rfl (ih _)

/-- C124: in single precision a request of a moderate length gives a trajectory with a finite duration, of at most five times the time at
full speed and 90 s; it hands out finitely many targets, all of them finite and of the size of the request, and then nothing; and the
velocity it says it ends with is between the first and the requested one. -/
theorem C124_ends (hL : Rooted L) (G : Fit v a j g) {x y D p : ℝ} (hx : Pace v x) (hy : Pace v y) (short : v / 2 ^ 14 ≤ |D|) (long : |D| ≤ 2 ^ 30)
    (hp : IsPeriod p) (hlong : 5 * |D| / v + 90 < (2 ^ 24 - 1) * p) :
    ∃ s : Journey × F, g.journey (arith exp) L (.fin p) (.fin D) (.fin x) (.fin y) = s ∧
      (∃ T : ℝ, s.1.clock.tEnd = .fin T ∧ 0 ≤ T ∧ T ≤ 5 * |D| / v + 90) ∧ (∃ u : ℝ, s.2 = .fin u ∧ Pace v u ∧ min x y ≤ u ∧ u ≤ max x y) ∧
      (∀ t : ℝ, BdAxis (1.3 * |D| + 20 * v + 4) (2.8 * v + 0.3) (1.5 * a + 15) (1.1 * j + 1) (s.1.calculator.calculate (arith exp) (.fin t))) ∧
      ∃ N, HandsOut (arith exp) (Journey.straight (arith exp)) s.1 (.fin p) N (fun t => ⟨s.1.calculator.calculate (arith exp) t, .zero, .zero⟩) ∧
        HandsOut (arith exp) (Journey.spin (arith exp)) s.1 (.fin p) N (fun t => ⟨.zero, .zero, s.1.calculator.calculate (arith exp) t⟩) := by
  obtain ⟨⟨T, eT, T0, T1⟩, hu, ht⟩ := gen_ok (exp := exp) hL G hx hy rfl short long
  refine ⟨_, rfl, ⟨T, eT, T0, T1⟩, hu, ht, ?_⟩
  obtain ⟨N, hN⟩ := C120_ends exp hp (lt_of_le_of_lt T1 hlong)
  have e : (g.journey (arith exp) L (.fin p) (.fin D) (.fin x) (.fin y)).1 =
      ⟨(g.generate (arith exp) L (.fin 0) (.fin D) (.fin x) (.fin y)).1, Clock.new (.fin T) (.fin p)⟩ := by
    unfold Gen.journey
    dsimp only
    rw [eT]
  refine ⟨N, fun n => ?_, fun n => ?_⟩
  · rw [e, straight_outputs, hN n, List.map_map]
    refine List.map_congr_left fun k _ => ?_
    dsimp only [Function.comp]
    split_ifs <;> rfl
  · rw [e, spin_outputs, hN n, List.map_map]
    refine List.map_congr_left fun k _ => ?_
    dsimp only [Function.comp]
    split_ifs <;> rfl

theorem nan_outputs (A : Arith) (n : ℕ) : ∀ k : Clock, k.tEnd = .nan → ∀ o ∈ outputs (Clock.next A) n k, o ≠ none := by
  induction n with
  | zero => intro k _ o ho; exact absurd ho List.not_mem_nil
  | succ n ih =>
    intro k hk o ho
    have e : k.next A = (some k.t, { k with t := A.add k.t k.period }) := by
      unfold Clock.next
      rw [hk, if_neg (show ¬ F.nan.lt k.t from id)]
    rw [outputs, e] at ho
    rcases List.mem_cons.1 ho with rfl | ho
    · exact Option.some_ne_none _
    · exact ih _ (by exact hk) o ho

/-- C124: but from rest over no length to rest the duration is not a number, and the trajectory hands out targets forever. -/
theorem C124_stuck (hL : Rooted L) (hh : HalfRooted L) (G : Fit v a j g) (p : F) :
    (g.journey (arith exp) L p (.fin 0) (.fin 0) (.fin 0)).1.clock.tEnd = .nan ∧
    ∀ n, ∀ o ∈ outputs (Journey.straight (arith exp)) n (g.journey (arith exp) L p (.fin 0) (.fin 0) (.fin 0)).1, o ≠ none := by
  have h := stuck_end (exp := exp) hL hh G
  refine ⟨h, fun n o ho => ?_⟩
  have e : (g.journey (arith exp) L p (.fin 0) (.fin 0) (.fin 0)).1 =
      ⟨(g.generate (arith exp) L (.fin 0) (.fin 0) (.fin 0) (.fin 0)).1, Clock.new .nan p⟩ := by
    unfold Gen.journey
    dsimp only
    rw [h]
  rw [e, straight_outputs] at ho
  obtain ⟨q, hq, rfl⟩ := List.mem_map.1 ho
  have := nan_outputs (arith exp) n (Clock.new .nan p) rfl q hq
  cases q with
  | none => exact absurd rfl this
  | some t => exact Option.some_ne_none _

/-! ## Targets for the control loop -/

theorem bd_mag {c : ℝ} {k : ℤ} {x : F} (h : Bd c x) (hc : c ≤ 2 ^ k) : Mag k x := by
  obtain ⟨r, rfl, hr⟩ := h
  exact ⟨r, rfl, hr.trans hc⟩

theorem mag_bd {c : ℝ} {k : ℤ} {x : F} (h : Mag k x) (hc : 2 ^ k ≤ c) : Bd c x := by
  obtain ⟨r, rfl, hr⟩ := h
  exact ⟨r, rfl, hr.trans hc⟩

/-- C124: such targets are those for which the control loop is known not to compute infinities. -/
theorem C124_sane (hF : Fair L) (hL : Rooted L) {t : Target} (h : Steered (arith exp) L t) : Sane t := by
  have bz : Bd 0 (.fin 0) := ⟨0, rfl, by rw [abs_zero]⟩
  have l90 : (1000000:ℝ) ≤ 2 ^ 90 := by norm_num
  cases h with
  | @straight v a j x y D px py pt t g G v5 a300 j29 hx hy short long hpx hpy hpt =>
    obtain ⟨-, -, ht⟩ := gen_ok (exp := exp) hL G hx hy rfl short (long.trans (by norm_num))
    obtain ⟨b1, b2, b3, b4⟩ := ht t
    have s := mag_bd (c := 2) (hF.sin pt) (by norm_num)
    have c := mag_bd (c := 2) (hF.cos pt) (by norm_num)
    have sz := mul' (exp := exp) 0.01 bz s (by norm_num) (by linarith)
    have cz := mul' (exp := exp) 0.01 bz c (by norm_num) (by linarith)
    refine ⟨⟨?_, ?_, ?_, ?_⟩, ⟨?_, ?_, ?_, ?_⟩, ⟨?_, ?_, ?_⟩⟩
    · exact bd_mag (add' 1000 (sub' 500 (mul' 490 b1 c (by linarith) (by linarith)) sz (by norm_num) (by linarith)) (bd_fin hpx) (by norm_num) (by linarith)) (by norm_num)
    · exact bd_mag (sub' 64 (mul' 62 b2 c (by linarith) (by linarith)) sz (by norm_num) (by linarith)) (by norm_num)
    · exact bd_mag (sub' 1000 (mul' 980 b3 c (by linarith) (by linarith)) sz (by norm_num) (by linarith)) (by norm_num)
    · exact bd_mag (sub' 65536 (mul' 64700 b4 c (by linarith) (by linarith)) sz (by norm_num) (by linarith)) (by norm_num)
    · exact bd_mag (add' 1000 (add' 500 (mul' 490 b1 s (by linarith) (by linarith)) cz (by norm_num) (by linarith)) (bd_fin hpy) (by norm_num) (by linarith)) (by norm_num)
    · exact bd_mag (add' 64 (mul' 62 b2 s (by linarith) (by linarith)) cz (by norm_num) (by linarith)) (by norm_num)
    · exact bd_mag (add' 1000 (mul' 980 b3 s (by linarith) (by linarith)) cz (by norm_num) (by linarith)) (by norm_num)
    · exact bd_mag (add' 65536 (mul' 64700 b4 s (by linarith) (by linarith)) cz (by norm_num) (by linarith)) (by norm_num)
    · exact bd_mag (add' (exp := exp) 1000 bz (bd_fin hpt) (by norm_num) (by linarith)) (by norm_num)
    · exact bd_mag bz (by norm_num)
    · exact bd_mag bz (by norm_num)
  | @spin v a j D px py pt t g G v36 short long hpx hpy hpt =>
    have h0 : Pace v 0 := ⟨round24_zero, le_rfl, le_trans (by norm_num) G.vel.1⟩
    obtain ⟨-, -, ht⟩ := gen_ok (exp := exp) hL G h0 h0 rfl short (long.trans (by norm_num))
    obtain ⟨b1, b2, b3, b4⟩ := ht t
    have s := mag_bd (c := 2) (hF.sin pt) (by norm_num)
    have c := mag_bd (c := 2) (hF.cos pt) (by norm_num)
    have sz := mul' (exp := exp) 0.01 bz s (by norm_num) (by linarith)
    have cz := mul' (exp := exp) 0.01 bz c (by norm_num) (by linarith)
    refine ⟨⟨?_, ?_, ?_, ?_⟩, ⟨?_, ?_, ?_, ?_⟩, ⟨?_, ?_, ?_⟩⟩
    · exact bd_mag (add' 1000 (sub' 1 cz sz (by norm_num) (by linarith)) (bd_fin hpx) (by norm_num) (by linarith)) (by norm_num)
    · exact bd_mag (sub' 1 cz sz (by norm_num) (by linarith)) (by norm_num)
    · exact bd_mag (sub' 1 cz sz (by norm_num) (by linarith)) (by norm_num)
    · exact bd_mag (sub' 1 cz sz (by norm_num) (by linarith)) (by norm_num)
    · exact bd_mag (add' 1000 (add' 1 sz cz (by norm_num) (by linarith)) (bd_fin hpy) (by norm_num) (by linarith)) (by norm_num)
    · exact bd_mag (add' 1 sz cz (by norm_num) (by linarith)) (by norm_num)
    · exact bd_mag (add' 1 sz cz (by norm_num) (by linarith)) (by norm_num)
    · exact bd_mag (add' 1 sz cz (by norm_num) (by linarith)) (by norm_num)
    · exact bd_mag (add' 1000 b1 (bd_fin hpt) (by linarith) (by linarith)) (by norm_num)
    · exact bd_mag b2 (by norm_num; linarith)
    · exact bd_mag b3 (by have := G.acc.2; norm_num at this ⊢; linarith)

/-- C124: however long the robot drives after straight and spin trajectories, in single precision no voltage is ever infinite or not a
number, if the sensors are plausible. -/
theorem C124_drive (hF : Fair L) (hL : Rooted L) {p W w Ω V : ℝ} {r : Robot} (B : Assembled p W w Ω V r) (l : List (Sensor × Target))
    (hl : ∀ q ∈ l, Plausible p W w Ω q.1 ∧ Steered (arith exp) L q.2) :
    ∀ o ∈ (roundsOf (arith exp) L r l).2, Mag 122 o.left ∧ Mag 122 o.right :=
  (C121_finite hF B l fun q hq => ⟨(hl q hq).1, C124_sane hF hL (hl q hq).2⟩).1

/-! ## The same without rounding -/

section
open Verif.Straight (LOOP_COUNT)

variable (T : Control.Trig) (pi : ℝ) {G : Straight.Gen}

theorem abs_exact (a b : ℝ) : (exact.sub (.fin a) (.fin b)).abs = .fin |a - b| := by rw [exact_sub]; rfl

theorem model_dist (ha : G.aMax ≠ 0) (hj : G.jMax ≠ 0) (x y : ℝ) : (genOf G).accDist exact (libOf T pi) (.fin x) (.fin y) = .fin (G.accDist x y) := by
  unfold Gen.accDist Straight.Gen.accDist genOf
  dsimp only
  rw [exact_div _ _ hj, exact_mul, abs_exact, exact_div _ _ ha, exact_div _ _ hj, exact_add, exact_add, show (libOf T pi).sqrt (.fin (|y - x| / G.jMax)) = .fin √(|y - x| / G.jMax) from rfl,
    exact_mul]
  by_cases h : G.aMax * (G.aMax / G.jMax) ≤ |y - x|
  · rw [if_pos (show (F.fin (G.aMax * (G.aMax / G.jMax))).le (.fin |y - x|) from h), if_pos (show |y - x| ≥ _ from h), exact_mul, exact_div _ _ two_ne_zero]
  · rw [if_neg (show ¬ (F.fin (G.aMax * (G.aMax / G.jMax))).le (.fin |y - x|) from h), if_neg (show ¬ |y - x| ≥ _ from h), exact_mul, exact_div _ _ two_ne_zero]

theorem model_bisect {up : F → Prop} {up' : ℝ → Prop} (h : ∀ m, up (.fin m) ↔ up' m) (n : ℕ) : ∀ l u : ℝ,
    bisect exact up n (.fin l) (.fin u) = (.fin (Straight.bisect up' n l u).1, .fin (Straight.bisect up' n l u).2) := by
  induction n with
  | zero => intro l u; rfl
  | succ n ih =>
    intro l u
    unfold bisect Straight.bisect
    dsimp only
    rw [exact_add, exact_div _ _ two_ne_zero]
    by_cases hm : up' ((l + u) / 2)
    · rw [if_pos hm, if_pos ((h _).2 hm), ih]
    · rw [if_neg hm, if_neg (fun h' => hm ((h _).1 h')), ih]

theorem model_reach (ha : G.aMax ≠ 0) (hj : G.jMax ≠ 0) (x y D : ℝ) : (genOf G).reachable exact (libOf T pi) (.fin x) (.fin y) (.fin D) = .fin (G.reachable x y D) := by
  unfold Gen.reachable Straight.Gen.reachable
  by_cases h : x < y
  · rw [if_pos (show (F.fin x).lt (.fin y) from h), if_pos h, show (genOf G).vMax = .fin G.vMax from rfl,
      model_bisect (up' := fun mid => G.accDist x mid < D) (fun m => by rw [model_dist T pi ha hj]; rfl)]
    rfl
  · rw [if_neg (show ¬ (F.fin x).lt (.fin y) from h), if_neg h,
      model_bisect (up' := fun mid => ¬ G.accDist x mid < D) (fun m => by rw [model_dist T pi ha hj]; rfl)]
    rfl

theorem ite_lt {a b c d : ℝ} {_ : Decidable ((F.fin a).lt (.fin b))} : (if (F.fin a).lt (.fin b) then F.fin c else F.fin d) = .fin (if a < b then c else d) := by
  by_cases h : a < b
  · rw [if_pos h, if_pos (show (F.fin a).lt (.fin b) from h)]
  · rw [if_neg h, if_neg (show ¬ (F.fin a).lt (.fin b) from h)]

theorem model_aim (ha : G.aMax ≠ 0) (hj : G.jMax ≠ 0) (x y D : ℝ) : (genOf G).aim exact (libOf T pi) (.fin x) (.fin y) (.fin D) = .fin (G.aim x y D) := by
  unfold Gen.aim Straight.Gen.aim
  dsimp only
  rw [model_reach T pi ha hj, ite_lt, ite_lt, ite_lt]

theorem model_peak (ha : G.aMax ≠ 0) (hj : G.jMax ≠ 0) (x y D : ℝ) : (genOf G).peak exact (libOf T pi) (.fin x) (.fin y) (.fin D) = .fin (G.peak x y D) := by
  unfold Gen.peak Straight.Gen.peak
  rw [ite_lt, show (genOf G).vMax = .fin G.vMax from rfl,
    model_bisect (up' := fun mid => G.accDist x mid + G.accDist mid y ≤ D) (fun m => by rw [model_dist T pi ha hj, model_dist T pi ha hj]; rfl)]
  rfl

theorem model_acc (ha : G.aMax ≠ 0) (hj : G.jMax ≠ 0) (X x y : ℝ) :
    (genOf G).acceleration exact (libOf T pi) (.fin X) (.fin x) (.fin y) = (accOf (G.acceleration X x y).1, .fin (G.acceleration X x y).2) := by
  have hs : (libOf T pi).sqrt (.fin (|y - x| / G.jMax)) = .fin √(|y - x| / G.jMax) := rfl
  unfold Gen.acceleration Straight.Gen.acceleration genOf accOf
  dsimp only
  rw [exact_div _ _ hj, exact_mul, abs_exact, exact_div _ _ ha, exact_div _ _ hj, exact_add, exact_sub, exact_add, exact_mul, hs, exact_mul, exact_add]
  by_cases h : G.aMax * (G.aMax / G.jMax) ≤ |y - x|
  · rw [if_pos (show (F.fin (G.aMax * (G.aMax / G.jMax))).le (.fin |y - x|) from h), if_pos (show |y - x| ≥ _ from h)]
    dsimp only
    rw [exact_mul, exact_div _ _ two_ne_zero, exact_add]
    by_cases h' : x ≤ y
    · rw [if_pos (show (F.fin x).le (.fin y) from h'), if_pos h']
    · rw [if_neg (show ¬ (F.fin x).le (.fin y) from h'), if_neg h']; rfl
  · rw [if_neg (show ¬ (F.fin (G.aMax * (G.aMax / G.jMax))).le (.fin |y - x|) from h), if_neg (show ¬ |y - x| ≥ _ from h)]
    dsimp only
    rw [exact_mul, exact_div _ _ two_ne_zero, exact_add]
    by_cases h' : x ≤ y
    · rw [if_pos (show (F.fin x).le (.fin y) from h'), if_pos h']
    · rw [if_neg (show ¬ (F.fin x).le (.fin y) from h'), if_neg h']; rfl

theorem model_const (X D r : ℝ) : constant exact (.fin X) (.fin D) (.fin r) = (constOf (Straight.constant X D r).1, (Straight.constant X D r).2) := rfl

/-- C124: without rounding the trajectory is the one of the model in real numbers. -/
theorem C124_model (ha : G.aMax ≠ 0) (hj : G.jMax ≠ 0) (X D x y : ℝ) :
    (genOf G).generate exact (libOf T pi) (.fin X) (.fin D) (.fin x) (.fin y) =
      (overallOf (G.generate X D x y).1, (G.generate X D x y).2.1, .fin (G.generate X D x y).2.2) := by
  have key : ∀ D' σ : ℝ, (open Classical in if (F.fin D).lt (.fin 0) then ((F.fin D).neg, F.fin (-1)) else (F.fin D, F.fin 1)) = (F.fin D', F.fin σ) →
      (open Classical in if D < 0 then (-D, (-1:ℝ)) else (D, 1)) = (D', σ) →
      (genOf G).generate exact (libOf T pi) (.fin X) (.fin D) (.fin x) (.fin y) =
      (overallOf (G.generate X D x y).1, (G.generate X D x y).2.1, .fin (G.generate X D x y).2.2) := by
    intro D' σ e1 e2
    unfold Gen.generate Straight.Gen.generate
    rw [e1, e2]
    dsimp only
    rw [model_aim T pi ha hj, model_peak T pi ha hj, ite_lt]
    simp only [model_dist T pi ha hj, exact_sub, exact_add, model_acc T pi ha hj, model_const]
    rfl
  by_cases h : D < 0
  · exact key (-D) (-1) (by rw [if_pos (show (F.fin D).lt (.fin 0) from h)]; rfl) (by rw [if_pos h])
  · exact key D 1 (by rw [if_neg (show ¬ (F.fin D).lt (.fin 0) from h)]) (by rw [if_neg h])

theorem model_acc_target (c : Straight.AccCalc) (t : ℝ) : (accOf c).calculate exact (.fin t) = axisOf (c.calculate t) := by
  unfold AccCalc.calculate Straight.AccCalc.calculate accOf
  dsimp only
  by_cases h1 : t < 0
  · rw [if_pos (show (F.fin t).lt (.fin 0) from h1), if_pos h1]; rfl
  rw [if_neg (show ¬ (F.fin t).lt (.fin 0) from h1), if_neg h1]
  have s6 : (6:ℝ) ≠ 0 := by norm_num
  by_cases h2 : t ≤ c.t1
  · rw [if_pos (show (F.fin t).le (.fin c.t1) from h2), if_pos h2]
    simp only [exact_mul, exact_add, exact_div _ _ two_ne_zero, exact_div _ _ s6]
    rfl
  rw [if_neg (show ¬ (F.fin t).le (.fin c.t1) from h2), if_neg h2]
  by_cases h3 : t ≤ c.t2
  · rw [if_pos (show (F.fin t).le (.fin c.t2) from h3), if_pos h3]
    simp only [exact_mul, exact_add, exact_sub, exact_div _ _ two_ne_zero, exact_div _ _ s6]
    rfl
  rw [if_neg (show ¬ (F.fin t).le (.fin c.t2) from h3), if_neg h3]
  by_cases h4 : t ≤ c.t3
  · rw [if_pos (show (F.fin t).le (.fin c.t3) from h4), if_pos h4]
    simp only [exact_mul, exact_add, exact_sub, exact_div _ _ two_ne_zero, exact_div _ _ s6]
    rfl
  rw [if_neg (show ¬ (F.fin t).le (.fin c.t3) from h4), if_neg h4]
  rfl

/-- C124: and so are its targets. -/
theorem C124_target (X D x y t : ℝ) :
    (overallOf (G.generate X D x y).1).calculate exact (.fin t) = axisOf ((G.generate X D x y).1.calculate t) := by
  obtain ⟨c, hc⟩ : ∃ c, c = (G.generate X D x y).1 := ⟨_, rfl⟩
  have h2 : c.t2 = exact.add (.fin c.t1) c.const.tEnd ∧ c.const.tEnd ≠ .ninf := by
    rw [hc]
    unfold Straight.Gen.generate
    refine ⟨rfl, ?_⟩
    dsimp only [Straight.constant]
    generalize exact.div _ _ = q
    cases q with
    | ninf => rw [if_pos (show F.ninf.lt (.fin 0) from trivial)]; exact F.noConfusion
    | nan => rw [if_neg (show ¬ F.nan.lt (.fin 0) from id)]; exact F.noConfusion
    | pinf => rw [if_neg (show ¬ F.pinf.lt (.fin 0) from id)]; exact F.noConfusion
    | fin r => split_ifs <;> exact F.noConfusion
  have hu : (overallOf c).unsigned exact (.fin t) = axisOf (c.unsigned t) := by
    unfold Overall.unsigned Straight.Overall.unsigned overallOf
    dsimp only
    by_cases n1 : t < 0
    · rw [if_pos (show (F.fin t).lt (.fin 0) from n1), if_pos n1]; rfl
    rw [if_neg (show ¬ (F.fin t).lt (.fin 0) from n1), if_neg n1]
    by_cases n2 : t ≤ c.t1
    · rw [if_pos (show (F.fin t).le (.fin c.t1) from n2), if_pos n2, model_acc_target]
    rw [if_neg (show ¬ (F.fin t).le (.fin c.t1) from n2), if_neg n2]
    by_cases n3 : (F.fin t).le c.t2
    · rw [if_pos n3, if_pos n3, exact_sub]
      unfold ConstCalc.calculate Straight.ConstCalc.calculate constOf
      dsimp only
      have n0 : ¬ t - c.t1 < 0 := by linarith
      by_cases n4 : c.const.tEnd.lt (.fin (t - c.t1))
      · rw [if_pos (.inl n4), if_pos (.inl n4)]
        obtain ⟨r, hr⟩ : ∃ r, c.const.tEnd = .fin r := by
          cases hq : c.const.tEnd with
          | fin r => exact ⟨r, rfl⟩
          | nan => rw [hq] at n4; exact n4.elim
          | pinf => rw [hq] at n4; exact n4.elim
          | ninf => exact absurd hq h2.2
        rw [hr, exact_mul, exact_add]
        rfl
      · rw [if_neg (by rintro (h | h); exacts [n4 h, n0 h]), if_neg (by rintro (h | h); exacts [n4 h, n0 h]), exact_mul, exact_add]
        rfl
    rw [if_neg n3, if_neg n3]
    by_cases n4 : (F.fin t).le c.t3
    · rw [if_pos n4, if_pos n4]
      obtain ⟨r, hr⟩ : ∃ r, c.t2 = .fin r := by
        cases hq : c.const.tEnd with
        | fin r => exact ⟨_, by rw [h2.1, hq, exact_add]⟩
        | nan =>
          exfalso
          have h3 : c.t3 = .nan := by
            have : c.t3 = exact.add c.t2 (.fin (c.decel.t3)) := by rw [hc]; rfl
            rw [this, h2.1, hq]; rfl
          rw [h3] at n4; exact n4
        | pinf => rw [h2.1, hq] at n3; exact absurd trivial n3
        | ninf => exact absurd hq h2.2
      rw [hr, exact_sub, model_acc_target]
      rfl
    rw [if_neg n4, if_neg n4, exact_add]
    rfl
  rw [← hc]
  unfold Overall.calculate Straight.Overall.calculate
  dsimp only
  rw [hu]
  unfold overallOf axisOf
  dsimp only
  rw [exact_sub, exact_mul, exact_add, exact_mul, exact_mul, exact_mul]

end

/-! ## Examples -/

theorem rooted_real (T : Control.Trig) (pi : ℝ) : Rooted (libOf T pi) := fun r _ =>
  ⟨√r, rfl, Real.sqrt_nonneg r, by have := Real.sqrt_nonneg r; have : (0:ℝ) < 1 / 2 ^ 40 := by positivity
                                   linarith⟩

theorem halfRooted_real (T : Control.Trig) (pi : ℝ) : HalfRooted (libOf T pi) := fun r s _ h => by
  have : √r = s := by injection h
  have := Real.sqrt_nonneg r
  linarith

/-- The limits of the straight trajectories of the search test, `mousecore2/tests/search.rs:169-171`, with a velocity of 5/16 instead of 0.3
m/s, which is no number of binary32. -/
noncomputable def stepGen : Gen := ⟨.fin (5 / 16), .fin 10, .fin 100⟩

theorem stepGen_fit : Fit (5 / 16) 10 100 stepGen where
  vMax := rfl
  aMax := rfl
  jMax := rfl
  f32 := by
    have := round24_fix (m := 5) (e := -4) (by norm_num) (by norm_num)
    norm_num at this ⊢
    exact this
  vel := by norm_num
  acc := by norm_num
  jerk := by norm_num

/-- And those of its spins, `mousecore2/tests/search.rs:175-180`, rounded: 25 rad/s instead of 8π. -/
noncomputable def turnGen : Gen := ⟨.fin 25, .fin 251, .fin 502⟩

theorem turnGen_fit : Fit 25 251 502 turnGen where
  vMax := rfl
  aMax := rfl
  jMax := rfl
  f32 := by
    have := round24_fix (m := 25) (e := 0) (by norm_num) (by norm_num)
    norm_num at this ⊢
    exact this
  vel := by norm_num
  acc := by norm_num
  jerk := by norm_num

/-- A step of 90 mm from rest to full speed, with a period of a millisecond: it ends. -/
example (exp : F → F) (T : Control.Trig) (pi : ℝ) : ∃ N, HandsOut (arith exp) (Journey.straight (arith exp))
    (stepGen.journey (arith exp) (libOf T pi) (.fin 0.001) (.fin 0.09) (.fin 0) (.fin (5 / 16))).1 (.fin 0.001) N
    (fun t => ⟨(stepGen.journey (arith exp) (libOf T pi) (.fin 0.001) (.fin 0.09) (.fin 0) (.fin (5 / 16))).1.calculator.calculate (arith exp) t, .zero, .zero⟩) := by
  obtain ⟨s, rfl, -, -, -, N, h, -⟩ := C124_ends (exp := exp) (rooted_real T pi) stepGen_fit (x := 0) (y := 5 / 16) (D := 0.09) (p := 0.001)
    ⟨round24_zero, le_rfl, by norm_num⟩ ⟨stepGen_fit.f32, by norm_num, le_rfl⟩ (by norm_num [abs_of_pos]) (by norm_num [abs_of_pos]) ⟨by norm_num, by norm_num⟩
    (by norm_num [abs_of_pos])
  exact ⟨N, h⟩

/-- The same step and a turn by three, as targets of the control loop. -/
example (exp : F → F) (t : ℝ) : Sane (shift (arith exp) (libOf Control.Trig.real 3.14) (.fin 0.045) (.fin 0.045) (.fin 1.5)
    ⟨(stepGen.generate (arith exp) (libOf Control.Trig.real 3.14) (.fin 0) (.fin 0.09) (.fin 0) (.fin (5 / 16))).1.calculate (arith exp) (.fin t), .zero, .zero⟩) :=
  C124_sane fair_real (rooted_real _ _) (.straight stepGen_fit (by norm_num) (by norm_num) (by norm_num) ⟨round24_zero, le_rfl, by norm_num⟩
    ⟨stepGen_fit.f32, by norm_num, le_rfl⟩ (by norm_num [abs_of_pos]) (by norm_num [abs_of_pos]) (by norm_num [abs_of_pos]) (by norm_num [abs_of_pos])
    (by norm_num [abs_of_pos]))

example (exp : F → F) (t : ℝ) : Sane (shift (arith exp) (libOf Control.Trig.real 3.14) (.fin 0.045) (.fin 0.045) (.fin 1.5)
    ⟨.zero, .zero, (turnGen.generate (arith exp) (libOf Control.Trig.real 3.14) (.fin 0) (.fin (-3)) (.fin 0) (.fin 0)).1.calculate (arith exp) (.fin t)⟩) :=
  C124_sane fair_real (rooted_real _ _) (.spin turnGen_fit (by norm_num) (by norm_num [abs_of_pos]) (by norm_num [abs_of_pos]) (by norm_num [abs_of_pos])
    (by norm_num [abs_of_pos]) (by norm_num [abs_of_pos]))

/-- The robot of the search test, with one such target. -/
example (exp : F → F) : ∀ o ∈ (roundsOf (arith exp) (libOf Control.Trig.real 3.14) bench
    [(⟨.fin 0.0005, .fin 0.0007, .fin 3, .fin 6⟩, shift (arith exp) (libOf Control.Trig.real 3.14) (.fin 0.045) (.fin 0.045) (.fin 1.5)
      ⟨.zero, .zero, (turnGen.generate (arith exp) (libOf Control.Trig.real 3.14) (.fin 0) (.fin (-3)) (.fin 0) (.fin 0)).1.calculate (arith exp) (.fin 0.02)⟩)]).2,
    Mag 122 o.left ∧ Mag 122 o.right :=
  C124_drive fair_real (rooted_real _ _) bench_assembled _ (by
    intro q hq
    rw [List.mem_singleton] at hq
    subst hq
    exact ⟨⟨⟨_, rfl, by rw [abs_of_pos] <;> norm_num⟩, ⟨_, rfl, by rw [abs_of_pos] <;> norm_num⟩, ⟨_, rfl, by rw [abs_of_pos] <;> norm_num⟩,
      ⟨_, rfl, by rw [abs_of_pos] <;> norm_num⟩⟩,
      .spin turnGen_fit (by norm_num) (by norm_num [abs_of_pos]) (by norm_num [abs_of_pos]) (by norm_num [abs_of_pos])
        (by norm_num [abs_of_pos]) (by norm_num [abs_of_pos])⟩)

/-- Over no length it never ends. -/
example (exp : F → F) (T : Control.Trig) (pi : ℝ) (n : ℕ) : ∀ o ∈ outputs (Journey.straight (arith exp)) n
    (stepGen.journey (arith exp) (libOf T pi) (.fin 0.001) (.fin 0) (.fin 0) (.fin 0)).1, o ≠ none :=
  (C124_stuck (rooted_real T pi) (halfRooted_real T pi) stepGen_fit _).2 n

/-- Without rounding a step of 90 mm is the one of the model in real numbers. -/
example (T : Control.Trig) (pi t : ℝ) :
    ((genOf ⟨0.3, 10, 100⟩).generate exact (libOf T pi) (.fin 0) (.fin 0.09) (.fin 0) (.fin 0.3)).1.calculate exact (.fin t) =
      axisOf (((⟨0.3, 10, 100⟩ : Straight.Gen).generate 0 0.09 0 0.3).1.calculate t) := by
  rw [C124_model T pi (G := ⟨0.3, 10, 100⟩) (by norm_num) (by norm_num)]
  exact C124_target 0 0.09 0 0.3 t

end Verif.Props
