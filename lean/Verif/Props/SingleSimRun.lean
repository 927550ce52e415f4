import Verif.Props.SingleSim
import Verif.Props.Single
import Verif.Props.SingleFindModel
import Verif.Model.Sim
/-!
# C131: histories of the simulator, voltages that are not numbers, and the relation to the simulator in real numbers
-/
namespace Verif.Props
open Verif Verif.Spec Verif.Single Verif.Binary32 Verif.Proof

variable {exp : F → F}

open Classical in
theorem limit_upto {M : ℝ} (hM : 0 ≤ M) {v : F} (hv : v ≠ .nan) : Upto M (limit (.fin M) v) := by
  unfold limit
  split_ifs with h1 h2
  · exact ⟨M, rfl, by rw [abs_of_nonneg hM]⟩
  · exact ⟨-M, rfl, by rw [abs_neg, abs_of_nonneg hM]⟩
  · cases v with
    | nan => exact absurd rfl hv
    | pinf => exact absurd trivial h1
    | ninf => exact absurd trivial h2
    | fin r => exact ⟨r, rfl, abs_le.2 ⟨not_lt.1 (show ¬ r < -M from h2), not_lt.1 (show ¬ M < r from h1)⟩⟩

theorem rest_calm {L : Lib} {η V Ω : ℝ} (hL : CircleTrig L η) (hV : 0 ≤ V) (hΩ : 0 ≤ Ω) {s : State} (h : AtRest s) : Calm exp L V Ω s := by
  obtain ⟨x, y, t, hx, hy, ht, rfl⟩ := h
  obtain ⟨c, sn, ec, es, -⟩ := hL t ht
  have z : ∀ {b : ℝ}, 0 ≤ b → Upto b (.fin 0) := fun h => ⟨0, rfl, by rw [abs_zero]; exact h⟩
  have r0 : rnd 0 = .fin 0 := by
    have := rnd_of_lt (x := 0) (by rw [round24_zero, abs_zero]; norm_num)
    rwa [round24_zero] at this
  refine ⟨⟨_, rfl, hx⟩, ⟨_, rfl, hy⟩, ⟨_, rfl, ht⟩, z (by norm_num), z (by norm_num), z hΩ, ?_, z (by norm_num), z (by norm_num), z (by norm_num)⟩
  have : transVel (arith exp) L ⟨⟨.fin x, .fin 0, .fin 0⟩, ⟨.fin y, .fin 0, .fin 0⟩, ⟨.fin t, .fin 0, .fin 0⟩⟩ = .fin 0 := by
    unfold transVel
    dsimp only
    rw [ec, es]
    have m : ∀ d : ℝ, (arith exp).mul (.fin 0) (.fin d) = .fin 0 := by
      intro d
      show rnd (0 * d) = _
      rw [zero_mul, r0]
    rw [m, m]
    show rnd (0 + 0) = _
    rw [add_zero, r0]
  rw [this]
  exact z hV

theorem driven_le {k M b : ℝ} (h : |k| * M ≤ b) (M0 : 0 ≤ M) : 0 ≤ driven k M ∧ driven k M ≤ b * (1 + 1 / 10 ^ 6) + 1 / 10 ^ 20 := by
  unfold driven
  have := abs_nonneg k
  refine ⟨by positivity, ?_⟩
  norm_num
  linarith

/-- What all calls keep. -/
theorem events_calm {L : Lib} {η M T kt tt kr tr w : ℝ} (hL : CircleTrig L η) (es : List SimEvent) : ∀ {s : Simulator},
    SimFit s η M T kt tt kr tr w → (∀ e ∈ es, e.Numbers) → Upto M s.rightVoltage → Upto M s.leftVoltage →
    Calm exp L (23 / 10 * driven kt M + 1 / 10 ^ 6) (101 / 100 * driven kr M + 1 / 10 ^ 6) s.current →
    Calm exp L (23 / 10 * driven kt M + 1 / 10 ^ 6) (101 / 100 * driven kr M + 1 / 10 ^ 6) s.last →
    let s' := simEvents (arith exp) L es s
    SimFit s' η M T kt tt kr tr w ∧ Upto M s'.rightVoltage ∧ Upto M s'.leftVoltage ∧
    Calm exp L (23 / 10 * driven kt M + 1 / 10 ^ 6) (101 / 100 * driven kr M + 1 / 10 ^ 6) s'.current ∧
    Calm exp L (23 / 10 * driven kt M + 1 / 10 ^ 6) (101 / 100 * driven kr M + 1 / 10 ^ 6) s'.last := by
  induction es with
  | nil => intro s H _ hr hl hc hl'; exact ⟨H, hr, hl, hc, hl'⟩
  | cons e es ih =>
    intro s H he hr hl hc hl'
    have he' : ∀ e ∈ es, e.Numbers := fun x hx => he x (by simp [hx])
    cases e with
    | apply l r =>
      have hn : l ≠ .nan ∧ r ≠ .nan := he (.apply l r) (by simp)
      refine ih (s := s.apply l r) ⟨H.max, H.period, H.trans, H.transT, H.rot, H.rotT, H.wheel, H.eta⟩ he' ?_ ?_ hc hl'
      · show Upto M (limit s.maxVoltage r)
        rw [H.max.1]; exact limit_upto H.max.2.1 hn.2
      · show Upto M (limit s.maxVoltage l)
        rw [H.max.1]; exact limit_upto H.max.2.1 hn.1
    | step =>
      exact ih (s := s.step (arith exp) L) ⟨H.max, H.period, H.trans, H.transT, H.rot, H.rotT, H.wheel, H.eta⟩ he' hr hl
        (step_calm hL H hr hl hc) hc

/-- **C131.** The simulator in single precision, from rest, driven with any voltages that are numbers (also infinite ones), over any
number of calls: everything it holds and everything it returns stays finite. Forward speed and turn rate stay within 2.4 times and 1.02
times what the largest voltage drives them to; each wheel turns by at most a metre in a period; position and angle stay below 2²⁴. -/
theorem C131_bounded {L : Lib} {η M T kt tt kr tr w : ℝ} (hL : CircleTrig L η) (s : Simulator) (H : SimFit s η M T kt tt kr tr w)
    (hc : AtRest s.current) (hl : AtRest s.last) (hv : s.rightVoltage = .fin 0 ∧ s.leftVoltage = .fin 0) (es : List SimEvent)
    (he : ∀ e ∈ es, e.Numbers) :
    let s' := simEvents (arith exp) L es s
    (Upto M s'.leftVoltage ∧ Upto M s'.rightVoltage) ∧
    (Upto (2 ^ 24) s'.current.x.x ∧ Upto (2 ^ 24) s'.current.y.x ∧ Upto (2 ^ 24) s'.current.theta.x) ∧
    Upto (12 / 5 * (|kt| * M) + 1 / 10 ^ 5) (transVel (arith exp) L s'.current) ∧
    Upto (51 / 50 * (|kr| * M) + 1 / 10 ^ 5) s'.angularVelocity ∧
    (Upto 1 (s'.distance (arith exp) L).1 ∧ Upto 1 (s'.distance (arith exp) L).2) ∧
    Upto (10 ^ 8) (s'.transAcc (arith exp) L) := by
  have z : Upto M (.fin 0) := ⟨0, rfl, by rw [abs_zero]; exact H.max.2.1⟩
  obtain ⟨Kt0, Kt1⟩ := driven_le H.trans.2.2 H.max.2.1
  obtain ⟨Kr0, Kr1⟩ := driven_le H.rot.2.2 H.max.2.1
  obtain ⟨H', hr', hl', cc, cl⟩ := events_calm (exp := exp) hL es H he (by rw [hv.1]; exact z) (by rw [hv.2]; exact z)
    (rest_calm hL (by positivity) (by positivity) hc) (rest_calm hL (by positivity) (by positivity) hl)
  intro s'
  have eV : 23 / 10 * driven kt M + 1 / 10 ^ 6 ≤ 12 / 5 * (|kt| * M) + 1 / 10 ^ 5 := by
    have := mul_nonneg (abs_nonneg kt) H.max.2.1
    unfold driven; norm_num; linarith
  have eΩ : 101 / 100 * driven kr M + 1 / 10 ^ 6 ≤ 51 / 50 * (|kr| * M) + 1 / 10 ^ 5 := by
    have := mul_nonneg (abs_nonneg kr) H.max.2.1
    unfold driven; norm_num; linarith
  refine ⟨⟨hl', hr'⟩, ⟨cc.px, cc.py, cc.pt⟩, Upto.mono cc.vu eV, Upto.mono cc.vt eΩ, ?_, ?_⟩
  · obtain ⟨u, eu, bu⟩ := Upto.mono cc.vu (b := 231) (by norm_num at *; linarith)
    obtain ⟨v, ev, bv⟩ := Upto.mono cl.vu (b := 231) (by norm_num at *; linarith)
    obtain ⟨p, ep, bp⟩ := Upto.mono cc.vt (b := 313) (by norm_num at *; linarith)
    obtain ⟨q, eq, bq⟩ := Upto.mono cl.vt (b := 313) (by norm_num at *; linarith)
    obtain ⟨ew, bw⟩ := H'.wheel
    obtain ⟨eT, T0, T1⟩ := H'.period
    obtain ⟨a, ea, ba⟩ := add_mag (exp := exp) bu bv (by norm_num)
    obtain ⟨a', ea', ba'⟩ := half_mag (exp := exp) ba (by norm_num)
    obtain ⟨b, eb, bb⟩ := add_mag (exp := exp) bp bq (by norm_num)
    obtain ⟨b', eb', bb'⟩ := half_mag (exp := exp) bb (by norm_num)
    obtain ⟨c, ec, bc⟩ := mul_mag (exp := exp) bb' bw (by norm_num)
    obtain ⟨d, ed, bd⟩ := half_mag (exp := exp) bc (by norm_num)
    obtain ⟨f, ef, bf⟩ := sub_mag (exp := exp) ba' bd (by norm_num)
    obtain ⟨g, eg, bg⟩ := add_mag (exp := exp) ba' bd (by norm_num)
    have hT : |T| ≤ 1 / 400 := by rw [abs_of_pos (by linarith)]; exact T1
    obtain ⟨h, eh, bh⟩ := mul_mag (exp := exp) bf hT (by norm_num)
    obtain ⟨i, ei, bi⟩ := mul_mag (exp := exp) bg hT (by norm_num)
    have e1 : s'.average (arith exp) (fun s => (arith exp).add ((arith exp).mul s.x.v (L.cos s.theta.x)) ((arith exp).mul s.y.v (L.sin s.theta.x))) =
        .fin a' := by
      show (arith exp).div ((arith exp).add (transVel (arith exp) L s'.current) (transVel (arith exp) L s'.last)) (.fin 2) = _
      rw [eu, ev, ea, ea']
    have e2 : s'.average (arith exp) (fun s => s.theta.v) = .fin b' := by
      show (arith exp).div ((arith exp).add s'.current.theta.v s'.last.theta.v) (.fin 2) = _
      rw [ep, eq, eb, eb']
    unfold Simulator.distance
    dsimp only
    rw [e1, e2, show s'.wheelInterval = .fin w from ew, show s'.period = .fin T from eT, ec, ed, ef, eg, eh, ei]
    exact ⟨⟨h, rfl, bh.trans (by norm_num)⟩, ⟨i, rfl, bi.trans (by norm_num)⟩⟩
  · obtain ⟨t, et, bt⟩ := cc.pt
    obtain ⟨a, ea, ba⟩ := cc.ax
    obtain ⟨b, eb, bb⟩ := cc.ay
    obtain ⟨c, sn, ec, es', hcs⟩ := hL t bt
    obtain ⟨hc1, hs1⟩ := abs_le_of_circle hcs H.eta.2.1
    obtain ⟨m, em, bm⟩ := mul_mag (exp := exp) ba hc1 (by norm_num)
    obtain ⟨n, en, bn⟩ := mul_mag (exp := exp) bb hs1 (by norm_num)
    obtain ⟨σ, eσ, bσ⟩ := add_mag (exp := exp) bm bn (by norm_num)
    refine ⟨σ, ?_, bσ.trans (by norm_num)⟩
    unfold Simulator.transAcc
    rw [et, ea, eb, ec, es', em, en, eσ]

/-! ## Voltages that are not numbers -/

section nan
variable {A : Arith}
theorem nan_sub (z : F) : A.sub .nan z = .nan := by cases z <;> rfl
theorem sub_nan (z : F) : A.sub z .nan = .nan := by cases z <;> rfl
theorem nan_div (z : F) : A.div .nan z = .nan := by cases z <;> rfl
end nan

/-- Position, angle and their velocities are not numbers. -/
def Lost (s : State) : Prop :=
  s.x.x = .nan ∧ s.x.v = .nan ∧ s.y.x = .nan ∧ s.y.v = .nan ∧ s.theta.x = .nan ∧ s.theta.v = .nan

theorem lost_step (A : Arith) {L : Lib} (hs : L.sin .nan = .nan) (hc : L.cos .nan = .nan) (s : Simulator)
    (h1 : s.nextTransVel A L = .nan) (h2 : s.nextRotVel A = .nan) : Lost (s.step A L).current := by
  unfold Lost Simulator.step
  dsimp only
  rw [h1, h2]
  simp only [nan_mul, mul_nan, add_nan, nan_div, hs, hc, and_self]

/-- **C131**, the exception: a voltage that is not a number passes the limit. After the next step, position, angle and velocities are not
numbers, and they never become numbers again, whatever voltages follow. -/
theorem C131_nan (A : Arith) {L : Lib} (hs : L.sin .nan = .nan) (hc : L.cos .nan = .nan) (s : Simulator) (l r : F) (h : l = .nan ∨ r = .nan)
    (es : List SimEvent) : Lost (simEvents A L (.apply l r :: .step :: es) s).current := by
  have hlim : ∀ m : F, limit m .nan = .nan := by
    intro m
    unfold limit
    rw [if_neg (show ¬ m.lt .nan by cases m <;> exact fun h => h), if_neg (show ¬ F.lt .nan m.neg by cases m <;> exact fun h => h)]
  have first : Lost ((s.apply l r).step A L).current := by
    have ha : A.add (s.apply l r).rightVoltage (s.apply l r).leftVoltage = .nan ∧ A.sub (s.apply l r).rightVoltage (s.apply l r).leftVoltage = .nan := by
      show A.add (limit s.maxVoltage r) (limit s.maxVoltage l) = .nan ∧ A.sub (limit s.maxVoltage r) (limit s.maxVoltage l) = .nan
      rcases h with rfl | rfl
      · rw [hlim]; exact ⟨add_nan _ _, sub_nan _⟩
      · rw [hlim]; exact ⟨nan_add _ _, nan_sub _⟩
    refine lost_step A hs hc _ ?_ ?_
    · unfold Simulator.nextTransVel lowPass
      dsimp only
      rw [ha.1, nan_div, mul_nan, mul_nan, add_nan]
    · unfold Simulator.nextRotVel lowPass
      dsimp only
      rw [ha.2, nan_div, mul_nan, mul_nan, add_nan]
  show Lost (simEvents A L es ((s.apply l r).step A L)).current
  generalize (s.apply l r).step A L = s1 at first
  induction es generalizing s1 with
  | nil => exact first
  | cons e es ih =>
    cases e with
    | apply l' r' => exact ih (s1.apply l' r') first
    | step =>
      refine ih (s1.step A L) (lost_step A hs hc _ ?_ ?_)
      · unfold Simulator.nextTransVel lowPass transVel
        dsimp only
        rw [first.2.1, nan_mul, nan_add, nan_mul, nan_add]
      · unfold Simulator.nextRotVel lowPass
        dsimp only
        rw [first.2.2.2.2.2, nan_mul, nan_add]

/-! ## Exact arithmetic -/

/-- The simulator in real numbers as one in floating point numbers. -/
noncomputable def simulatorOf (s : Sim.Simulator) : Simulator :=
  { walls := s.walls, current := stateOf s.current, last := stateOf s.last, rightVoltage := .fin s.rightVoltage, leftVoltage := .fin s.leftVoltage
    maxVoltage := .fin s.maxVoltage, period := .fin s.period, transK := .fin s.transK, transT1 := .fin s.transT1, rotK := .fin s.rotK
    rotT1 := .fin s.rotT1, wheelInterval := .fin s.wheelInterval }

theorem exact_transVel (T : Control.Trig) (pi : ℝ) (s : Control.State) : transVel exact (libOf T pi) (stateOf s) = .fin (Sim.transVel T s) := by
  unfold transVel Sim.transVel
  show exact.add (exact.mul (.fin s.x.v) (.fin (T.cos s.theta.x))) (exact.mul (.fin s.y.v) (.fin (T.sin s.theta.x))) = _
  rw [exact_mul, exact_mul, exact_add]

/-- **C131.** With exact arithmetic and the same trigonometric functions, the simulator is the one in real numbers. -/
theorem C131_model (T : Control.Trig) (pi : ℝ) (s : Sim.Simulator) (hp : s.period ≠ 0) (ht : s.transT1 + s.period ≠ 0)
    (hr : s.rotT1 + s.period ≠ 0) :
    (simulatorOf s).step exact (libOf T pi) = simulatorOf (s.step T) ∧
    (∀ l r, (simulatorOf s).apply (.fin l) (.fin r) = simulatorOf (s.apply l r)) ∧
    (simulatorOf s).distance exact (libOf T pi) = (.fin (s.distance T).1, .fin (s.distance T).2) ∧
    (simulatorOf s).angularVelocity = .fin s.angularVelocity ∧
    (simulatorOf s).transAcc exact (libOf T pi) = .fin (s.transAcc T) ∧
    ∀ W sort pose, (simulatorOf s).distanceFromWall exact (libOf Control.Trig.real pi) W sort (.fin pose.x) (.fin pose.y) (.fin pose.theta) =
      s.distanceFromWall (Convert.Converter.default.convert W sort) W pose := by
  have h2 : (2 : ℝ) ≠ 0 := two_ne_zero
  have cs : ∀ x : ℝ, (libOf T pi).cos (.fin x) = .fin (T.cos x) := fun _ => rfl
  have sn : ∀ x : ℝ, (libOf T pi).sin (.fin x) = .fin (T.sin x) := fun _ => rfl
  have nt : (simulatorOf s).nextTransVel exact (libOf T pi) = .fin (s.nextTransVel T) := by
    unfold Simulator.nextTransVel lowPass Sim.Simulator.nextTransVel
    show exact.add (exact.mul (transVel exact (libOf T pi) (stateOf s.current)) (exact.div (.fin s.transT1) (exact.add (.fin s.transT1) (.fin s.period))))
      (exact.mul (exact.sub (.fin 1) (exact.div (.fin s.transT1) (exact.add (.fin s.transT1) (.fin s.period))))
        (exact.mul (.fin s.transK) (exact.div (exact.add (.fin s.rightVoltage) (.fin s.leftVoltage)) (.fin 2)))) = _
    rw [exact_transVel]
    simp only [exact_add, exact_sub, exact_mul, exact_div _ _ ht, exact_div _ _ h2]
  have nr : (simulatorOf s).nextRotVel exact = .fin s.nextRotVel := by
    unfold Simulator.nextRotVel lowPass Sim.Simulator.nextRotVel
    show exact.add (exact.mul (.fin s.current.theta.v) (exact.div (.fin s.rotT1) (exact.add (.fin s.rotT1) (.fin s.period))))
      (exact.mul (exact.sub (.fin 1) (exact.div (.fin s.rotT1) (exact.add (.fin s.rotT1) (.fin s.period))))
        (exact.mul (.fin s.rotK) (exact.div (exact.sub (.fin s.rightVoltage) (.fin s.leftVoltage)) (.fin 2)))) = _
    simp only [exact_add, exact_sub, exact_mul, exact_div _ _ hr, exact_div _ _ h2]
  refine ⟨?_, ?_, ?_, rfl, ?_, ?_⟩
  · unfold Simulator.step Sim.Simulator.step
    rw [nt, nr]
    simp only [simulatorOf, stateOf, axisStateOf] at *
    have tv := exact_transVel T pi s.current
    simp only [stateOf, axisStateOf] at tv
    simp only [tv, exact_add, exact_sub, exact_mul, exact_div _ _ hp, exact_div _ _ h2, cs, sn]
  · intro l r
    have lim : ∀ m v : ℝ, limit (.fin m) (.fin v) = .fin (Sim.limit m v) := by
      intro m v
      unfold limit Sim.limit
      show (if m < v then _ else if v < -m then _ else _) = _
      split_ifs <;> rfl
    unfold Simulator.apply Sim.Simulator.apply simulatorOf
    simp only [lim]
  · unfold Simulator.distance Sim.Simulator.distance Simulator.average Sim.Simulator.average simulatorOf
    simp only [stateOf, axisStateOf, cs, sn, exact_add, exact_sub, exact_mul, exact_div _ _ h2]
  · unfold Simulator.transAcc Sim.Simulator.transAcc simulatorOf
    simp only [stateOf, axisStateOf, cs, sn, exact_add, exact_mul]
  · intro W sort pose
    unfold Simulator.distanceFromWall Sim.Simulator.distanceFromWall
    rw [C129_model W sort pose pi]
    rfl

end Verif.Props
