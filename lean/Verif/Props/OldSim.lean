import Verif.Spec.OldSim
import Verif.Proof.SimDrift
import Verif.Proof.OldSim
import Verif.Props.OldDetect
/-!
# C106: the former simulator
-/
namespace Verif.Props
open Verif Verif.Spec Verif.Old.Sim Verif.Old.Manager Verif.Old.Search Verif.Proof.OldE Verif.Proof.OldX
open Verif.Old.Detect hiding State
open Verif.Detect (Pose)
open Verif.Convert (Converter)

/-! ## Motion -/

/-- **C106, the same machine.** A step and a call of both motors, in either order, do to the former simulator what they do to the newer one; and encoders and inertial
sensor measure the same. -/
theorem C106_newer (w : Inner) (walls : Walls.Walls) (wheel max : ℝ) :
    asNewer w.step walls wheel max = (asNewer w walls wheel max).step .real ∧
    (∀ l r, asNewer ((w.motor max .left l).motor max .right r) walls wheel max = (asNewer w walls wheel max).apply l r) ∧
    (∀ l r, (w.motor max .left l).motor max .right r = (w.motor max .right r).motor max .left l) ∧
    measures w wheel = sensors .real (asNewer w walls wheel max) ∧ w.step.sx = w.sx ∧ w.step.sy = w.sy := by
  refine ⟨rfl, fun l r => ?_, fun l r => rfl, rfl, rfl, rfl⟩
  rfl

theorem clamp_abs {m v : ℝ} (hm : 0 ≤ m) (w : Inner) : |(w.motor m .right v).rightVoltage| ≤ m ∧ |(w.motor m .left v).leftVoltage| ≤ m :=
  ⟨limit_abs hm, limit_abs hm⟩

/-- **C106, bounded.** Over any history of calls of the motors and the stepper the voltages stay within the limit, the forward speed within the larger of its initial value and gain
times limit, and likewise the turn rate; a robot that does not slide never does. -/
theorem C106_bounded {max : ℝ} (hm : 0 ≤ max) (cs : List InnerCall) : ∀ (w : Inner), 0 < w.period → 0 ≤ w.transT1 → 0 ≤ w.rotT1 → |w.leftVoltage| ≤ max → |w.rightVoltage| ≤ max →
    let w' := innerRun max cs w
    |w'.leftVoltage| ≤ max ∧ |w'.rightVoltage| ≤ max ∧
    |forward w'.current| ≤ Max.max |forward w.current| (|w.transK| * max) ∧
    |w'.current.theta.v| ≤ Max.max |w.current.theta.v| (|w.rotK| * max) ∧ (NoSlide w.current → NoSlide w'.current) := by
  induction cs with
  | nil => intro w _ _ _ hl hr; exact ⟨hl, hr, le_max_left _ _, le_max_left _ _, id⟩
  | cons c cs ih =>
    intro w hp ht hrt hl hr
    cases c with
    | motor side v =>
      cases side with
      | right => exact ih (w.motor max .right v) hp ht hrt hl (clamp_abs hm w).1
      | left => exact ih (w.motor max .left v) hp ht hrt (clamp_abs hm w).2 hr
    | step =>
      obtain ⟨h1, h2, h3, h4, h5⟩ := ih w.step hp ht hrt hl hr
      obtain ⟨-, -, k3, k4⟩ := C56_bounded [.step] (asNewer w (fun _ => 0) 0 max) hm hp ht hrt hl hr
      refine ⟨h1, h2, h3.trans (max_le k3 (le_max_right _ _)), h4.trans (max_le k4 (le_max_right _ _)), fun hn => h5 ?_⟩
      exact (C57_step (asNewer w (fun _ => 0) 0 max) hn hp).2.1

/-! ## Distance sensors -/

variable {W : Nat} {conv : FPose → R (Except ConvError Info)} {see : Pose → Option Seen}

theorem seat_pose (k : Copy) (s : Control.State) (m : Pose) : k.pose s m = aimed (stands s) (seat k m) 0 0 := by
  cases k <;> simp only [Copy.pose, aimed, stands, seat] <;> congr 1 <;> ring

theorem exists_eq {walls : Manager} {real : Old.Wall → Bool} (hb : Built W walls real) {w : Old.Wall} (hw : InMaze W w) :
    spin (fun _ => tryExists exact W (fun _ => false) walls w) 1 0 = .ok (real w) := by
  classical
  obtain ⟨t, prob, h1, h2, h3⟩ := hb
  have := h2 w hw
  have hh : held W [] = fun _ => false := by funext i; simp [held]
  rw [hh] at this
  unfold spin
  unfold tryExists
  rw [this]
  simp only [bind, Except.bind, pure, Except.pure, Option.map_some, h1, reverse]
  have e : (exact.sub (.fin 1) (.fin t)).lt (.fin (prob w)) ↔ real w = true := by
    rw [h3 w hw]
    simp only [Arith.sub, F.neg, Arith.add, exact, F.lt, sub_eq_add_neg]
  simp [e]

/-- **C106, distance.** In a robot at `s` a sensor reads the distance of the wall which the detector would see from there, or beyond it if it does not stand, with the deviation of the copy,
and an error if nothing is seen: never a panic. The copy in the test utilities takes the sensor to sit where the detector does; the published one takes its `x` for the right
and its `y` for the front. -/
theorem C106_distance (hs : Sees W conv see) {walls : Manager} {real : Old.Wall → Bool} (hb : Built W walls real) (w : Inner) (k : Copy) (mount : Pose) :
    ∃ r, w.getDistance k conv W walls mount = .ok r ∧
      r.toOption = (glance k see real w.current mount).map fun r => (.fin r.1, .fin r.2) := by
  classical
  have h := hs (k.pose w.current mount)
  unfold Inner.getDistance glance
  rw [← seat_pose]
  cases hsee : see (k.pose w.current mount) with
  | none =>
    rw [hsee] at h
    obtain ⟨e, h⟩ := h
    simp only [h, bind, Except.bind, pure, Except.pure]
    exact ⟨_, rfl, rfl⟩
  | some e =>
    rw [hsee] at h
    obtain ⟨hin, h⟩ := h
    simp only [h, bind, Except.bind, pure, Except.pure, exists_eq hb hin]
    have hd : (if real e.wall = true then F.fin e.near else F.fin e.far) = F.fin (if real e.wall = true then e.near else e.far) := by split <;> rfl
    cases k with
    | mousesim => exact ⟨_, rfl, by simp only [hd]; rfl⟩
    | utils =>
      rw [hd]
      exact ⟨_, if_neg (by simp [F.isNan]), rfl⟩

/-- All sensors of a robot together. -/
theorem inputs_eq (S : Rig) (hs : Sees S.W S.conv see) {real : Old.Wall → Bool} (hb : Built S.W S.walls real) (w : Inner) (ms : List Mounted) :
    S.inputs w ms = .ok ((ms.map fun m => m.look S.copy see real w.current).map (Look.input S.W)) := by
  induction ms with
  | nil => rfl
  | cons m ms ih =>
    obtain ⟨r, h1, h2⟩ := C106_distance hs hb w S.copy m.mount
    unfold Rig.inputs Rig.input
    rw [h1, ih]
    simp only [bind, Except.bind, pure, Except.pure, List.map_cons, Except.ok.injEq, List.cons.injEq, and_true]
    unfold Look.input Mounted.look
    rw [h2]

/-- **C106, search.** A robot that knows its pose searches any regular maze in the simulator (the copy in the test utilities) with up to six sensors mounted anywhere: the
readings of the simulator are right for the maze at all times, also for sensors that have been waiting, so that all of C91 holds: the memory never says anything wrong, and the commands
returned are a tour through openings. And whatever the deviations of its position, the detector never moves it, and never panics. -/
theorem C106_search {P : Config} {cost : Old.Pattern → Nat} {goal0 : Verif.Run.Node} {rest : List Verif.Run.Node} {real : Old.Wall → Bool} {t : F} {d : Detector}
    (S : Setting P cost real goal0 rest) (h0 : P.start = ⟨0, 0, .north⟩) (ht : GoodThreshold exact t) (hr : Regular P.W real)
    (hs : Sees P.W conv see) {mounts : List Pose} (hm : mounts.length ≤ 6) {c : Commander} {rs : List Reply} (h : SimPatrol P t real conv see mounts d c rs) :
    Patrol P t real conv see d c rs ∧
    (∀ ws, TrueBelief P.W real (belief exact P.W (held P.W ws) d.memory)) ∧
    CommandTour P.W (posBlocked real) P.start (commandsOf rs) c.current ∧
    ∀ (s : Control.State) (sx sy : ℝ) (ms : List Mounted), ms.map Mounted.mount = mounts → (∀ m ∈ ms, m.Fair P.W) →
      ∃ d' σ, detectAndUpdate exact conv P.W d ((ms.map fun m => m.look .utils see real s).map (Look.input P.W)) (stateAt (stands s) sx sy) =
        .ok (d', stateAt (stands s) σ σ) ∧ 0 ≤ σ ∧ σ ≤ |(sx + sy) / 2| := by
  obtain ⟨h1, h2⟩ := simPatrol_inv S.width ht hr hs hm h
  obtain ⟨-, k1, -, k2, -⟩ := C91_search S h0 ht hr hs h1
  obtain ⟨-, -, ⟨g, hd⟩, hsd⟩ := patrol_inv S.width ht hr hs h1
  refine ⟨h1, k1, k2, fun s sx sy ms hms hf => ?_⟩
  have hfair : ∀ l ∈ ms.map (fun m => m.look .utils see real s), l.Fair P.W := by
    intro l hl
    obtain ⟨m, hm', rfl⟩ := List.mem_map.1 hl
    exact look_fair (hf m hm')
  have hlen : (ms.map fun m => m.look .utils see real s).length ≤ 6 := by rw [List.length_map, ← List.length_map Mounted.mount, hms]; exact hm
  obtain ⟨-, k3, k4, -⟩ := looks_still hs (s := s) ms 0 (g.begin sx sy) hf ⟨rfl, rfl⟩ (by
    intro k m hk
    rw [zero_add]
    exact h2 g hd k m.mount (by rw [← hms, List.getElem?_map, hk]; rfl)) (fun w hw => hsd g hd w hw)
  obtain ⟨d', g', hg', e1, -⟩ := C91_call S.width hs hd (hsd g hd).chances hlen hfair (stands s) sx sy
  obtain ⟨d2, x, y, σ, e2, e3, e4⟩ := C91_narrows S.width hs hd (hsd g hd).chances hlen hfair (stands s) sx sy
  rw [← hg'] at k3 k4
  rw [k3, k4, add_zero, add_zero] at e1
  rw [e1] at e2
  simp only [Except.ok.injEq, Prod.mk.injEq, Old.Detect.State.mk.injEq, F.fin.injEq] at e2
  refine ⟨d', σ, ?_, e3, e4⟩
  rw [e1, ← e2.2.2.2.1]
  rfl

/-- What is seen along the first row, in the direction of `x`, from anywhere in the first cell. -/
theorem rightward {W : Nat} (hW : Supported W) : ∃ see, Sees W (convertF Converter.default W demoSort) see ∧
    ∀ x y : ℝ, 3 / 1000 < x → x < 79 / 1000 → 10 / 1000 ≤ y → y ≤ 80 / 1000 → ∃ b, see ⟨x, y, 0⟩ = some ⟨⟨0, 0, false⟩, 87 / 1000 - x, b⟩ := by
  obtain ⟨see, h1, h2⟩ := C90_sees (sw := 9 / 100) (ww := 6 / 1000) (ir := 1 / 100) (il := 8 / 1000) (by norm_num) (by norm_num) hW Verif.Props.demoSort_sorts
  refine ⟨see, h1, fun x y hx hx' hy hy' => ?_⟩
  obtain ⟨b, hb⟩ := C90_complete (ww := 6 / 1000) (ir := 1 / 100) (il := 8 / 1000) default_width (by norm_num) (by norm_num) (by norm_num) hW demoSort_sorts ⟨x, y, 0⟩
    (i := 0) (j := 0) (by norm_num) (by norm_num)
    (by simp only [Box.inside, room, Int.cast_zero]; constructor <;> constructor <;> linarith)
    (a := 87 / 1000 - x) (side := .right)
    (fun q hq => by
      obtain ⟨-, h | h⟩ := hq
      all_goals
        simp only [lineDist, Real.sin_zero, Real.cos_zero, h]
        rw [zero_mul, one_mul, zero_sub, abs_neg]
        push_cast
      · rw [abs_of_pos (by linarith)]; linarith
      · rw [abs_of_neg (by linarith)]; linarith)
    (by
      refine ⟨by linarith, fun t h0 h1 => ?_, fun h => ?_⟩
      · simp only [Box.inside, room, ray, Real.sin_zero, Real.cos_zero, mul_one, mul_zero, Int.cast_zero]
        exact ⟨⟨by linarith, by linarith⟩, by linarith, by linarith⟩
      · simp only [Box.inside, room, ray, Real.sin_zero, Real.cos_zero, mul_one, Int.cast_zero] at h
        linarith [h.1.2])
    (by
      simp only [Box.onSide, room, ray, Real.sin_zero, Real.cos_zero, mul_one, mul_zero, Int.cast_zero]
      exact ⟨by ring, by linarith, by linarith⟩) (by linarith) ⟨0, 0, false⟩ ⟨hW.pos, hW.pos⟩ rfl
  exact ⟨b, (h2 _ _).mpr hb⟩

/-- **C106, finding.** In the published simulator the sensors sit elsewhere than the detector takes them to. A robot in the middle of the first cell, turned to the right, knows its
pose, with any deviations but zero; a sensor 20 mm ahead of its middle looks ahead, at the wall right of the start, which is certain. The detector moves the robot backwards. In the copy
in the test utilities it leaves it where it is. -/
theorem C106_frame {W : Nat} (hW : Supported W) (t : F) {sx sy : ℝ} (hσ : sx + sy ≠ 0) {real : Old.Wall → Bool} (hr : Regular W real) (s : Control.State)
    (hp : stands s = ⟨45 / 1000, 45 / 1000, 0⟩) :
    let m : Mounted := ⟨⟨20 / 1000, 0, 0⟩, [], []⟩
    ∃ see mem, Sees W (convertF Converter.default W demoSort) see ∧ new W t = .ok mem ∧
      (∃ d' δ v, detectAndUpdate exact (convertF Converter.default W demoSort) W (Detector.new mem) [(m.look .mousesim see real s).input W] (stateAt (stands s) sx sy) =
        .ok (d', ⟨.fin (45 / 1000 + δ), .fin (45 / 1000), .fin v, .fin v, 0⟩) ∧ δ < 0) ∧
      ∃ d' v, detectAndUpdate exact (convertF Converter.default W demoSort) W (Detector.new mem) [(m.look .utils see real s).input W] (stateAt (stands s) sx sy) =
        .ok (d', ⟨.fin (45 / 1000), .fin (45 / 1000), .fin v, .fin v, 0⟩) := by
  intro m
  obtain ⟨see, hs, hsee⟩ := rightward hW
  obtain ⟨mem, g, h1, h2, h3, h4, h5⟩ := demo_guess hW t
  have hg : g.prob ⟨0, 0, false⟩ = 1 := by
    have := h5 ⟨0, 0, false⟩ ⟨hW.pos, hW.pos⟩
    rw [show atFirst W ⟨0, 0, false⟩ = .fin 1 by simp [atFirst], F.fin.injEq] at this
    exact this.symm
  have hf : m.Fair W := ⟨by simp [m], by simp [m]⟩
  have ha : aimed ⟨45 / 1000, 45 / 1000, 0⟩ m.mount 0 0 = ⟨65 / 1000, 45 / 1000, 0⟩ := by
    simp only [aimed, m, Real.cos_zero, Real.sin_zero, Pose.mk.injEq]; norm_num
  have ha' : aimed ⟨45 / 1000, 45 / 1000, 0⟩ (seat .mousesim m.mount) 0 0 = ⟨45 / 1000, 25 / 1000, 0⟩ := by
    simp only [aimed, seat, m, Real.cos_zero, Real.sin_zero, Pose.mk.injEq]; norm_num
  obtain ⟨b, hb⟩ := hsee (65 / 1000) (45 / 1000) (by norm_num) (by norm_num) (by norm_num) (by norm_num)
  obtain ⟨b', hb'⟩ := hsee (45 / 1000) (25 / 1000) (by norm_num) (by norm_num) (by norm_num) (by norm_num)
  have key : ∀ (k : Copy) (z : ℝ), glance k see real s m.mount = some (z, k.deviation) → ∃ d' δ v,
      detectAndUpdate exact (convertF Converter.default W demoSort) W (Detector.new mem) [(m.look k see real s).input W] (stateAt (stands s) sx sy) =
        .ok (d', ⟨.fin (45 / 1000 + δ), .fin (45 / 1000), .fin v, .fin v, 0⟩) ∧
      ∀ ε, ε ≠ δ → δ ^ 2 / ((sx + sy) / 2) ^ 2 + (22 / 1000 - δ - z) ^ 2 / k.deviation ^ 2 < ε ^ 2 / ((sx + sy) / 2) ^ 2 + (22 / 1000 - ε - z) ^ 2 / k.deviation ^ 2 := by
    intro k z hz
    obtain ⟨d', δ, v, k1, k2, -⟩ := C91_correction (p := stands s) (sx := sx) (sy := sy) (l := m.look k see real s) (e := ⟨⟨0, 0, false⟩, 87 / 1000 - 65 / 1000, b⟩) hW hs h2 h3
      (look_fair hf) hσ hz (by
        rw [h4, Option.getD_none, hp]
        show see (aimed _ m.mount 0 0) = _
        rw [ha, hb]) (by simp [m, Mounted.look]) (by rw [hg]; unfold Sure; norm_num)
    have hθ : (((g.past 0).getD (stands s)).theta + (m.look k see real s).mount.theta) = 0 := by
      rw [h4, Option.getD_none, hp]
      show (0 : ℝ) + 0 = 0
      norm_num
    rw [hθ, Real.cos_zero, Real.sin_zero, mul_one, mul_zero, add_zero] at k1
    refine ⟨d', δ, Real.sqrt v, ?_, fun ε hε => ?_⟩
    · rw [k1, hp]
    · have := k2 ε hε
      norm_num at this ⊢
      exact this
  refine ⟨see, mem, hs, h1, ?_, ?_⟩
  · obtain ⟨d', δ, v, k1, k2⟩ := key .mousesim (42 / 1000) (by
      unfold glance
      rw [hp, ha', hb']
      simp only [Option.map_some, hr.right, if_true, Option.some.injEq, Prod.mk.injEq, and_true]
      norm_num)
    refine ⟨d', δ, v, k1, ?_⟩
    by_contra hneg
    have hδ : 0 ≤ δ := not_lt.mp hneg
    have hA : 0 < ((sx + sy) / 2) ^ 2 := by positivity
    have hB : (0 : ℝ) < Copy.mousesim.deviation ^ 2 := by norm_num [Copy.deviation]
    generalize ((sx + sy) / 2) ^ 2 = A at k2 hA
    generalize Copy.mousesim.deviation ^ 2 = B at k2 hB
    have hq : 0 < A / (A + B) := by positivity
    have := k2 (-(20 / 1000) * (A / (A + B))) (by nlinarith)
    have e : δ ^ 2 / A + (22 / 1000 - δ - 42 / 1000) ^ 2 / B - ((-(20 / 1000) * (A / (A + B))) ^ 2 / A + (22 / 1000 - -(20 / 1000) * (A / (A + B)) - 42 / 1000) ^ 2 / B) =
        (δ + 20 / 1000 * (A / (A + B))) ^ 2 * (1 / A + 1 / B) := by
      field_simp
      ring
    have : 0 ≤ (δ + 20 / 1000 * (A / (A + B))) ^ 2 * (1 / A + 1 / B) := by positivity
    linarith
  · obtain ⟨d', δ, v, k1, k2⟩ := key .utils (22 / 1000) (by
      unfold glance
      rw [hp]
      show Option.map _ (see (aimed _ m.mount 0 0)) = _
      rw [ha, hb]
      simp only [Option.map_some, hr.right, if_true, Option.some.injEq, Prod.mk.injEq, and_true]
      norm_num)
    have h0 : δ = 0 := by
      by_contra hne
      have := k2 0 (fun h => hne h.symm)
      have : 0 ≤ δ ^ 2 / ((sx + sy) / 2) ^ 2 := by positivity
      have : 0 ≤ (22 / 1000 - δ - 22 / 1000) ^ 2 / Copy.utils.deviation ^ 2 := by positivity
      norm_num at *
      linarith
    rw [h0, add_zero] at k1
    exact ⟨d', v, k1⟩

/-- **C106, built.** Walls read from the drawing of a maze (as in the tests) with a threshold between 0 and 1 are those of this maze. -/
theorem C106_built {W : Nat} (hW : Supported W) {t : ℝ} (h0 : 0 < t) (h1 : t < 1) (real : Old.Wall → Bool) :
    ∃ walls, withStr W (.fin t) (drawing W (posBlocked real)) = .ok walls ∧ Built W walls real := by
  obtain ⟨m, k1, k2, k3⟩ := C89_drawing hW (.fin t) real
  refine ⟨m, k1, t, fun w => if real w = true then 1 else 0, k2, fun w hw => ?_, fun w hw => ?_⟩
  · rw [k3 w hw]
    by_cases h : real w = true <;> simp [h]
  · dsimp only
    by_cases h : real w = true
    · rw [if_pos h]; exact ⟨fun _ => by linarith, fun _ => h⟩
    · rw [if_neg h]; exact ⟨fun h' => absurd h' h, fun h' => by linarith⟩

/-- A search in the simulator, in a maze of width 4: the robot looks to the right in the cells `(0, 0)` and `(1, 0)` with a sensor 10 mm ahead of its middle, one call of it finding the memory busy. -/
example : ∃ d see, Sees 4 (convertF Converter.default 4 demoSort) see ∧
    SimPatrol smallConfig (.fin (1 / 10)) (walled twoWalls) (convertF Converter.default 4 demoSort) see [⟨1 / 100, 0, 0⟩] d (Commander.new smallConfig.start) [] ∧
    Regular smallConfig.W (walled twoWalls) ∧ GoodThreshold exact (.fin (1 / 10)) := by
  have hW : Supported 4 := ⟨2, by decide, rfl⟩
  obtain ⟨see, hs, -⟩ := demo_sees hW
  obtain ⟨m, h1, -⟩ := C89_new hW (.fin (1 / 10))
  have hg : GoodThreshold exact (.fin (1 / 10)) := ⟨⟨1 / 10, rfl, by norm_num, by norm_num, rfl⟩, by show (0 : ℝ) < 1 / 10; norm_num,
    by show (1 : ℝ) + -(1 / 10) < 1; norm_num, by show (1 / 10 : ℝ) ≤ 1 / 2; norm_num⟩
  have hr : Regular smallConfig.W (walled twoWalls) := ⟨walled_closed _, by decide, by decide⟩
  have one : ∀ (d : Detector) (s : Control.State) (sx sy : ℝ) (mo : Mounted), mo.mount = ⟨1 / 100, 0, 0⟩ → mo.Fair 4 →
      SimPatrol smallConfig (.fin (1 / 10)) (walled twoWalls) (convertF Converter.default 4 demoSort) see [⟨1 / 100, 0, 0⟩] d (Commander.new smallConfig.start) [] →
      ∃ d', SimPatrol smallConfig (.fin (1 / 10)) (walled twoWalls) (convertF Converter.default 4 demoSort) see [⟨1 / 100, 0, 0⟩] d' (Commander.new smallConfig.start) [] := by
    intro d s sx sy mo hmo hf h
    obtain ⟨h1, h2⟩ := simPatrol_inv (P := smallConfig) hW hg hr hs (by simp) h
    obtain ⟨-, -, ⟨g, hd⟩, hsd⟩ := patrol_inv (P := smallConfig) hW hg hr hs h1
    obtain ⟨d', g', -, e1, -⟩ := C91_call hW hs hd (hsd g hd).chances (ls := [mo.look .utils see (walled twoWalls) s]) (by simp)
      (fun l hl => by rw [List.mem_singleton.1 hl]; exact look_fair hf) (stands s) sx sy
    exact ⟨d', .detect d d' _ _ s sx sy [mo] _ h (by simp [hmo]) (fun m hm => by rw [List.mem_singleton.1 hm]; exact hf) e1⟩
  obtain ⟨d1, k1⟩ := one (Detector.new m) ⟨⟨45 / 1000, 0, 0⟩, ⟨45 / 1000, 0, 0⟩, ⟨0, 0, 0⟩⟩ (1 / 100) (1 / 100) ⟨⟨1 / 100, 0, 0⟩, [], [⟨0, 0, false⟩]⟩ rfl
    ⟨by simp, by simp [InMaze]⟩ (.start m h1)
  obtain ⟨d2, k2⟩ := one d1 ⟨⟨135 / 1000, 0, 0⟩, ⟨45 / 1000, 0, 0⟩, ⟨0, 0, 0⟩⟩ (1 / 100) (1 / 100) ⟨⟨1 / 100, 0, 0⟩, [], []⟩ rfl ⟨by simp, by simp⟩ k1
  exact ⟨d2, see, hs, k2, hr, hg⟩

end Verif.Props
