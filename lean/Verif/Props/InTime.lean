import Verif.Props.Trial
import Verif.Props.Sees
import Verif.Props.Heads
/-!
# C115: a robot that keeps up with its targets sees the walls in time
-/
namespace Verif.Props
open Verif Verif.Control Verif.Detect Verif.Sim Verif.Spec Verif.Convert Verif.Trial Verif.SearchDriver Verif.Straight Verif.Slalom
open Verif.Search (Coord WallState Searcher SearchState Posture Commander)
open Verif.Grid Verif.WallsP

/-- What the detector is sure of is recorded. -/
def Noted (W : Nat) (d : Detector) (w : Walls.Walls) : Prop :=
  ∀ c, Valid W c → isZero (d (c.asIndex W)) ∨ isOne exact (d (c.asIndex W)) → ∃ b, Walls.wallState W w c = .ok (.checked b)

/-- The walls around the square on the side `p` of the wall position `c` are known. -/
def Around (W : Nat) (ws : Coord → WallState) (c : Coord) (p : Posture) : Prop := ∀ r d, SideAhead c p r d → Valid W d → ws d ≠ .unchecked

theorem extends_checked {W : Nat} {w w' : Walls.Walls} (h : Extends (oracle W w) (oracle W w')) {c : Coord} {b : Bool}
    (hb : Walls.wallState W w c = .ok (.checked b)) : Walls.wallState W w' c = .ok (.checked b) :=
  oracle_checked.1 ((h c (by rw [oracle_checked.2 hb]; simp)).trans (oracle_checked.2 hb))

/-- What the sensors of one round see is recorded after it. -/
theorem look_notes {g : Gear} (hW : Supported g.W) (hs : Sorts g.sort) {s : Simulator} (hm : Reachable g.W s.walls)
    (hf : ∀ c, Valid g.W c → ∃ b, Walls.wallState g.W s.walls c = .ok (.checked b)) (state : State) :
    ∀ (poses : List Pose) (d : Detector) (w : Walls.Walls), Leaning g.W s.walls d → Reachable g.W w → Recorded g.W s.walls w → Noted g.W d w →
      ∃ d' w', g.lookAround s state poses (d, w) = .ok (d', w') ∧ Noted g.W d' w' ∧ Extends (oracle g.W w) (oracle g.W w') ∧
        ∀ pose ∈ poses, ∀ info, g.convert (sensorPose g.T state pose) = some info → ∃ b, Walls.wallState g.W w' info.coord = .ok (.checked b)
  | [], d, w, h1, h2, h3, h4 => ⟨d, w, rfl, h4, extends_refl _, fun _ h => by cases h⟩
  | pose :: rest, d, w, h1, h2, h3, h4 => by
    unfold Gear.lookAround
    dsimp only
    cases hi : g.convert (sensorPose g.T state pose) with
    | none =>
      have : s.distanceFromWall g.convert g.W (sensorPose g.T state pose) = .ok none := by unfold Simulator.distanceFromWall; rw [hi]; rfl
      rw [this]
      obtain ⟨d', w', e1, e2, e3, e4⟩ := look_notes hW hs hm hf state rest d w h1 h2 h3 h4
      refine ⟨d', w', e1, e2, e3, fun p hp info hinfo => ?_⟩
      rcases List.mem_cons.1 hp with rfl | hp
      · rw [hi] at hinfo; cases hinfo
      · exact e4 p hp info hinfo
    | some info =>
      obtain ⟨hv, -⟩ := (C34_good (by norm_num) (by norm_num) hW hs : GoodConverter (Converter.default.convert g.W g.sort) g.W) _ _ hi
      obtain ⟨mean, d', r, e1, e2, hd, hloc, hr⟩ := C66_once hW hs s hm _ info hi d h1
      have e1' : s.distanceFromWall g.convert g.W (sensorPose g.T state pose) = .ok (some (.fin mean, .fin (2 / 1000))) := e1
      have e2' : detectAndUpdate exact g.convert g.W d (.fin mean) (.fin (2 / 1000)) (sensorPose g.T state pose) = .ok (d', r) := e2
      rw [e1']
      simp only [bind, Except.bind]
      rw [e2']
      have hr' : (r = none ∧ d' = d ∧ ∃ b, Walls.wallState g.W w info.coord = .ok (.checked b)) ∨
          ∃ b, Walls.wallState g.W s.walls info.coord = .ok (.checked b) ∧ r = some (info.coord, .checked b) := by
        rcases hr with ⟨h1, h2, h⟩ | ⟨ht, hr⟩ | ⟨ht, hr⟩
        · exact .inl ⟨h1, h2, h4 _ hv h⟩
        · exact .inr ⟨true, ht, hr⟩
        · obtain ⟨b, hb⟩ := hf _ hv
          cases b
          · exact .inr ⟨false, hb, hr⟩
          · exact absurd hb ht
      rcases hr' with ⟨rfl, rfl, b, hb⟩ | ⟨b, hb, rfl⟩
      · obtain ⟨d2, w2, k1, k2, k3, k4⟩ := look_notes hW hs hm hf state rest d' w h1 h2 h3 h4
        refine ⟨d2, w2, k1, k2, k3, fun p hp info' hinfo => ?_⟩
        rcases List.mem_cons.1 hp with rfl | hp
        · rw [hi] at hinfo; cases hinfo
          exact ⟨b, extends_checked k3 hb⟩
        · exact k4 p hp info' hinfo
      · obtain ⟨w', f1, f2, f3, f4⟩ := update_true hW h2 h3 hv hb
        have hnew : Walls.wallState g.W w' info.coord = .ok (.checked b) := by
          obtain ⟨w'', u1, u2⟩ := update_eq (W := g.W) (w := w) (asIndex_lt_que hW hv) (.checked b)
          rw [f1] at u1
          cases u1
          rw [wallState_eq (asIndex_lt_que hW hv), u2, if_pos rfl, decode_bits]
        have hn' : Noted g.W d' w' := by
          intro c hc hset
          by_cases he : c = info.coord
          · subst he; exact ⟨b, hnew⟩
          · rw [hloc _ fun h => he (asIndex_inj hW hc hv h)] at hset
            obtain ⟨b', hb'⟩ := h4 c hc hset
            exact ⟨b', extends_checked f4 hb'⟩
        obtain ⟨d2, w2, k1, k2, k3, k4⟩ := look_notes hW hs hm hf state rest d' w' hd f2 f3 hn'
        refine ⟨d2, w2, ?_, k2, extends_trans f4 k3, fun p hp info' hinfo => ?_⟩
        · simp only [f1]
          exact k1
        · rcases List.mem_cons.1 hp with rfl | hp
          · rw [hi] at hinfo; cases hinfo
            exact ⟨b, extends_checked k3 hnew⟩
          · exact k4 p hp info' hinfo

variable {g : Gear} {maze : Walls.Walls}

/-- A round that goes on. -/
theorem turn_notes (hW : Supported g.W) (hs : Sorts g.sort) (hm : Reachable g.W maze)
    (hf : ∀ c, Valid g.W c → ∃ b, Walls.wallState g.W maze c = .ok (.checked b)) {m : Trial} (h : Sighted g.W maze m) (hn : Noted g.W m.detector m.walls)
    {t : Target} {lp lp' : Loop} (ht : track g.T m.loop = .ok (t, lp)) (hd : decideNext g.config g.W g.searcher (oracle g.W m.walls) lp = .ok (some lp')) :
    ∃ m', g.turn m = .ok (true, m') ∧ m'.loop = lp' ∧ Noted g.W m'.detector m'.walls ∧ ∀ pose ∈ g.poses, ∀ info,
      g.convert (sensorPose g.T (m.estimator.estimate g.T m.state (sensed g.T m.simulator)).2 pose) = some info →
        ∃ b, Walls.wallState g.W m'.walls info.coord = .ok (.checked b) := by
  unfold Gear.turn
  dsimp only
  rw [asking_eq hW h.map, ht]
  simp only [bind, Except.bind, pure, Except.pure]
  rw [hd]
  dsimp only
  obtain ⟨hsim, hmap, hl, hr⟩ := h
  subst hsim
  generalize hv : Simulator.apply m.simulator _ _ = s
  have hsw : s.walls = m.simulator.walls := by rw [← hv]; rfl
  rw [← hsw] at hm hf hl hr
  obtain ⟨d', w', k1, k2, -, k4⟩ := look_notes hW hs hm hf (m.estimator.estimate g.T m.state (sensed g.T m.simulator)).2 g.poses m.detector m.walls hl hmap hr hn
  rw [k1]
  exact ⟨_, rfl, rfl, k2, k4⟩

theorem after_step : ∀ {n : Nat} {m x m' : Trial}, g.go n m = .ok (true, x) → g.turn x = .ok (true, m') →
    g.go (n + 1) m = .ok (true, m') ∧ after g m (n + 1) = m'
  | 0, m, x, m', h, ht => by
    cases h
    refine ⟨?_, by rw [after, ht]; rfl⟩
    unfold Gear.go
    rw [ht]
    rfl
  | n + 1, m, x, m', h, ht => by
    unfold Gear.go at h
    unfold Gear.go after
    cases hm : g.turn m with
    | error e => rw [hm] at h; cases h
    | ok y =>
      obtain ⟨on, m1⟩ := y
      rw [hm] at h
      cases on
      · cases h
      · exact after_step (n := n) h ht

variable {c : SearchConfig} {W : Nat}

theorem rounds_pred {T : Trig} {searcher : Searcher} {ws : Nat → Coord → WallState} : ∀ {n i : Nat} {lp lp2 : Loop} {l : List Target},
    rounds T c W searcher ws (n + 1) i lp = .ok (l, some lp2) → ∃ l0 lp0 t lp1, rounds T c W searcher ws n i lp = .ok (l0, some lp0) ∧
      track T lp0 = .ok (t, lp1) ∧ decideNext c W searcher (ws (i + n)) lp1 = .ok (some lp2) ∧ l = l0 ++ [t]
  | 0, i, lp, lp2, l, h => by
    rw [rounds_succ] at h
    cases h1 : track T lp with
    | error => rw [h1] at h; cases h
    | ok x =>
      rw [h1] at h
      simp only [bind, Except.bind] at h
      cases h2 : decideNext c W searcher (ws i) x.2 with
      | error => rw [h2] at h; cases h
      | ok y =>
        rw [h2] at h
        cases y with
        | none => cases h
        | some y =>
          cases h
          exact ⟨[], lp, x.1, x.2, rfl, h1, h2, rfl⟩
  | n + 1, i, lp, lp2, l, h => by
    rw [rounds_succ] at h
    rw [rounds_succ]
    cases h1 : track T lp with
    | error => rw [h1] at h; cases h
    | ok x =>
      rw [h1] at h
      simp only [bind, Except.bind] at h ⊢
      cases h2 : decideNext c W searcher (ws i) x.2 with
      | error => rw [h2] at h; cases h
      | ok y =>
        rw [h2] at h
        cases y with
        | none => cases h
        | some y =>
          dsimp only at h ⊢
          cases h3 : rounds T c W searcher ws (n + 1) (i + 1) y with
          | error => rw [h3] at h; cases h
          | ok z =>
            rw [h3] at h
            obtain ⟨z1, z2⟩ := z
            cases h
            obtain ⟨l0, lp0, t, lp1, k1, k2, k3, rfl⟩ := rounds_pred h3
            exact ⟨x.1 :: l0, lp0, t, lp1, by rw [k1], k2, by rwa [show i + (n + 1) = i + 1 + n by omega], rfl⟩

/-! ## Squares -/

theorem opposite_opposite (p : Posture) : opposite (opposite p) = p := by cases p <;> rfl

theorem side_self (s : SearchState) : SideAhead s.coord (opposite s.posture) s.posture s.coord := by
  obtain ⟨c, p⟩ := s
  cases p <;> simp [SideAhead, opposite, cw, vec]

theorem side_back {c d : Coord} {p : Posture} (h : SideAhead c p (opposite p) d) : d = c := by
  obtain ⟨x, y⟩ := c
  obtain ⟨x', y'⟩ := d
  obtain ⟨h1, h2⟩ := h
  cases p <;> simp only [opposite, cw, vec] at h1 h2 <;> simp only [Coord.mk.injEq] <;> omega

/-- The square behind the robot after a move. -/
theorem around_update (hW : Supported W) {s s' : SearchState} (hs : Consistent W s) {next : Coord} (ha : Adjacent W s.coord next) {k : Search.TrajectoryKind}
    (hu : s.update next = .ok (s', some k)) {ws : Coord → WallState} (h : Around W ws s.coord s.posture) : Around W ws s'.coord (opposite s'.posture) := by
  obtain ⟨h1, h2, -, h4⟩ := C21_update hW hs.1 hs.2 ha.2.1
  rcases h4.1 ha with ⟨q, hq, hsa⟩ | ⟨q, hq, hsa⟩
  · obtain ⟨e, -⟩ := h1 q hq hsa
    rw [hu] at e
    simp only [Except.ok.injEq, Prod.mk.injEq] at e
    rw [e.1]
    intro r d hd hv
    refine h r d ?_ hv
    obtain ⟨a1, a2⟩ := hsa
    obtain ⟨b1, b2⟩ := hd
    dsimp only at b1 b2
    constructor
    · rw [b1, a1]; cases q <;> simp only [opposite, cw, vec] <;> ring
    · rw [b2, a2]; cases q <;> simp only [opposite, cw, vec] <;> ring
  · obtain ⟨e, -⟩ := h2 q hq hsa
    rw [hu] at e
    simp only [Except.ok.injEq, Prod.mk.injEq] at e
    rw [e.1, opposite_opposite]
    exact h

theorem around_adjacent (hW : Supported W) {s : SearchState} (hs : Consistent W s) {ws : Coord → WallState} (h1 : Around W ws s.coord s.posture)
    (h2 : Around W ws s.coord (opposite s.posture)) {x : Coord} (ha : Adjacent W s.coord x) : ws x ≠ .unchecked := by
  obtain ⟨-, -, -, h4⟩ := C21_update hW hs.1 hs.2 ha.2.1
  rcases h4.1 ha with ⟨q, -, hsa⟩ | ⟨q, -, hsa⟩
  · exact h1 q x hsa ha.2.1
  · exact h2 q x hsa ha.2.1

theorem around_extends {ws ws' : Coord → WallState} (h : Extends ws ws') {x : Coord} {p : Posture} (ha : Around W ws x p) : Around W ws' x p := by
  intro r d hd hv
  have := ha r d hd hv
  rwa [h d this]

/-! ## What is known when -/

theorem gap_abs {t t' : Target} {e : ℝ} (h : gap t t' ≤ e) : |t'.x.x - t.x.x| ≤ e ∧ |t'.y.x - t.y.x| ≤ e := by
  unfold gap at h
  exact ⟨(Real.abs_le_sqrt (by nlinarith [sq_nonneg (t'.y.x - t.y.x)])).trans h, (Real.abs_le_sqrt (by nlinarith [sq_nonneg (t'.x.x - t.x.x)])).trans h⟩

/-- The last target but one is two steps away from the end. -/
theorem before_last (hc : SearchOk c) {known : Coord → Prop} {s : SearchState} {l : List Target} {t t2 : Target}
    (hT : Tour c W known s (l ++ [t, t2])) (hS : Steps (searchStep c) (searchGain c) (l ++ [t, t2])) :
    |(poseOfSearch s c.squareWidth c.frontOffset).x - t.x.x| ≤ 2 * searchStep c ∧ |(poseOfSearch s c.squareWidth c.frontOffset).y - t.y.x| ≤ 2 * searchStep c := by
  obtain ⟨u, u1, u2⟩ := tour_last hc hT
  have e : u = t2 := by
    rw [List.getLast?_append] at u1
    simp at u1
    exact u1.symm
  subst e
  generalize poseOfSearch s c.squareWidth c.frontOffset = q at u2
  obtain ⟨x, y, θ⟩ := q
  have hg := (u2 ⟨⟨x, c.gen.vMax * Real.cos θ, 0, 0⟩, ⟨y, c.gen.vMax * Real.sin θ, 0, 0⟩, ⟨θ, 0, 0, 0⟩⟩ ⟨rfl, rfl, rfl⟩ (by
    have := Real.sin_sq_add_cos_sq θ
    unfold body Spec.rotate
    simp only [Real.cos_neg, Real.sin_neg, Prod.mk.injEq]
    constructor
    · linear_combination c.gen.vMax * this
    · ring)).1
  obtain ⟨a1, a2⟩ := gap_abs hg
  have hs' : gap t u ≤ searchStep c := by
    have := (List.isChain_append.1 hS).2.1
    simp at this
    exact this.1
  obtain ⟨b1, b2⟩ := gap_abs hs'
  rw [abs_le] at a1 a2 b1 b2
  dsimp only at *
  exact ⟨abs_le.2 ⟨by linarith, by linarith⟩, abs_le.2 ⟨by linarith, by linarith⟩⟩

/-- What holds between two rounds of the test, besides what holds between two rounds of its driver. -/
structure Watch (g : Gear) (goals : List Coord) (m : Trial) (n : Nat) (l : List Target) (lp : Loop) (s : SearchState) (rest : List Target) : Prop where
  inv : Inv g.config g.W goals (fun _ => True) l lp s rest
  heads : ∃ z : ℤ, Heads ((poseOfSearch s g.config.squareWidth g.config.frontOffset).theta + 2 * Real.pi * z) (l ++ rest)
  behind : Around g.W (recorded g m n) s.coord (opposite s.posture)
  ahead : rest.length ≤ 1 → Around g.W (recorded g m n) s.coord s.posture

theorem heads_tail {θ : ℝ} {t : Target} {l : List Target} (h : Heads θ (t :: l)) (hl : 2 ≤ l.length) : Heads θ l := by
  obtain ⟨l0, t1, t2, e, h1, h2⟩ := h
  cases l0 with
  | nil => cases e; simp at hl
  | cons x l0 => cases e; exact ⟨l0, t1, t2, rfl, h1, h2⟩

theorem start_heads (hc : SearchOk c) {goals : List Coord} {known : Coord → Prop} {rest : List Target}
    (I : Inv c W goals known [] c.start ⟨⟨0, 1⟩, .north⟩ rest) (hlen : 0.49 * c.squareWidth ≤ rest.length * searchStep c) :
    Heads ((poseOfSearch ⟨⟨0, 1⟩, .north⟩ c.squareWidth c.frontOffset).theta + 2 * Real.pi * (0 : ℤ)) rest := by
  obtain ⟨l, h1, -⟩ := up_drive hc
  have h2 : Produces (shiftNext .real c.start.trajectory.1 (Move.next .real)) c.start.trajectory.2 (l.map (Straight.shift .real c.start.trajectory.1)) :=
    produces_shift (fun n => (move_straight .real n _).trans (h1 n)) _
  obtain rfl := produces_unique I.left h2
  rw [List.length_map] at hlen
  have h3 := Heads.shift (Heads.of_all (straight_heading h1) (by have := long_four hc hlen; omega)) c.start.trajectory.1
  have e : degree 90 = Real.pi / 2 := by unfold degree; ring
  simpa [poseOfSearch, SearchConfig.start, e] using h3

/-- A new trajectory ends with the heading of its end. -/
theorem leg_start_heads (hc : SearchOk c) (hW : Supported W) {goals : List Coord} {known : Coord → Prop} {l : List Target} {lp lp' : Loop} {s : SearchState}
    {t : Target} {rest' : List Target} (I : Inv c W goals known l lp s []) (hne : lp.next ≠ none) (ht : track .real lp = .ok (t, lp'))
    (I' : Inv c W goals known (l ++ [t]) lp' lp.robot rest') (hlen : 2 ≤ rest'.length) :
    ∃ z : ℤ, Heads ((poseOfSearch lp.robot c.squareWidth c.frontOffset).theta + 2 * Real.pi * z) (l ++ [t] ++ rest') := by
  rcases I.plan with ⟨p1, -⟩ | ⟨-, next, k, p2, -, p4, p5⟩
  · exact absurd p1 hne
  · have e0 := produces_nil I.left
    obtain ⟨l', -, k1, -⟩ := leg_next hc hW I.state p4 p5
    obtain ⟨z, hz⟩ := next_heads hc hW I.state p4 p5 k1
    unfold track at ht
    generalize shiftNext .real lp.trajectory.1 (Move.next .real) lp.trajectory.2 = y at e0 ht
    obtain ⟨a, b⟩ := y
    cases e0
    rw [p2] at ht
    dsimp only at ht
    have hl := I'.left
    cases l' with
    | nil => obtain ⟨l0, t1, t2, e, -⟩ := hz; simp at e
    | cons u l' =>
      obtain ⟨f1, f2⟩ := produces_cons k1
      generalize shiftNext .real (poseOfSearch s c.squareWidth c.frontOffset) (Move.next .real) (c.move k) = y at f1 f2 ht
      obtain ⟨a, b'⟩ := y
      cases f1
      cases ht
      dsimp only at hl f2
      obtain rfl := produces_unique hl f2
      exact ⟨z, Heads.append (heads_tail hz hlen)⟩

/-- The walls around the square ahead are seen in the round that commands the last target but one. -/
theorem seen_ahead {fo : ℝ} (f0 : 0 ≤ fo) (f1 : fo ≤ 0.01) (hW : Supported g.W) (hs : Sorts g.sort) (hT : g.T = .real) (hcfg : g.config = Trial.config fo)
    (hposes : g.poses = Trial.poses) {known : Coord → Prop} {s : SearchState} (hcs : Consistent g.W s) {l : List Target} {t t2 : Target}
    (hTo : Tour g.config g.W known s (l ++ [t, t2])) (hS : Steps (searchStep g.config) (searchGain g.config) (l ++ [t, t2])) {z : ℤ}
    (hh : Heads ((poseOfSearch s g.config.squareWidth g.config.frontOffset).theta + 2 * Real.pi * z) (l ++ [t, t2])) (st : State)
    (hx : |st.x.x - t.x.x| ≤ 0.001) (hy : |st.y.x - t.y.x| ≤ 0.001) (hθ : ∃ k : ℤ, |st.theta.x - t.theta.x - 2 * Real.pi * k| ≤ 1 / 40)
    {r : Posture} (hr : r ≠ opposite s.posture) {d : Coord} (hd : SideAhead s.coord s.posture r d) (hv : Valid g.W d) :
    ∃ pose ∈ g.poses, ∃ info, g.convert (sensorPose g.T st pose) = some info ∧ info.coord = d := by
  have hok : SearchOk g.config := by rw [hcfg, config_eq]; exact test_search f0 f1
  obtain ⟨q1, q2⟩ := before_last hok hTo hS
  have hθ' : t.theta.x = (poseOfSearch s g.config.squareWidth g.config.frontOffset).theta + 2 * Real.pi * z := by
    obtain ⟨l0, t1, t2', e, h1, -⟩ := hh
    have := List.append_inj' e rfl
    simp only [List.cons.injEq] at this
    rw [this.2.1]; exact h1
  have hstep : 2 * searchStep g.config ≤ 0.00062 := by
    rw [hcfg]
    unfold searchStep Trial.config
    norm_num
  have hsq : g.config.squareWidth = 0.09 := by rw [hcfg]; rfl
  have hfo : g.config.frontOffset = fo := by rw [hcfg]; rfl
  rw [hsq, hfo] at q1 q2 hθ'
  obtain ⟨k, hk⟩ := hθ
  rw [hposes, hT]
  rw [abs_le] at q1 q2 hx hy
  refine C115_sees hW hs hcs.1 hcs.2 f0 (by linarith) st (abs_le.2 ⟨by linarith, by linarith⟩) (abs_le.2 ⟨by linarith, by linarith⟩) (z + k) ?_ hr hd hv
  rw [hθ'] at hk
  convert hk using 2
  push_cast
  ring

/-- The invariant holds between all rounds. -/
theorem watch_all {fo : ℝ} (f0 : 0 ≤ fo) (f1 : fo ≤ 0.01) (hT : g.T = .real) (hcfg : g.config = Trial.config fo) (hposes : g.poses = Trial.poses)
    {goals : List Coord} (hr : Request g.W ⟨0, 1⟩ goals) (hn : Searcher.new g.W ⟨0, 1⟩ goals = .ok g.searcher) (hs : Sorts g.sort) (hm : Reachable g.W maze)
    (hf : ∀ c, Valid g.W c → ∃ b, Walls.wallState g.W maze c = .ok (.checked b)) {m : Trial} (h : Sighted g.W maze m) (hl : m.loop = g.config.start)
    (hnoted : Noted g.W m.detector m.walls) (ho : ∃ b, Walls.wallState g.W m.walls ⟨0, 1⟩ = .ok (.checked b))
    (hright : ∃ b, Walls.wallState g.W m.walls ⟨1, 0⟩ = .ok (.checked b)) (hk : KeepsUp g m 0.001 (1 / 40)) :
    ∀ n l lp, rounds .real g.config g.W g.searcher (recorded g m) n 0 g.config.start = .ok (l, some lp) →
      g.go n m = .ok (true, after g m n) ∧ (after g m n).loop = lp ∧ Noted g.W (after g m n).detector (after g m n).walls ∧
      ∃ s rest, Watch g goals m n l lp s rest := by
  have hok : SearchOk g.config := by rw [hcfg, config_eq]; exact test_search f0 f1
  intro n
  induction n with
  | zero =>
    intro l lp hrd
    cases hrd
    refine ⟨rfl, hl, hnoted, ⟨⟨0, 1⟩, .north⟩, ?_⟩
    obtain ⟨rest, I, hlen⟩ := inv_start hok hr (fun _ => True)
    refine ⟨rest, I, ⟨0, start_heads hok I hlen⟩, ?_, fun h1 => by have := long_four hok hlen; omega⟩
    intro r d hd hv
    obtain ⟨x, y⟩ := d
    obtain ⟨d1, d2⟩ := hd
    obtain ⟨b, hb⟩ := ho
    obtain ⟨b', hb'⟩ := hright
    have : (x = 0 ∧ y = 1) ∨ (x = 1 ∧ y = 0) := by
      cases r <;> simp only [opposite, cw, vec] at d1 d2 <;> omega
    rcases this with ⟨rfl, rfl⟩ | ⟨rfl, rfl⟩
    · show oracle g.W m.walls _ ≠ _
      rw [oracle_checked.2 hb]; simp
    · show oracle g.W m.walls _ ≠ _
      rw [oracle_checked.2 hb']; simp
  | succ n ih =>
    intro l lp2 hrd
    obtain ⟨l0, lp, t, lp1, k1, k2, k3, rfl⟩ := rounds_pred hrd
    rw [Nat.zero_add] at k3
    obtain ⟨a1, a2, a3, s, rest, Wt⟩ := ih l0 lp k1
    obtain ⟨x1, x2⟩ := after_sighted hr.width hs hm hf n h
    have hor : recorded g m n = oracle g.W (after g m n).walls := rfl
    have hex : Extends (recorded g m n) (recorded g m (n + 1)) := x2
    have k2' : track g.T (after g m n).loop = .ok (t, lp1) := by rw [hT, a2]; exact k2
    rw [hor] at k3
    obtain ⟨m', b1, b2, b3, b4⟩ := turn_notes hr.width hs hm hf x1 a3 k2' k3
    obtain ⟨c1, c2⟩ := after_step a1 b1
    rw [c2]
    refine ⟨c1, b2, b3, ?_⟩
    have hor' : recorded g m (n + 1) = oracle g.W m'.walls := by
      unfold recorded; rw [c2]; rfl
    rcases track_inv hok hr Wt.inv with ⟨t', rest', lp', e, q1, q2, q3, q4, q5⟩ | ⟨e, hne, t', rest', lp', q1, q2, q3, q4, q5, q6⟩ | ⟨-, -, q1⟩
    · rw [k2] at q1
      cases q1
      subst e
      rcases decide_inv hr hn (ws := oracle g.W (after g m n).walls) (fun _ _ => trivial) q5 with ⟨lp', d1, d2⟩ | ⟨d1, -⟩ | ⟨d1, -⟩
      · rw [k3] at d1
        cases d1
        refine ⟨s, rest', d2, by simpa using Wt.heads, around_extends hex Wt.behind, fun hlen => ?_⟩
        cases rest' with
        | nil => exact around_extends hex (Wt.ahead (by simp))
        | cons t2 rest' =>
          have : rest' = [] := by
            cases rest' with
            | nil => rfl
            | cons => simp at hlen
          subst this
          obtain ⟨z, hz⟩ := Wt.heads
          have hlast : LastLeft g.T lp1 := by
            rw [hT]
            obtain ⟨f1, f2⟩ := produces_cons q5.left
            exact ⟨t2, _, Prod.ext f1 rfl, produces_nil f2⟩
          obtain ⟨y1, y2, y3⟩ := hk n _ t lp1 a1 k2' hlast
          intro r d hd hv
          by_cases hrp : r = opposite s.posture
          · subst hrp
            obtain rfl := side_back hd
            exact around_extends hex Wt.behind _ _ (side_self s) hv
          · obtain ⟨pose, hpose, info, e1, rfl⟩ := seen_ahead f0 f1 hr.width hs hT hcfg hposes Wt.inv.state Wt.inv.tour Wt.inv.steps hz _ y1 y2 y3 hrp hd hv
            obtain ⟨b, hb⟩ := b4 pose hpose info e1
            rw [hor', oracle_checked.2 hb]
            simp
      · rw [k3] at d1; cases d1
      · rw [k3] at d1; cases d1
    · rw [k2] at q1
      cases q1
      subst e
      have hlen : 3 ≤ rest'.length := by
        have := long_four hok (n := rest'.length + 1) (by push_cast; exact q6)
        omega
      rcases decide_inv hr hn (ws := oracle g.W (after g m n).walls) (fun _ _ => trivial) q5 with ⟨lp', d1, d2⟩ | ⟨d1, -⟩ | ⟨d1, -⟩
      · rw [k3] at d1
        cases d1
        refine ⟨lp.robot, rest', d2, leg_start_heads hok hr.width Wt.inv hne k2 q5 (by omega), ?_, fun h1 => by omega⟩
        rcases Wt.inv.plan with ⟨p1, -⟩ | ⟨-, next, k, -, -, p4, p5⟩
        · exact absurd p1 hne
        · exact around_extends hex (around_update hr.width Wt.inv.state p4 p5 (Wt.ahead (by simp)))
      · rw [k3] at d1; cases d1
      · rw [k3] at d1; cases d1
    · rw [k2] at q1; cases q1

/-- **C115, in time.** If in every round that commands the last target but one of a trajectory the robot takes itself to be within a millimetre and a fortieth
of a radian of that target, the sensors of the test see the walls in time, in every maze. -/
theorem C115_punctual {fo : ℝ} (f0 : 0 ≤ fo) (f1 : fo ≤ 0.01) (hT : g.T = .real) (hcfg : g.config = Trial.config fo) (hposes : g.poses = Trial.poses)
    {goals : List Coord} (hr : Request g.W ⟨0, 1⟩ goals) (hn : Searcher.new g.W ⟨0, 1⟩ goals = .ok g.searcher) (hs : Sorts g.sort) (hm : Reachable g.W maze)
    (hf : ∀ c, Valid g.W c → ∃ b, Walls.wallState g.W maze c = .ok (.checked b)) {m : Trial} (h : Sighted g.W maze m) (hl : m.loop = g.config.start)
    (hnoted : Noted g.W m.detector m.walls) (ho : ∃ b, Walls.wallState g.W m.walls ⟨0, 1⟩ = .ok (.checked b))
    (hright : ∃ b, Walls.wallState g.W m.walls ⟨1, 0⟩ = .ok (.checked b)) (hk : KeepsUp g m 0.001 (1 / 40)) :
    Punctual g.config g.W g.searcher (recorded g m) := by
  have hok : SearchOk g.config := by rw [hcfg, config_eq]; exact test_search f0 f1
  intro n l lp t lp' cmd hrd ht hend hcmd hnone
  obtain ⟨-, -, -, s, rest, Wt⟩ := watch_all f0 f1 hT hcfg hposes hr hn hs hm hf h hl hnoted ho hright hk n l lp hrd
  rcases track_inv hok hr Wt.inv with ⟨t', rest', lp1, e, q1, q2, q3, q4, q5⟩ | ⟨-, -, t', rest', lp1, q1, q2, q3, -⟩ | ⟨-, -, q1⟩
  · rw [ht] at q1
    cases q1
    have : rest' = [] := by
      cases rest' with
      | nil => rfl
      | cons u v =>
        have := (produces_cons q5.left).1
        rw [hend] at this
        cases this
    subst this
    subst e
    obtain ⟨before, x, aft, e1, e2, -⟩ := (C20_next_coordinate cmd _).2.1.1 hnone
    rcases q5.plan with ⟨-, -, p⟩ | ⟨p, -⟩
    · obtain ⟨ws, hws⟩ := p cmd hcmd
      obtain ⟨-, -, hcand, -⟩ := C18_candidates hr q5.state.1 ws cmd hws
      have ha := ((hcand x).1 (by rw [e1]; simp)).1
      exact around_adjacent hr.width q5.state (Wt.ahead (by simp)) Wt.behind ha e2
    · rw [hcmd] at p; cases p
  · rw [ht] at q1
    cases q1
    rw [hcmd] at q3
    cases q3
  · rw [ht] at q1; cases q1

/-- Nothing is sure for a new detector. -/
theorem noted_new (W : Nat) (w : Walls.Walls) : Noted W Detect.new w := by
  intro c _ h
  refine absurd h ((open_iff (1 / 2) (by norm_num) (by norm_num)).2 ⟨?_, ?_⟩) <;> have := eps_small <;> linarith

/-- **C115, `test_search`.** On every maze whose first square is not a dead end, for all goals and every offset up to 10 mm: if the robot keeps up with its targets at
the ends of the trajectories, the test passes after finitely many rounds when a goal can be reached, and panics when not. -/
theorem C115_passes {W : Nat} (hW : Supported W) (h2 : 2 ≤ W) {goals : List Coord} (hg : ∀ c ∈ goals, Valid W c) (pi : ℝ)
    {sort : List (Dir × F) → List (Dir × F)} (hs : Sorts sort) {text : List Char} (ht : Walls.fromStr W text = .ok (.ok maze)) (hm : MazeMap W maze)
    {fo : ℝ} (h0 : 0 ≤ fo) (h1 : fo ≤ 0.01) (hout : ∃ x, Adjacent W ⟨0, 1⟩ x ∧ Walls.wallState W maze x = .ok (.checked false))
    (hk : ∀ w searcher, Walls.new W = .ok w → Searcher.new W ⟨0, 1⟩ goals = .ok searcher →
      KeepsUp (gear .real pi W sort searcher fo) (initial w maze fo) 0.001 (1 / 40)) :
    ∃ N, ∀ n, N ≤ n →
      (Solvable W maze goals → wholeTest .real pi W sort n text (goals.map fun c => (c.x, c.y)) fo = .ok (some ())) ∧
      (¬ Solvable W maze goals → wholeTest .real pi W sort n text (goals.map fun c => (c.x, c.y)) fo = .error .unreachable) := by
  refine C114_passes hW h2 hg pi hs ht hm h0 h1 hout fun w searcher hw hn => ?_
  have hv : Valid W ⟨0, 1⟩ := ⟨by show 0 < 2 * W; omega, by show 1 < 2 * W; omega, rfl⟩
  have hv' : Valid W ⟨1, 0⟩ := ⟨by show 1 < 2 * W; omega, by show 0 < 2 * W; omega, rfl⟩
  obtain ⟨w', hw', hnew⟩ := C04_new hW h2
  rw [hw] at hw'
  cases hw'
  exact C115_punctual (g := gear .real pi W sort searcher fo) h0 h1 rfl rfl rfl ⟨hW, hv, hg⟩ hn hs (.parsed ht) hm.full (initial_sighted hW h2 hw hm fo) rfl
    (noted_new W w) ⟨_, (hnew _ hv).2.1.2 rfl⟩ ⟨_, (hnew _ hv').1.2 (.inr (.inr rfl))⟩ (hk w searcher hw hn)

/-- At the end of the first move, half a millimetre to the left and a hundredth of a radian askew, all three walls are seen. -/
example (sort : List (Dir × F) → List (Dir × F)) (hs : Sorts sort) (d : Coord) (hd : d ∈ [(⟨0, 3⟩ : Coord), ⟨1, 2⟩]) :
    ∃ pose ∈ Trial.poses, ∃ info, Converter.default.convert 16 sort
      (Trial.sensorPose .real ⟨⟨0.0445, 0, 0⟩, ⟨0.1, 0.3, 0⟩, ⟨Real.pi / 2 + 1 / 100, 0, 0⟩⟩ pose) = some info ∧ info.coord = d := by
  obtain ⟨r, hr, hsa, hv⟩ : ∃ r : Posture, r ≠ .south ∧ SideAhead ⟨0, 1⟩ .north r d ∧ Valid 16 d := by
    simp only [List.mem_cons, List.not_mem_nil, or_false] at hd
    rcases hd with rfl | rfl
    · exact ⟨.north, by decide, by simp [SideAhead, vec], by decide⟩
    · exact ⟨.east, by decide, by simp [SideAhead, vec], by decide⟩
  refine C115_sees (s := ⟨⟨0, 1⟩, .north⟩) (fo := 0.01) ⟨4, by omega, rfl⟩ hs (by decide) (by simp [Faces, vec]) (by norm_num) (by norm_num) _ ?_ ?_ 0 ?_ hr hsa hv
  all_goals
    simp [poseOfSearch, deg_right]
    norm_num [abs_le]

/-- A robot without a goal stops at once, so it keeps up. -/
example {W : Nat} (hW : Supported W) (h2 : 2 ≤ W) {sort : List (Dir × F) → List (Dir × F)} (hs : Sorts sort) {text : List Char}
    (ht : Walls.fromStr W text = .ok (.ok maze)) (hm : MazeMap W maze) (w : Walls.Walls) (searcher : Searcher) (hw : Walls.new W = .ok w)
    (hn : Searcher.new W ⟨0, 1⟩ [] = .ok searcher) : KeepsUp (gear .real Real.pi W sort searcher 0.01) (initial w maze 0.01) 0.001 (1 / 40) := by
  have hv : Valid W ⟨0, 1⟩ := ⟨by show 0 < 2 * W; omega, by show 1 < 2 * W; omega, rfl⟩
  have hr : Request W ⟨0, 1⟩ [] := ⟨hW, hv, by simp⟩
  have hok : SearchOk (config 0.01) := by rw [config_eq]; exact test_search (by norm_num) le_rfl
  obtain ⟨rest, I, hlen⟩ := inv_start hok hr (fun _ => True)
  rcases track_inv hok hr I with ⟨t, rest', lp, rfl, q1, q2, q3, q4, q5⟩ | ⟨rfl, -⟩ | ⟨rfl, -⟩
  · intro n m' t' lp' hgo htr hlast
    cases n with
    | zero =>
      cases hgo
      have e : track .real (config 0.01).start = .ok (t', lp') := htr
      rw [q1] at e
      cases e
      obtain ⟨u, mv, u1, u2⟩ := hlast
      have h4 := long_four hok hlen
      match rest', h4, q5.left with
      | a :: b :: _, _, hp =>
        obtain ⟨-, p2⟩ := produces_cons hp
        obtain ⟨p3, -⟩ := produces_cons p2
        have u1' : shiftNext .real lp.trajectory.1 (Move.next .real) lp.trajectory.2 = (some u, mv) := u1
        have u2' : (shiftNext .real lp.trajectory.1 (Move.next .real) mv).1 = none := u2
        rw [u1', u2'] at p3
        cases p3
    | succ n =>
      exfalso
      have hnone : plan W ⟨0, 1⟩ [] (optimistic (oracle W w)) = .ok none := (C12_complete hr _).2 (by simp)
      have hex : searcher.search W ⟨0, 1⟩ (oracle W w) = .ok (.error .unreachable) := by
        rcases explore_cases hr hv (oracle W w) with ⟨-, e⟩ | ⟨path, e, -⟩
        · rw [explore, hn] at e; exact e
        · rw [hnone] at e; cases e
      have hd : decideNext (config 0.01) W searcher (oracle W w) lp = .error .unreachable := by
        have c1 : lp.commander = none := q3
        have c2 : lp.next = none := q2
        have c3 : lp.robot = ⟨⟨0, 1⟩, .north⟩ := q4
        unfold decideNext
        rw [c1, c2, c3, hex]
        rfl
      have hd' : ∀ t1 lp1, track .real (config 0.01).start = .ok (t1, lp1) → decideNext (config 0.01) W searcher (oracle W w) lp1 = .error .unreachable := by
        intro t1 lp1 h1
        rw [q1] at h1
        cases h1
        exact hd
      rcases turn_cases (g := gear .real Real.pi W sort searcher 0.01) hW hs (.parsed ht) hm.full (initial_sighted hW h2 hw hm 0.01) with
        ⟨e, k, -⟩ | ⟨t1, lp1, m1, k1, k2, -⟩ | ⟨t1, lp1, m1, k1, k2, -⟩
      · unfold Gear.go at hgo
        rw [k] at hgo
        cases hgo
      · exact absurd (k2.symm.trans (hd' t1 lp1 k1)) (by simp)
      · exact absurd (k2.symm.trans (hd' t1 lp1 k1)) (by simp)
  · have := long_four hok hlen
    simp at this
  · have := long_four hok hlen
    simp at this

end Verif.Props
