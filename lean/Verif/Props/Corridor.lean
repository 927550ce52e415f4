import Verif.Props.CorridorPlan
import Verif.Spec.Corridor
/-!
# C116: the search test passes on every maze that begins with a straight corridor to the goal
-/
namespace Verif.Props
open Verif Verif.Control Verif.Detect Verif.Sim Verif.Spec Verif.Convert Verif.Trial Verif.SearchDriver Verif.Straight Verif.Slalom
open Verif.Search (Coord WallState Searcher SearchState Posture Commander)
open Verif.Grid Verif.WallsP

variable {g : Gear} {maze : Walls.Walls} {goals : List Coord} {k i : Nat} {fo : ℝ}

/-- The planner does not want to go back. -/
def Prefers (i : Nat) (cmd : Commander) : Prop := ∀ before c after, cmd.candidates = before ++ c :: after →
  c = ⟨0, 2 * i + 3⟩ ∨ c = ⟨1, 2 * i + 2⟩ ∨ ⟨0, 2 * i + 3⟩ ∈ before

/-- Where the end of the leg to the wall position `⟨0, 2 i + 1⟩` is. -/
noncomputable def legEnd (fo : ℝ) (i : Nat) : ℝ := (2 * i + 2) * 0.045 + fo

/-- What the main loop has decided while the robot drives to the wall position `⟨0, 2 i + 1⟩`. -/
def Decided (c : SearchConfig) (k i : Nat) (lp : Loop) : Prop :=
  (lp.next = none ∧ lp.robot = ⟨⟨0, 2 * i + 1⟩, .north⟩ ∧ ∀ cmd, lp.commander = some cmd → i < k ∧ Prefers i cmd) ∨
  (lp.commander = none ∧ i < k ∧ lp.robot = ⟨⟨0, 2 * i + 3⟩, .north⟩ ∧
    lp.next = some (poseOfSearch ⟨⟨0, 2 * i + 1⟩, .north⟩ c.squareWidth c.frontOffset, c.move .front))

theorem oracle_true {W : Nat} {map : Walls.Walls} (h : Recorded W maze map) {c : Coord} (hc : Valid W c) {b : Bool}
    (hb : Walls.wallState W maze c = .ok (.checked b)) : oracle W map c ≠ .checked (!b) := by
  intro e
  have := h c _ hc (oracle_checked.1 e)
  rw [hb] at this
  cases b <;> cases this

theorem faces_north (i : Nat) : Faces ⟨0, 2 * i + 1⟩ .north := by
  constructor
  · rfl
  · simp only [vec]; push_cast; omega

theorem decide_corridor (hr : Request g.W ⟨0, 1⟩ goals) (hn : Searcher.new g.W ⟨0, 1⟩ goals = .ok g.searcher) (hc : Corridor g.W maze k) (hg : InCorridor k goals)
    (hk : Valid g.W ⟨0, 2 * k + 1⟩) {w : Walls.Walls} (hw : Reachable g.W w) (ht : Recorded g.W maze w) (hi : i ≤ k) (past : Known (oracle g.W w) i) {lp lp' : Loop}
    (hl : Decided g.config k i lp) (hd : decideNext g.config g.W g.searcher (oracle g.W w) lp = .ok (some lp')) :
    Decided g.config k i lp' ∧ lp'.trajectory = lp.trajectory := by
  have hslot := (C24_walls_slotConsistent hr.width hw).1
  obtain ⟨k1, k2, k3⟩ := id hk
  simp only at k1 k2
  have hA : i < k → Valid g.W ⟨0, 2 * i + 3⟩ := fun h => ⟨k1, by simp only; omega, by simp only; omega⟩
  have hR : i < k → Valid g.W ⟨1, 2 * i + 2⟩ := fun h => ⟨by simp only; omega, by simp only; omega, by simp only; omega⟩
  have hv : Valid g.W ⟨0, 2 * i + 1⟩ := ⟨k1, by simp only; omega, by simp only; omega⟩
  obtain ⟨tr, nx, cm, rb⟩ := lp
  unfold decideNext at hd
  rcases hl with ⟨l1, l2, l3⟩ | ⟨l1, l2, l3, l4⟩
  · dsimp only at l1 l2 l3 hd
    subst l1 l2
    cases cm with
    | none =>
      simp only [Option.map_none, Option.isNone_none, if_true] at hd
      have he : explore g.W ⟨0, 1⟩ goals ⟨0, 2 * i + 1⟩ (oracle g.W w) = g.searcher.search g.W ⟨0, 2 * i + 1⟩ (oracle g.W w) := by
        unfold explore; rw [hn]; rfl
      rw [← he] at hd
      cases hx : explore g.W ⟨0, 1⟩ goals ⟨0, 2 * i + 1⟩ (oracle g.W w) with
      | error e => rw [hx] at hd; cases hd
      | ok r =>
        rw [hx] at hd
        cases r with
        | error e => cases hd
        | ok r =>
          cases r with
          | none => cases hd
          | some cmd =>
            cases hd
            have hik : i < k := by
              rcases Nat.lt_or_ge i k with h | h
              · exact h
              · obtain rfl : i = k := by omega
                rw [corridor_stop hr hslot past hv hg.1 hg.2] at hx
                cases hx
            refine ⟨.inl ⟨rfl, rfl, fun cmd' e => ?_⟩, rfl⟩
            cases e
            exact ⟨hik, fun before c after e => corridor_candidates hr hslot past (hA hik) (oracle_true ht (hA hik) (hc (i + 1) hik).1) hx e⟩
    | some cmd =>
      obtain ⟨hik, hp⟩ := l3 cmd rfl
      simp only [Option.map_some] at hd
      cases hx : cmd.nextCoordinate (oracle g.W w) with
      | error e => rw [hx] at hd; cases hd
      | ok r =>
        rw [hx] at hd
        cases r with
        | none => cases hd; exact ⟨.inl ⟨rfl, rfl, l3⟩, rfl⟩
        | some c =>
          obtain ⟨before, after, e1, e2, e3⟩ := ((C20_next_coordinate cmd (oracle g.W w)).1 c).1 hx
          have hcA : c = ⟨0, 2 * i + 3⟩ := by
            rcases hp before c after e1 with e | rfl | e
            · exact e
            · exact absurd e2 (oracle_true ht (hR hik) (hc (i + 1) hik).2)
            · exact absurd (e3 _ e) (oracle_true ht (hA hik) (hc (i + 1) hik).1)
          subst hcA
          have hu := ((C21_update hr.width (s := ⟨⟨0, 2 * i + 1⟩, .north⟩) hv (faces_north i) (hA hik)).1 .north (by show Posture.north ≠ opposite .north; decide)
            (by simp [SideAhead, vec]; omega)).1
          simp only [hu, bind, Except.bind] at hd
          cases hd
          exact ⟨.inr ⟨rfl, hik, rfl, rfl⟩, rfl⟩
  · dsimp only at l1 l2 l3 l4 hd
    subst l1 l3 l4
    cases hd
    exact ⟨.inr ⟨rfl, l2, rfl, rfl⟩, rfl⟩

/-- Between the rounds, while the robot drives to the wall position `⟨0, 2 i + 1⟩`. -/
structure Inside (g : Gear) (maze : Walls.Walls) (k : Nat) (fo : ℝ) (m : Trial) (i : Nat) (s : Along) (y0 v0 : ℝ) (rest : List Target) : Prop where
  index : i ≤ k
  sighted : Sighted g.W maze m
  noted : Noted g.W m.detector m.walls
  past : Known (oracle g.W m.walls) i
  lane : Lane 0.045 m s
  glide : Glide 0.045 (legEnd fo i) y0 v0 (s.off y0 v0) rest
  ends : Ends (legEnd fo i) rest
  left : Produces (shiftNext .real m.loop.trajectory.1 (Move.next .real)) m.loop.trajectory.2 rest
  ahead : rest.length ≤ 1 → Around g.W (oracle g.W m.walls) ⟨0, 2 * i + 1⟩ .north
  loop : Decided g.config k i m.loop

theorem known_extends {ws ws' : Coord → WallState} (h : Extends ws ws') (past : Known ws i) : Known ws' i := fun j hj => by
  obtain ⟨h1, h2⟩ := past j hj
  exact ⟨(h _ (by rw [h1]; simp)).trans h1, (h _ (by rw [h2]; simp)).trans h2⟩

theorem known_next {W : Nat} (hc : Corridor W maze k) (hk : Valid W ⟨0, 2 * k + 1⟩) {w : Walls.Walls} (ht : Recorded W maze w) (hi : i < k)
    (past : Known (oracle W w) i) (ha : Around W (oracle W w) ⟨0, 2 * i + 1⟩ .north) : Known (oracle W w) (i + 1) := by
  obtain ⟨k1, k2, k3⟩ := id hk
  simp only at k1 k2
  have key : ∀ c b, Valid W c → Walls.wallState W maze c = .ok (.checked b) → oracle W w c ≠ .unchecked → oracle W w c = .checked b := by
    intro c b hv hb hu
    have := oracle_true ht hv hb
    revert this hu
    cases oracle W w c with
    | unchecked => simp
    | checked b' => cases b <;> cases b' <;> simp
  intro j hj
  rcases Nat.lt_or_ge j (i + 1) with h | h
  · exact past j (by omega)
  · obtain rfl : j = i + 1 := by omega
    have hA : Valid W ⟨0, 2 * (i + 1) + 1⟩ := ⟨k1, by simp only; omega, by simp only; omega⟩
    have hR : Valid W ⟨1, 2 * (i + 1)⟩ := ⟨by simp only; omega, by simp only; omega, by simp only; omega⟩
    exact ⟨key _ _ hA (hc (i + 1) hi).1 (ha .north _ ⟨by simp [vec], by simp [vec]; omega⟩ hA), key _ _ hR (hc (i + 1) hi).2 (ha .east _ ⟨by simp [vec], by simp [vec]; omega⟩ hR)⟩

theorem pose_north (i : Nat) (fo : ℝ) : poseOfSearch ⟨⟨0, 2 * i + 1⟩, .north⟩ 0.09 fo = ⟨0.045, legEnd fo i, Real.pi / 2⟩ := by
  simp only [poseOfSearch, legEnd, degree]
  congr 1
  · norm_num
  · push_cast; ring
  · ring

/-- One round in the corridor. -/
theorem inside_turn (f0 : 0 ≤ fo) (f1 : fo ≤ 0.01) (hT : g.T = .real) (hpi : 0 ≤ g.pi) (hnav : g.navigation = ⟨40, 4⟩) (hcfg : g.config = Trial.config fo)
    (hposes : g.poses = Trial.poses) (hr : Request g.W ⟨0, 1⟩ goals) (hn : Searcher.new g.W ⟨0, 1⟩ goals = .ok g.searcher) (hs : Sorts g.sort)
    (hm : Reachable g.W maze) (hf : ∀ c, Valid g.W c → ∃ b, Walls.wallState g.W maze c = .ok (.checked b)) (hc : Corridor g.W maze k) (hg : InCorridor k goals)
    (hk : Valid g.W ⟨0, 2 * k + 1⟩) {m : Trial} {s : Along} {y0 v0 : ℝ} {rest : List Target} (I : Inside g maze k fo m i s y0 v0 rest) :
    -- in the round commanded the robot keeps up
    (∀ t lp, track g.T m.loop = .ok (t, lp) →
      let state := (m.estimator.estimate g.T m.state (sensed g.T m.simulator)).2
      state.x.x = t.x.x ∧ |state.y.x - t.y.x| ≤ 0.001 ∧ state.theta.x = t.theta.x ∧
      (m.simulator.current.x.x = t.x.x ∧ |m.simulator.current.y.x - t.y.x| ≤ 0.00105 ∧ m.simulator.current.theta.x = t.theta.x) ∧
      let tr := m.tracker.track g.T g.pi state t (g.navigation.navigate state t)
      let vol := (m.controller.control tr.2.1 tr.2.2).2
      vol.left = vol.right ∧ |vol.left| ≤ 3.7) ∧
    -- and the next round is of the same kind
    ∀ m', g.turn m = .ok (true, m') → ∃ i s y0 v0 rest, Inside g maze k fo m' i s y0 v0 rest := by
  have hest := I.lane.estimate
  -- which target is commanded
  have htrack : ∀ t lp, track .real m.loop = .ok (t, lp) → ∃ i' y y0 v0 v a j fast rest', i' ≤ k ∧ t = onLane 0.045 y v a j ∧
      SmoothRound (s.off y0 v0) fast ⟨v, a, v - v0, y - y0 - 0.001 * v⟩ ∧
      Glide 0.045 (legEnd fo i') y v ((s.off y0 v0).next fast ⟨v, a, v - v0, y - y0 - 0.001 * v⟩) rest' ∧ Ends (legEnd fo i') (t :: rest') ∧
      Produces (shiftNext .real lp.trajectory.1 (Move.next .real)) lp.trajectory.2 rest' ∧ Decided g.config k i' lp ∧ Known (oracle g.W m.walls) i' ∧
      (rest' = [] → Around g.W (oracle g.W m.walls) ⟨0, 2 * i' + 1⟩ .north) := by
    intro t lp ht
    unfold track at ht
    cases rest with
    | cons t1 rest' =>
      obtain ⟨e1, e2⟩ := produces_cons I.left
      rw [show shiftNext .real m.loop.trajectory.1 (Move.next .real) m.loop.trajectory.2 = (some t1, _) from Prod.ext e1 rfl] at ht
      cases ht
      cases hgl : I.glide with
      | cons fast y v a j h1 h2 =>
        exact ⟨i, y, y0, v0, v, a, j, fast, rest', I.index, rfl, h1, h2, I.ends, e2, I.loop, I.past, fun e => I.ahead (by rw [e]; rfl)⟩
    | nil =>
      have e1 := produces_nil I.left
      rw [show shiftNext .real m.loop.trajectory.1 (Move.next .real) m.loop.trajectory.2 = (none, _) from Prod.ext e1 rfl] at ht
      dsimp only at ht
      rcases I.loop with ⟨l1, -, -⟩ | ⟨l1, l2, l3, l4⟩
      · rw [l1] at ht; cases ht
      · rw [l4] at ht
        dsimp only at ht
        obtain ⟨b1, b2, b3, b4, b5⟩ : legEnd fo i - 0.0003 ≤ y0 ∧ y0 ≤ legEnd fo i ∧ 0.3 - 1e-8 ≤ v0 ∧ v0 ≤ 0.3 ∧ (s.off y0 v0).size ≤ 3.2e-7 := by
          cases I.glide with
          | nil h1 h2 h3 h4 h5 => exact ⟨h1, h2, h3, h4, h5⟩
        obtain ⟨l, a1, a2, a3, a4⟩ := ahead_leg 0.045 (legEnd fo i)
        have hpose : poseOfSearch ⟨⟨0, 2 * i + 1⟩, .north⟩ g.config.squareWidth g.config.frontOffset = ⟨0.045, legEnd fo i, Real.pi / 2⟩ := by
          rw [hcfg]; exact pose_north i fo
        have hmove : g.config.move .front = .straight (straightGenerate searchGen 0.001 0.09 0.3 0.3).1 := by rw [hcfg]; rfl
        rw [hpose, hmove] at ht
        cases l with
        | nil => simp at a4
        | cons t1 rest' =>
          obtain ⟨e1, e2⟩ := produces_cons a1
          rw [show shiftNext .real ⟨0.045, legEnd fo i, Real.pi / 2⟩ (Move.next .real) (.straight (straightGenerate searchGen 0.001 0.09 0.3 0.3).1) = (some t1, _) from
            Prod.ext e1 rfl] at ht
          cases ht
          have hE : legEnd fo i + 0.09 = legEnd fo (i + 1) := by unfold legEnd; push_cast; ring
          rw [hE] at a2 a3
          cases hgl : a2 b1 b2 b3 b4 b5 with
          | cons fast y v a j h1 h2 =>
            refine ⟨i + 1, y, y0, v0, v, a, j, fast, rest', l2, rfl, h1, h2, a3, e2, .inl ⟨rfl, ?_, fun cmd e => ?_⟩,
              known_next hc hk I.sighted.true l2 I.past (I.ahead (by simp)), fun e => ?_⟩
            · exact l3
            · dsimp only at e; rw [l1] at e; cases e
            · rw [e] at a4; simp at a4
  rw [hT]
  refine ⟨fun t lp ht => ?_, fun m' hm' => ?_⟩
  · obtain ⟨i', y, y0, v0, v, a, j, fast, rest', -, rfl, h1, -⟩ := htrack t lp ht
    have hvolt := I.lane.voltage hpi hnav y v a j
    rw [hest] at hvolt ⊢
    obtain ⟨-, o2, o3⟩ := off_step s fast _ rfl _ rfl h1.mode
    have hnear := h1.near
    rw [← o3, abs_le] at hnear
    obtain ⟨t1, t2, t3⟩ := I.lane.truth
    rw [abs_le] at t2
    refine ⟨rfl, abs_le.2 ⟨?_, ?_⟩, rfl, ⟨t1, abs_le.2 ⟨?_, ?_⟩, t3⟩, ?_⟩
    any_goals simp only [onLane]; linarith
    dsimp only at hvolt ⊢
    rw [hvolt]
    exact ⟨rfl, by rw [o2]; exact h1.volt⟩
  · rcases turn_cases hr.width hs hm hf I.sighted with ⟨e, h, -⟩ | ⟨t, lp, m2, -, -, h, -⟩ | ⟨t, lp, m2, ht, hd, h, q1, q2⟩
    · rw [h] at hm'; cases hm'
    · rw [h] at hm'; cases hm'
    · rw [h] at hm'
      cases hm'
      obtain ⟨m2, c1, -, c3, c4⟩ := turn_notes hr.width hs hm hf I.sighted I.noted ht hd
      rw [h] at c1
      cases c1
      rw [hT] at ht c4
      obtain ⟨i', y, y0, v0, v, a, j, fast, rest', hi', rfl, h1, h2, h3, h4, h5, h6, h7⟩ := htrack t lp ht
      obtain ⟨o1, o2, o3⟩ := off_step s fast _ rfl _ rfl h1.mode
      obtain ⟨d1, d2⟩ := decide_corridor hr hn hc hg hk I.sighted.map I.sighted.true hi' h6 h5 hd
      refine ⟨i', s.step y v a, y, v, rest', hi', q1, c3, known_extends q2 h6, I.lane.turn hT hpi hnav h ht (by rw [o2]; exact h1.volt), by rw [o1]; exact h2, h3.tail,
        by rw [d2]; exact h4, fun hlen => ?_, d1⟩
      cases rest' with
      | nil => exact around_extends q2 (h7 rfl)
      | cons t2 rest' =>
        obtain rfl : rest' = [] := by
          cases rest' with
          | nil => rfl
          | cons => simp at hlen
        intro r d hd hv
        by_cases hrp : r = opposite .north
        · subst hrp
          obtain rfl := side_back hd
          rw [(known_extends q2 h6 i' le_rfl).1]; simp
        · obtain ⟨z1, z2⟩ := h3 [] _ _ rfl
          simp only [onLane] at z1 z2
          have hnear := h1.near
          rw [← o3, abs_le] at hnear
          have hvi : Valid g.W ⟨0, 2 * i' + 1⟩ := by
            obtain ⟨k1, k2, -⟩ := id hk
            exact ⟨k1, by simp only at *; omega, by simp only; omega⟩
          obtain ⟨pose, hpose, info, e1, rfl⟩ := C115_sees hr.width hs (s := ⟨⟨0, 2 * i' + 1⟩, .north⟩) hvi (faces_north i') f0 (by linarith)
            (⟨⟨0.045, 0, 0⟩, ⟨s.place, s.speed, (s.v - s.vp) / 0.001⟩, ⟨Real.pi / 2, 0, 0⟩⟩ : State) (by rw [pose_north]; norm_num)
            (by rw [pose_north, abs_le]; simp only; constructor <;> linarith) 0 (by rw [pose_north]; simp) hrp hd hv
          rw [hest] at c4
          obtain ⟨b, hb⟩ := c4 pose (by rw [hposes]; exact hpose) info e1
          rw [oracle_checked.2 hb]
          simp

/-- At the start. -/
theorem inside_start (f0 : 0 ≤ fo) (f1 : fo ≤ 0.01) {W : Nat} (hW : Supported W) (h2 : 2 ≤ W) {w : Walls.Walls} (hw : Walls.new W = .ok w) (hm : MazeMap W maze) (pi : ℝ)
    (sort : List (Dir × F) → List (Dir × F)) (searcher : Searcher) :
    ∃ s y0 v0 rest, Inside (gear .real pi W sort searcher fo) maze k fo (initial w maze fo) 0 s y0 v0 rest := by
  have hv : Valid W ⟨0, 1⟩ := ⟨by show 0 < 2 * W; omega, by show 1 < 2 * W; omega, rfl⟩
  have hv' : Valid W ⟨1, 0⟩ := ⟨by show 1 < 2 * W; omega, by show 0 < 2 * W; omega, rfl⟩
  obtain ⟨w', hw', hnew⟩ := C04_new hW h2
  rw [hw] at hw'
  cases hw'
  obtain ⟨l, a1, a2, a3, a4⟩ := first_leg (d := 0.045 + fo) 0.045 0.045 (by linarith) (by linarith)
  have hE : 0.045 + (0.045 + fo) = legEnd fo 0 := by unfold legEnd; push_cast; ring
  rw [hE] at a2 a3
  refine ⟨_, 0.045, 0, l, Nat.zero_le _, initial_sighted hW h2 hw hm fo, noted_new W w, ?_, initial_lane w maze fo, ?_, a3, ?_, fun h => by omega, .inl ⟨rfl, rfl, fun cmd e => by cases e⟩⟩
  · intro j hj
    obtain rfl : j = 0 := by omega
    exact ⟨oracle_checked.2 ((hnew _ hv).2.1.2 rfl), oracle_checked.2 ((hnew _ hv').1.2 (.inr (.inr rfl)))⟩
  · convert a2 using 1
    simp [Along.off]
  · convert a1 using 2
    · simp only [initial, SearchConfig.start, config, degree]
      norm_num
      ring
    · simp only [initial, SearchConfig.start, config, SearchConfig.init, searchGen]
      norm_num

/-- The invariant holds between all rounds. -/
theorem inside_all (f0 : 0 ≤ fo) (f1 : fo ≤ 0.01) (hT : g.T = .real) (hpi : 0 ≤ g.pi) (hnav : g.navigation = ⟨40, 4⟩) (hcfg : g.config = Trial.config fo)
    (hposes : g.poses = Trial.poses) (hr : Request g.W ⟨0, 1⟩ goals) (hn : Searcher.new g.W ⟨0, 1⟩ goals = .ok g.searcher) (hs : Sorts g.sort)
    (hm : Reachable g.W maze) (hf : ∀ c, Valid g.W c → ∃ b, Walls.wallState g.W maze c = .ok (.checked b)) (hc : Corridor g.W maze k) (hg : InCorridor k goals)
    (hk : Valid g.W ⟨0, 2 * k + 1⟩) : ∀ (n : Nat) {m m' : Trial} {i : Nat} {s : Along} {y0 v0 : ℝ} {rest : List Target}, Inside g maze k fo m i s y0 v0 rest →
      g.go n m = .ok (true, m') → ∃ i s y0 v0 rest, Inside g maze k fo m' i s y0 v0 rest
  | 0, m, m', i, s, y0, v0, rest, I, h => by cases h; exact ⟨_, _, _, _, _, I⟩
  | n + 1, m, m', i, s, y0, v0, rest, I, h => by
    unfold Gear.go at h
    cases ht : g.turn m with
    | error e => rw [ht] at h; cases h
    | ok x =>
      obtain ⟨on, m1⟩ := x
      rw [ht] at h
      cases on
      · cases h
      · obtain ⟨i, s, y0, v0, rest, I'⟩ := (inside_turn f0 f1 hT hpi hnav hcfg hposes hr hn hs hm hf hc hg hk I).2 m1 ht
        exact inside_all f0 f1 hT hpi hnav hcfg hposes hr hn hs hm hf hc hg hk n I' h

/-- **C116, tracking.** On a maze that begins with a straight corridor to all the goals, in every round of the search the robot and the place it takes itself to be at
are exactly on the line of the target with the heading of the target, and within about a millimetre of it; the voltages are equal and within the limit of the simulator. -/
theorem C116_tracks {W : Nat} (hW : Supported W) (h2 : 2 ≤ W) (hg : InCorridor k goals) {pi : ℝ} (hpi : 0 ≤ pi) {sort : List (Dir × F) → List (Dir × F)} (hs : Sorts sort)
    {text : List Char} (ht : Walls.fromStr W text = .ok (.ok maze)) (hm : MazeMap W maze) (hc : Corridor W maze k) (hk : Valid W ⟨0, 2 * k + 1⟩) (f0 : 0 ≤ fo)
    (f1 : fo ≤ 0.01) {w : Walls.Walls} {searcher : Searcher} (hw : Walls.new W = .ok w) (hn : Searcher.new W ⟨0, 1⟩ goals = .ok searcher) {n : Nat} {m : Trial}
    (hgo : (gear .real pi W sort searcher fo).go n (initial w maze fo) = .ok (true, m)) {t : Target} {lp : Loop} (htr : track .real m.loop = .ok (t, lp)) :
    let state := (m.estimator.estimate .real m.state (sensed .real m.simulator)).2
    (state.x.x = t.x.x ∧ |state.y.x - t.y.x| ≤ 0.001 ∧ state.theta.x = t.theta.x) ∧
    (m.simulator.current.x.x = t.x.x ∧ |m.simulator.current.y.x - t.y.x| ≤ 0.00105 ∧ m.simulator.current.theta.x = t.theta.x) ∧
    let tr := m.tracker.track .real pi state t ((gear .real pi W sort searcher fo).navigation.navigate state t)
    let vol := (m.controller.control tr.2.1 tr.2.2).2
    vol.left = vol.right ∧ |vol.left| ≤ m.simulator.maxVoltage := by
  obtain ⟨s, y0, v0, rest, I⟩ := inside_start (k := k) f0 f1 hW h2 hw hm pi sort searcher
  obtain ⟨k1, k2, k3⟩ := id hk
  simp only at k1 k2
  have hv : ∀ c ∈ goals, Valid W c := by
    intro c h
    obtain ⟨j, j1, j2, rfl⟩ := hg.2 c h
    exact ⟨k1, by simp only; omega, by simp only; omega⟩
  have hr : Request W ⟨0, 1⟩ goals := ⟨hW, ⟨k1, by simp only; omega, rfl⟩, hv⟩
  obtain ⟨i, s, y0, v0, rest, I'⟩ := inside_all (g := gear .real pi W sort searcher fo) f0 f1 rfl hpi rfl rfl rfl hr hn hs (.parsed ht) hm.full hc hg hk n I hgo
  obtain ⟨a1, a2, a3, a4, a5⟩ := (inside_turn (g := gear .real pi W sort searcher fo) f0 f1 rfl hpi rfl rfl rfl hr hn hs (.parsed ht) hm.full hc hg hk I').1 t lp htr
  refine ⟨⟨a1, a2, a3⟩, a4, ?_⟩
  rw [I'.lane.max]
  exact a5

/-- **C116.** The search test passes on every maze that begins with a straight corridor to all the goals. -/
theorem C116_passes {W : Nat} (hW : Supported W) (h2 : 2 ≤ W) (hg : InCorridor k goals) {pi : ℝ} (hpi : 0 ≤ pi) {sort : List (Dir × F) → List (Dir × F)} (hs : Sorts sort)
    {text : List Char} (ht : Walls.fromStr W text = .ok (.ok maze)) (hm : MazeMap W maze) (hc : Corridor W maze k) (hk : Valid W ⟨0, 2 * k + 1⟩) (f0 : 0 ≤ fo)
    (f1 : fo ≤ 0.01) : ∃ N, ∀ n, N ≤ n → wholeTest .real pi W sort n text (goals.map fun c => (c.x, c.y)) fo = .ok (some ()) := by
  obtain ⟨k1, k2, k3⟩ := id hk
  simp only at k1 k2
  have hv : ∀ c ∈ goals, Valid W c := by
    intro c h
    obtain ⟨j, j1, j2, rfl⟩ := hg.2 c h
    exact ⟨k1, by simp only; omega, by simp only; omega⟩
  obtain ⟨c, hcg⟩ := List.exists_mem_of_ne_nil _ hg.1
  obtain ⟨j, j1, j2, rfl⟩ := hg.2 c hcg
  obtain ⟨N, hN⟩ := C115_passes hW h2 hv pi hs ht hm f0 f1
    ⟨⟨0, 3⟩, adj_next (j := 0) ⟨k1, by simp only; omega, rfl⟩, (hc 1 (by omega)).1⟩ fun w searcher hw hn => by
      intro n m t lp hgo htr _
      obtain ⟨⟨a1, a2, a3⟩, -⟩ := C116_tracks hW h2 hg hpi hs ht hm hc hk f0 f1 hw hn hgo htr
      refine ⟨?_, a2, 0, ?_⟩
      · show |((m.estimator.estimate .real m.state (sensed .real m.simulator)).2).x.x - t.x.x| ≤ _
        rw [a1]; norm_num
      · show |((m.estimator.estimate .real m.state (sensed .real m.simulator)).2).theta.x - t.theta.x - _| ≤ _
        rw [a3]; norm_num
  refine ⟨N, fun n hn => (hN n hn).1 ⟨[⟨0, 1⟩, ⟨0, 2 * j + 1⟩], rfl, ⟨_, hcg, by simp; omega, rfl⟩, ⟨0, 2, .inr (.inl ⟨rfl, rfl, .inl rfl⟩), j, j1, ⟨by simp, by push_cast; ring⟩,
    fun n n1 n2 => ⟨⟨0, 2 * n + 1⟩, ⟨by simp, by push_cast; ring⟩, ⟨k1, by simp only; omega, by simp only; omega⟩, (hc n (by omega)).1⟩⟩, trivial⟩⟩

/-- A maze of 16 squares with a corridor of fifteen squares, and a goal in the last of them. -/
example : ∃ text, ∃ N, ∀ n, N ≤ n → wholeTest .real Real.pi 16 demoSort n text [(0, 29)] 0.01 = .ok (some ()) := by
  obtain ⟨maze, e, f, -⟩ := C09_canonical (W := 16) ⟨4, by omega, rfl⟩ (fun c => decide (c.x = 31 ∨ c.y = 31 ∨ c.x = 1))
  refine ⟨_, C116_passes (k := 14) (goals := [⟨0, 29⟩]) ⟨4, by omega, rfl⟩ (by norm_num) ⟨by simp, ?_⟩ Real.pi_pos.le demoSort_sorts e ⟨fun c hc => ⟨_, f c hc⟩, fun c hc ho => ?_, ?_, ?_⟩
    (fun i hi => ⟨?_, ?_⟩) (by decide) (by norm_num) le_rfl⟩
  · intro c hc
    exact ⟨14, by omega, le_rfl, by simpa using hc⟩
  · rw [f c hc]; simp; omega
  · rw [f _ (by decide)]; simp
  · rw [f _ (by decide)]; simp
  · rw [f _ ⟨by simp, by simp only; omega, by simp only; omega⟩]; simp; omega
  · rw [f _ ⟨by simp, by simp only; omega, by simp only; omega⟩]; simp

end Verif.Props
