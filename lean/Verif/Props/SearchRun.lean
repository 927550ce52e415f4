import Verif.Props.SearchDriver
/-!
# C78: the main loop of the search run
-/
namespace Verif.Props
open Verif Verif.Control Verif.Straight Verif.Slalom Verif.Spec Verif.StraightP Verif.SearchDriver
open Verif.Search (SearchState Commander Searcher Coord WallState TrajectoryKind)
open Verif.Grid

variable {c : SearchConfig}

/-! ## Joints -/

theorem near_step (hc : SearchOk c) {q q' : Detect.Pose} (h : Near (6e-9 * c.squareWidth) q q') :
    Real.sqrt ((q'.x - q.x) ^ 2 + (q'.y - q.y) ^ 2) ≤ 1e-8 * c.squareWidth := by
  obtain ⟨h1, h2, -⟩ := h
  have hw := hc.width
  rw [Real.sqrt_le_left (by positivity)]
  rw [abs_le] at h1 h2
  nlinarith

theorem tour_last {W : Nat} {known : Coord → Prop} {s : SearchState} {L : List Target} (hc : SearchOk c) (h : Tour c W known s L) :
    ∃ t, L.getLast? = some t ∧ ∀ t', At t' (poseOfSearch s c.squareWidth c.frontOffset) → body t' = (c.gen.vMax, 0) →
      gap t t' ≤ searchStep c ∧ |(body t').1 - (body t).1| ≤ searchGain c := by
  have hp := mul_pos hc.v hc.period
  have hw := hc.width
  cases h with
  | start D hv =>
    obtain ⟨t, s, u, h1, -, -, -, -, h6, h7⟩ := D.last
    refine ⟨t, h1, fun t' ht' hb => ⟨?_, ?_⟩⟩
    · have := Drive.last_gap' D h1 (t' := t') 0 (by rw [ht'.1, ht'.2.1]; simp)
      unfold searchStep
      linarith
    · rw [hb, h6]
      unfold searchGain
      obtain ⟨c1, c2⟩ := hv
      rw [abs_le] at h7 ⊢
      constructor <;> simp only <;> linarith
  | move ht ha hk hu hl hn =>
    obtain ⟨t, h1, h2, h3⟩ := leg_last hc hl
    refine ⟨t, by rw [List.getLast?_append, h1]; rfl, fun t' ht' hb => ⟨?_, ?_⟩⟩
    · have := h2 t' (1e-8 * c.squareWidth) (by rw [ht'.1, ht'.2.1]; exact near_step hc hn)
      unfold searchStep
      linarith
    · rw [hb]
      exact h3

/-! ## Invariant -/

/-- What holds between two rounds: the targets `l` have been issued, `rest` are those left of the current trajectory, `s` is the state at its end. -/
structure Inv (c : SearchConfig) (W : Nat) (goals : List Coord) (known : Coord → Prop) (l : List Target) (lp : Loop)
    (s : SearchState) (rest : List Target) : Prop where
  tour : Tour c W known s (l ++ rest)
  steps : Steps (searchStep c) (searchGain c) (l ++ rest)
  state : Consistent W s
  left : Produces (shiftNext .real lp.trajectory.1 (Move.next .real)) lp.trajectory.2 rest
  plan : (lp.next = none ∧ lp.robot = s ∧ ∀ cmd, lp.commander = some cmd → ∃ ws, explore W ⟨0, 1⟩ goals s.coord ws = .ok (.ok (some cmd))) ∨
    (lp.commander = none ∧ ∃ next k, lp.next = some (poseOfSearch s c.squareWidth c.frontOffset, c.move k) ∧ known next ∧
      Adjacent W s.coord next ∧ s.update next = .ok (lp.robot, some k))

theorem inv_start (hc : SearchOk c) {W : Nat} {goals : List Coord} (h : Request W ⟨0, 1⟩ goals) (known : Coord → Prop) :
    ∃ rest, Inv c W goals known [] c.start ⟨⟨0, 1⟩, .north⟩ rest ∧ 0.49 * c.squareWidth ≤ rest.length * searchStep c := by
  obtain ⟨l, h1, ⟨v, h2, h3⟩, h4⟩ := up_drive hc
  obtain ⟨p1, p2⟩ := searchStep_pos hc
  obtain ⟨g1, g2⟩ := searchGain_pos hc
  have h90 : degree 90 = Real.pi / 2 := by unfold degree; ring
  have hd := Drive.shift h3 ⟨c.squareWidth / 2, c.squareWidth / 2, degree 90⟩
  have hs := Steps.mono (Steps.shift h4 ⟨c.squareWidth / 2, c.squareWidth / 2, degree 90⟩) p1 g1
  have e : compose ⟨c.squareWidth / 2, c.squareWidth / 2, degree 90⟩ ⟨c.squareWidth / 2 + c.frontOffset, 0, 0⟩ =
      poseOfSearch ⟨⟨0, 1⟩, .north⟩ c.squareWidth c.frontOffset := by
    simp [compose, place, rotate, poseOfSearch, h90]
    ring
  rw [e, compose_origin, h90] at hd
  refine ⟨_, ⟨.start hd h2, by rw [h90] at hs; exact hs, ⟨h.start, ?_⟩, ?_, .inl ⟨rfl, rfl, fun cmd hcmd => by cases hcmd⟩⟩, ?_⟩
  · simp [Faces, vec]
  · rw [← h90]
    exact produces_shift (fun n => (move_straight .real n _).trans (h1 n)) _
  · have := drive_long h3 (Steps.mono h4 p1 g1) p1
    rw [List.length_map]
    refine le_trans (Real.le_sqrt_of_sq_le ?_) this
    have := hc.offset
    have := hc.width
    simp only [origin]
    nlinarith

/-- The targets of the next move. -/
theorem leg_next (hc : SearchOk c) {W : Nat} (hW : Supported W) {s s' : SearchState} (hs : Consistent W s) {next : Coord} {k : TrajectoryKind}
    (ha : Adjacent W s.coord next) (hu : s.update next = .ok (s', some k)) :
    ∃ l q', Produces (shiftNext .real (poseOfSearch s c.squareWidth c.frontOffset) (Move.next .real)) (c.move k) l ∧
      Leg c (poseOfSearch s c.squareWidth c.frontOffset) k q' l ∧ Near (6e-9 * c.squareWidth) q' (poseOfSearch s' c.squareWidth c.frontOffset) ∧
      Steps (searchStep c) (searchGain c) l ∧ 0.49 * c.squareWidth ≤ l.length * searchStep c := by
  obtain ⟨l, h1, h2, h3, h4⟩ := leg_ok hc k
  have h2' := leg_shift h2 (poseOfSearch s c.squareWidth c.frontOffset)
  rw [compose_origin] at h2'
  exact ⟨_, _, produces_shift h1 _, h2', C33_nominal W hW s s' next k hs.1 hs.2 ha.2.1 hu _ _ hc.width.le hc.nominal, Steps.shift h3 _,
    by rwa [List.length_map]⟩

/-- One target. -/
theorem track_inv (hc : SearchOk c) {W : Nat} {goals : List Coord} (h : Request W ⟨0, 1⟩ goals) {known : Coord → Prop} {l : List Target} {lp : Loop}
    {s : SearchState} {rest : List Target} (I : Inv c W goals known l lp s rest) :
    (∃ t rest' lp', rest = t :: rest' ∧ track .real lp = .ok (t, lp') ∧ lp'.next = lp.next ∧ lp'.commander = lp.commander ∧ lp'.robot = lp.robot ∧
        Inv c W goals known (l ++ [t]) lp' s rest') ∨
    (rest = [] ∧ lp.next ≠ none ∧ ∃ t rest' lp', track .real lp = .ok (t, lp') ∧ lp'.next = none ∧ lp'.commander = none ∧ lp'.robot = lp.robot ∧
        Inv c W goals known (l ++ [t]) lp' lp.robot rest' ∧ 0.49 * c.squareWidth ≤ (rest'.length + 1) * searchStep c) ∨
    (rest = [] ∧ lp.next = none ∧ track .real lp = .error .unreachable) := by
  cases rest with
  | cons t rest =>
    left
    obtain ⟨e1, e2⟩ := produces_cons I.left
    refine ⟨t, rest, { lp with trajectory := (lp.trajectory.1, (shiftNext .real lp.trajectory.1 (Move.next .real) lp.trajectory.2).2) }, rfl, ?_, rfl, rfl, rfl,
      by have := I.tour; simpa using this, by have := I.steps; simpa using this, I.state, e2, I.plan⟩
    unfold track
    generalize shiftNext .real lp.trajectory.1 (Move.next .real) lp.trajectory.2 = z at e1
    obtain ⟨a, b⟩ := z
    subst e1
    rfl
  | nil =>
    right
    have e1 := produces_nil I.left
    have ht := I.tour
    have hst := I.steps
    rw [List.append_nil] at ht hst
    rcases I.plan with ⟨p1, p2, p3⟩ | ⟨p1, next, k, p2, p3, p4, p5⟩
    · right
      refine ⟨rfl, p1, ?_⟩
      unfold track
      generalize shiftNext .real lp.trajectory.1 (Move.next .real) lp.trajectory.2 = z at e1
      obtain ⟨a, b⟩ := z
      subst e1
      rw [p1]
    · left
      obtain ⟨l', q', k1, k2, k3, k4, k5⟩ := leg_next hc h.width I.state p4 p5
      obtain ⟨t, f1, f2, f3⟩ := leg_first k2
      cases l' with
      | nil => cases f1
      | cons t' rest' =>
        cases f1
        obtain ⟨c1, c2⟩ := produces_cons k1
        refine ⟨rfl, by rw [p2]; simp, t, rest', { lp with trajectory := (poseOfSearch s c.squareWidth c.frontOffset, (shiftNext .real (poseOfSearch s c.squareWidth c.frontOffset) (Move.next .real) (c.move k)).2), next := none },
          ?_, rfl, p1, rfl, ⟨?_, ?_, ?_, c2, .inl ⟨rfl, rfl, fun cmd hcmd => by rw [p1] at hcmd; cases hcmd⟩⟩, ?_⟩
        · unfold track
          generalize shiftNext .real lp.trajectory.1 (Move.next .real) lp.trajectory.2 = z at e1
          obtain ⟨a, b⟩ := z
          subst e1
          rw [p2]
          simp only
          generalize shiftNext .real (poseOfSearch s c.squareWidth c.frontOffset) (Move.next .real) (c.move k) = z at c1
          obtain ⟨a, b⟩ := z
          subst c1
          rfl
        · rw [List.append_assoc]
          exact .move ht p4 p3 p5 k2 k3
        · rw [List.append_assoc]
          refine Steps.append hst k4 ?_
          intro u hu u' hu'
          cases hu'
          obtain ⟨w, w1, w2⟩ := tour_last hc ht
          rw [w1] at hu
          cases hu
          obtain ⟨x1, x2⟩ := w2 t f2 f3
          exact ⟨x1, by simpa using x2⟩
        · obtain ⟨s1, k1, u1, u2, -⟩ := update_total h.width I.state p4.2.1
          rw [p5] at u1
          simp only [Except.ok.injEq, Prod.mk.injEq] at u1
          rw [u1.1]
          exact u2
        · simpa using k5

/-- One decision. -/
theorem decide_inv {W : Nat} {goals : List Coord} (h : Request W ⟨0, 1⟩ goals) {searcher : Searcher} (hn : Searcher.new W ⟨0, 1⟩ goals = .ok searcher)
    {known : Coord → Prop} {ws : Coord → WallState} (hk : ∀ x, ws x = .checked false → known x) {l : List Target} {lp : Loop}
    {s : SearchState} {rest : List Target} (I : Inv c W goals known l lp s rest) :
    (∃ lp', decideNext c W searcher ws lp = .ok (some lp') ∧ Inv c W goals known l lp' s rest) ∨
    (decideNext c W searcher ws lp = .ok none ∧ lp.next = none ∧ lp.commander = none ∧ explore W ⟨0, 1⟩ goals s.coord ws = .ok (.ok none)) ∨
    (decideNext c W searcher ws lp = .error .unreachable ∧ lp.next = none ∧ ((lp.commander = none ∧ explore W ⟨0, 1⟩ goals s.coord ws = .ok (.error .unreachable)) ∨
      ∃ cmd, lp.commander = some cmd ∧ cmd.nextCoordinate ws = .error .unreachable)) := by
  have he : ∀ x, explore W ⟨0, 1⟩ goals x ws = searcher.search W x ws := fun x => by rw [explore, hn]; rfl
  rcases I.plan with ⟨p1, p2, p3⟩ | ⟨p1, p2⟩
  · cases hcm : lp.commander with
    | none =>
      obtain ⟨r, hr⟩ := (C13_total h).2 s.coord I.state.1 ws
      have hs := hr
      rw [he] at hs
      unfold decideNext
      rw [hcm, p1, p2, hs]
      cases r with
      | error e =>
        cases e
        exact .inr (.inr ⟨rfl, rfl, .inl ⟨rfl, hr⟩⟩)
      | ok o =>
        cases o with
        | none => exact .inr (.inl ⟨rfl, rfl, rfl, hr⟩)
        | some cmd =>
          refine .inl ⟨_, rfl, I.tour, I.steps, I.state, I.left, .inl ⟨rfl, rfl, fun cmd' hcmd => ?_⟩⟩
          cases hcmd
          exact ⟨ws, hr⟩
    | some cmd =>
      obtain ⟨ws', hr⟩ := p3 cmd hcm
      unfold decideNext
      rw [hcm]
      simp only [Option.map_some]
      cases hnext : cmd.nextCoordinate ws with
      | error e =>
        cases e
        exact .inr (.inr ⟨rfl, p1, .inr ⟨cmd, rfl, hnext⟩⟩)
      | ok o =>
        cases o with
        | none => exact .inl ⟨_, rfl, I⟩
        | some nc =>
          obtain ⟨s', k, u1, u2, -⟩ := C22_executable h I.state ws' ws cmd hr nc (.inl hnext)
          obtain ⟨before, after, n1, n2, -⟩ := ((C20_next_coordinate cmd ws).1 nc).1 hnext
          obtain ⟨-, -, hcand, -⟩ := C18_candidates h I.state.1 ws' cmd hr
          have ha := ((hcand nc).1 (by rw [n1]; simp)).1
          left
          simp only [p2]
          rw [u1]
          refine ⟨_, rfl, I.tour, I.steps, I.state, I.left, .inr ⟨rfl, nc, k, ?_, hk _ n2, ha, u1⟩⟩
          rfl
  · left
    have := p2
    obtain ⟨next, k, q1, -⟩ := p2
    unfold decideNext
    rw [p1, q1]
    exact ⟨_, rfl, I.tour, I.steps, I.state, I.left, .inr ⟨p1, this⟩⟩

/-! ## Safety -/

theorem rounds_succ (T : Trig) (W : Nat) (searcher : Searcher) (ws : Nat → Coord → WallState) (n i : Nat) (lp : Loop) :
    rounds T c W searcher ws (n + 1) i lp = (track T lp >>= fun x => decideNext c W searcher (ws i) x.2 >>= fun y =>
      match y with
      | none => .ok ([x.1], none)
      | some lp' => rounds T c W searcher ws n (i + 1) lp' >>= fun z => .ok (x.1 :: z.1, z.2)) := rfl

theorem rounds_inv (hc : SearchOk c) {W : Nat} {goals : List Coord} (h : Request W ⟨0, 1⟩ goals) {searcher : Searcher}
    (hn : Searcher.new W ⟨0, 1⟩ goals = .ok searcher) {known : Coord → Prop} (ws : Nat → Coord → WallState) :
    ∀ (n i : Nat) (l : List Target) (lp : Loop) (s : SearchState) (rest : List Target), Inv c W goals known l lp s rest →
      (∀ j < n, ∀ x, ws (i + j) x = .checked false → known x) →
      (∀ ts e, rounds .real c W searcher ws n i lp = .ok (ts, e) → ∃ s' rest', Tour c W known s' (l ++ ts ++ rest') ∧
        Steps (searchStep c) (searchGain c) (l ++ ts ++ rest') ∧
        (∀ lp', e = some lp' → ts.length = n ∧ Inv c W goals known (l ++ ts) lp' s' rest') ∧
        (e = none → ∃ k, ts.length = k + 1 ∧ k < n ∧ Consistent W s' ∧ explore W ⟨0, 1⟩ goals s'.coord (ws (i + k)) = .ok (.ok none))) ∧
      (∀ e, rounds .real c W searcher ws n i lp = .error e → e = .unreachable ∧ ∃ k ts lp' s' rest', k < n ∧ rounds .real c W searcher ws k i lp = .ok (ts, some lp') ∧
        Inv c W goals known (l ++ ts) lp' s' rest' ∧
        ((rest' = [] ∧ lp'.next = none) ∨
         (∃ r, explore W ⟨0, 1⟩ goals r (ws (i + k)) = .ok (.error .unreachable)) ∨
          ∃ cmd, lp'.commander = some cmd ∧ cmd.nextCoordinate (ws (i + k)) = .error .unreachable))
  | 0, i, l, lp, s, rest, I, _ => by
    refine ⟨fun ts e hr => ?_, fun e hr => (nomatch hr)⟩
    cases hr
    have := I.tour
    have := I.steps
    exact ⟨s, rest, by simpa, by simpa, fun lp' hlp => by cases hlp; exact ⟨rfl, by simpa using I⟩, fun h => by cases h⟩
  | n + 1, i, l, lp, s, rest, I, hk => by
    have hk0 : ∀ x, ws i x = .checked false → known x := hk 0 (by omega)
    have hk1 : ∀ j < n, ∀ x, ws (i + 1 + j) x = .checked false → known x := fun j hj x hx =>
      hk (j + 1) (by omega) x (by rwa [← Nat.add_assoc, Nat.add_right_comm])
    have key : ∀ t lp1 s1 rest1, track .real lp = .ok (t, lp1) → (lp1.commander = lp.commander ∨ lp1.commander = none) → Inv c W goals known (l ++ [t]) lp1 s1 rest1 →
        (∀ ts e, rounds .real c W searcher ws (n + 1) i lp = .ok (ts, e) → ∃ s' rest', Tour c W known s' (l ++ ts ++ rest') ∧
          Steps (searchStep c) (searchGain c) (l ++ ts ++ rest') ∧
          (∀ lp', e = some lp' → ts.length = n + 1 ∧ Inv c W goals known (l ++ ts) lp' s' rest') ∧
          (e = none → ∃ k, ts.length = k + 1 ∧ k < n + 1 ∧ Consistent W s' ∧ explore W ⟨0, 1⟩ goals s'.coord (ws (i + k)) = .ok (.ok none))) ∧
        (∀ e, rounds .real c W searcher ws (n + 1) i lp = .error e → e = .unreachable ∧ ∃ k ts lp' s' rest', k < n + 1 ∧ rounds .real c W searcher ws k i lp = .ok (ts, some lp') ∧
          Inv c W goals known (l ++ ts) lp' s' rest' ∧
          ((rest' = [] ∧ lp'.next = none) ∨
           (∃ r, explore W ⟨0, 1⟩ goals r (ws (i + k)) = .ok (.error .unreachable)) ∨
            ∃ cmd, lp'.commander = some cmd ∧ cmd.nextCoordinate (ws (i + k)) = .error .unreachable)) := by
      intro t lp1 s1 rest1 ht hcm I1
      rw [rounds_succ, ht]
      simp only [bind, Except.bind]
      rcases decide_inv h hn hk0 I1 with ⟨lp2, d1, I2⟩ | ⟨d1, d2, d3, d4⟩ | ⟨d1, d2, d3⟩
      · rw [d1]
        simp only
        obtain ⟨r1, r2⟩ := rounds_inv hc h hn ws n (i + 1) (l ++ [t]) lp2 s1 rest1 I2 hk1
        constructor
        · intro ts e hr
          cases hz : rounds .real c W searcher ws n (i + 1) lp2 with
          | error => rw [hz] at hr; cases hr
          | ok z =>
            rw [hz] at hr
            cases hr
            obtain ⟨s', rest', t1, t2, t3, t4⟩ := r1 z.1 z.2 hz
            refine ⟨s', rest', by simpa using t1, by simpa using t2, fun lp' hlp => ?_, fun he => ?_⟩
            · obtain ⟨x1, x2⟩ := t3 lp' hlp
              exact ⟨by simp [x1], by simpa using x2⟩
            · obtain ⟨k, x1, x2, x3, x4⟩ := t4 he
              exact ⟨k + 1, by simp [x1], by omega, x3, by rwa [Nat.add_right_comm] at x4⟩
        · intro e hr
          cases hz : rounds .real c W searcher ws n (i + 1) lp2 with
          | ok z => rw [hz] at hr; cases hr
          | error e' =>
            rw [hz] at hr
            cases hr
            obtain ⟨e1, k, ts, lp', s', rest', x1, x2, x3, x4⟩ := r2 _ hz
            refine ⟨e1, k + 1, t :: ts, lp', s', rest', by omega, ?_, by simpa using x3, by rwa [Nat.add_right_comm] at x4⟩
            rw [rounds_succ, ht]
            simp only [bind, Except.bind]
            rw [d1]
            simp only
            rw [x2]
      · rw [d1]
        simp only
        refine ⟨fun ts e hr => ?_, fun e hr => (nomatch hr)⟩
        cases hr
        exact ⟨s1, rest1, I1.tour, I1.steps, fun _ h => (nomatch h), fun _ => ⟨0, rfl, by omega, I1.state, d4⟩⟩
      · rw [d1]
        simp only
        refine ⟨fun ts e hr => (nomatch hr), fun e hr => ?_⟩
        cases hr
        refine ⟨rfl, 0, [], lp, s, rest, by omega, rfl, by simpa using I, .inr ?_⟩
        rcases d3 with ⟨-, d3⟩ | ⟨cmd, d3, d4⟩
        · exact .inl ⟨_, d3⟩
        · rcases hcm with hcm | hcm
          · exact .inr ⟨cmd, by rw [← hcm]; exact d3, d4⟩
          · rw [hcm] at d3; cases d3
    rcases track_inv hc h I with ⟨t, rest', lp', -, h2, -, h4, -, h6⟩ | ⟨-, -, t, rest', lp', h3, -, h5, -, h7, -⟩ | ⟨h1, h2, h3⟩
    · exact key t lp' s rest' h2 (.inl h4) h6
    · exact key t lp' _ rest' h3 (.inr h5) h7
    · rw [rounds_succ, h3]
      refine ⟨fun ts e hr => (nomatch hr), fun e hr => ?_⟩
      cases hr
      exact ⟨rfl, 0, [], lp, s, rest, by omega, rfl, by simpa using I, .inl ⟨h1, h2⟩⟩

/-- **C78, where it goes.** Whatever the sensors report in every round: the targets of a search that has not panicked are one for every round, and the
beginning of a tour -- from rest in the centre of the first square over its northern side, and from there in single moves of the search, towards an
adjacent side that the map of a round has shown open, with full speed where one move changes into the next. They have no jumps: position and speed of
successive targets differ by no more than the limits allow in one period, up to the inaccuracy of the slalom table and of the search for a velocity.
When the search ends, it does so because `search` has returned `Ok(None)`. -/
theorem C78_tour (hc : SearchOk c) {W : Nat} {goals : List Coord} (h : Request W ⟨0, 1⟩ goals) {searcher : Searcher}
    (hn : Searcher.new W ⟨0, 1⟩ goals = .ok searcher) (ws : Nat → Coord → WallState) (n : Nat) (l : List Target) (e : Option Loop)
    (hr : rounds .real c W searcher ws n 0 c.start = .ok (l, e)) :
    (∃ s rest, Tour c W (fun x => ∃ i < n, ws i x = .checked false) s (l ++ rest)) ∧ Steps (searchStep c) (searchGain c) l ∧
      (e.isSome → l.length = n) ∧
      (e = none → ∃ k cur, l.length = k + 1 ∧ k < n ∧ Valid W cur ∧ explore W ⟨0, 1⟩ goals cur (ws k) = .ok (.ok none)) := by
  obtain ⟨rest, I, -⟩ := inv_start hc h (fun x => ∃ i < n, ws i x = .checked false)
  obtain ⟨r, -⟩ := rounds_inv hc h hn ws n 0 [] c.start _ rest I (fun j hj x hx => ⟨j, hj, by rwa [Nat.zero_add] at hx⟩)
  obtain ⟨s', rest', t1, t2, t3, t4⟩ := r l e hr
  refine ⟨⟨s', rest', by simpa using t1⟩, ?_, fun he => ?_, fun he => ?_⟩
  · rw [List.nil_append] at t2
    exact List.IsChain.left_of_append t2
  · obtain ⟨lp, rfl⟩ := Option.isSome_iff_exists.1 he
    exact (t3 lp rfl).1
  · obtain ⟨k, x1, x2, x3, x4⟩ := t4 he
    exact ⟨k, _, x1, x2, x3.1, by rwa [Nat.zero_add] at x4⟩

/-- **C78, how it fails.** The only panics of the loop are its own three `unreachable!()`: the current trajectory has ended before the commander has
named a coordinate, `search` finds no way to the goal, or all the walls the commander asks about are there. -/
theorem C78_panics (hc : SearchOk c) {W : Nat} {goals : List Coord} (h : Request W ⟨0, 1⟩ goals) {searcher : Searcher}
    (hn : Searcher.new W ⟨0, 1⟩ goals = .ok searcher) (ws : Nat → Coord → WallState) (n : Nat) (e : Panic)
    (hr : rounds .real c W searcher ws n 0 c.start = .error e) :
    e = .unreachable ∧ ∃ k l lp, k < n ∧ rounds .real c W searcher ws k 0 c.start = .ok (l, some lp) ∧
      (((∃ s, Tour c W (fun x => ∃ i < n, ws i x = .checked false) s l) ∧ lp.next = none) ∨
       (∃ cur, explore W ⟨0, 1⟩ goals cur (ws k) = .ok (.error .unreachable)) ∨
       ∃ cmd, lp.commander = some cmd ∧ cmd.nextCoordinate (ws k) = .error .unreachable) := by
  obtain ⟨rest, I, -⟩ := inv_start hc h (fun x => ∃ i < n, ws i x = .checked false)
  obtain ⟨-, r⟩ := rounds_inv hc h hn ws n 0 [] c.start _ rest I (fun j hj x hx => ⟨j, hj, by rwa [Nat.zero_add] at hx⟩)
  obtain ⟨e1, k, ts, lp, s, rest', x1, x2, x3, x4⟩ := r e hr
  refine ⟨e1, k, ts, lp, x1, x2, ?_⟩
  rw [Nat.zero_add] at x4
  rcases x4 with ⟨rfl, x5⟩ | x4
  · left
    have := x3.tour
    exact ⟨⟨s, by simpa using this⟩, x5⟩
  · exact .inr x4

end Verif.Props
