import Verif.Proof.SingleHunt
import Verif.Props.SearchRun
import Verif.Props.Heads
/-!
# C126: the search run in single precision
-/
namespace Verif.Props
open Verif Verif.Single Verif.Spec Verif.Binary32 Verif.Proof Verif.Grid
open Verif.Search (SearchState Commander Searcher Coord WallState TrajectoryKind)

variable {exp : F → F} {L : Lib} {V a j Vs as js p s o : ℝ} {c : Quest}

/-! ## Poses -/

/-- C126: the pose of a state of the search, computed in single precision, is the one in real numbers up to 0.6 millionths of the coordinates of the side
the state is about, and up to a millionth in the angle. -/
theorem C126_pose {st : SearchState} (hx : st.coord.x < 64) (hy : st.coord.y < 64) (s0 : 0.01 ≤ s) (s1 : s ≤ 5) (o0 : 0 ≤ o) (room : o ≤ s / 2) :
    Matches (placeOfSearch (arith exp) st (.fin s) (.fin o)) (Slalom.poseOfSearch st s o)
      (3 / 10000000 * ((st.coord.x : ℝ) + 1) * s) (3 / 10000000 * ((st.coord.y : ℝ) + 1) * s) := by
  obtain ⟨x, ex, bx⟩ := coord_ok (exp := exp) hx s0 s1
  obtain ⟨y, ey, byy⟩ := coord_ok (exp := exp) hy s0 s1
  obtain ⟨⟨x1, ex1, bx1⟩, ⟨x2, ex2, bx2⟩⟩ := ahead_ok (exp := exp) hx s0 s1 o0 room bx
  obtain ⟨⟨y1, ey1, by1⟩, ⟨y2, ey2, by2⟩⟩ := ahead_ok (exp := exp) hy s0 s1 o0 room byy
  have s00 : 0 ≤ s := by norm_num at s0; linarith
  have w : ∀ n : ℕ, 1.7 / 10000000 * ((n : ℝ) + 1) * s ≤ 3 / 10000000 * ((n : ℝ) + 1) * s := fun n =>
    mul_le_mul_of_nonneg_right (mul_le_mul_of_nonneg_right (by norm_num) (by positivity)) s00
  have dg : ∀ d : ℝ, |d| ≤ 180 → ∃ θ : ℝ, Single.degree (arith exp) d = .fin θ ∧ |θ - Slalom.degree d| ≤ 1 / 1000000 := fun d hd => degree_ok hd
  unfold placeOfSearch Slalom.poseOfSearch
  dsimp only
  rw [ex, ey]
  cases st.posture with
  | north =>
    obtain ⟨θ, eθ, bθ⟩ := dg 90 (by norm_num)
    exact ⟨x, y1, θ, by dsimp only; rw [ey1, eθ], bx.trans (w _), by1, bθ⟩
  | south =>
    obtain ⟨θ, eθ, bθ⟩ := dg (-90) (by norm_num)
    exact ⟨x, y2, θ, by dsimp only; rw [ey2, eθ], bx.trans (w _), by2, bθ⟩
  | east =>
    obtain ⟨θ, eθ, bθ⟩ := dg 0 (by norm_num)
    exact ⟨x1, y, θ, by dsimp only; rw [ex1, eθ], bx1, byy.trans (w _), bθ⟩
  | west =>
    obtain ⟨θ, eθ, bθ⟩ := dg 180 (by norm_num)
    exact ⟨x2, y, θ, by dsimp only; rw [ex2, eθ], bx2, byy.trans (w _), bθ⟩

/-- C126: the same for the pose of a node of a run. -/
theorem C126_node {n : Run.Node} (hx : n.x < 64) (hy : n.y < 64) (s0 : 0.01 ≤ s) (s1 : s ≤ 5) :
    Matches (placeOfNode (arith exp) n (.fin s)) (Slalom.poseOfNode n s) (3 / 10000000 * ((n.x : ℝ) + 1) * s) (3 / 10000000 * ((n.y : ℝ) + 1) * s) := by
  obtain ⟨x, ex, bx⟩ := node_coord (exp := exp) hx s0 s1
  obtain ⟨y, ey, byy⟩ := node_coord (exp := exp) hy s0 s1
  have key : ∀ d : ℝ, |d| ≤ 180 → Matches ⟨.fin x, .fin y, Single.degree (arith exp) d⟩ ⟨((n.x + 1 : Nat) : ℝ) * s / 2, ((n.y + 1 : Nat) : ℝ) * s / 2, Slalom.degree d⟩
      (3 / 10000000 * ((n.x : ℝ) + 1) * s) (3 / 10000000 * ((n.y : ℝ) + 1) * s) := by
    intro d hd
    obtain ⟨θ, eθ, bθ⟩ := degree_ok (exp := exp) hd
    exact ⟨x, y, θ, by rw [eθ], bx, byy, bθ⟩
  unfold placeOfNode Slalom.poseOfNode
  rw [ex, ey]
  refine key _ ?_
  cases n.posture <;> norm_num [abs_of_pos]

theorem matches_nearby {q : Place} {r : Detect.Pose} {e e' : ℝ} (h : Matches q r e e') (e1 : e ≤ 1) (e2 : e' ≤ 1) (hx : |r.x| ≤ 240) (hy : |r.y| ≤ 240)
    (hθ : |r.theta| ≤ 10) : Nearby q := by
  obtain ⟨x, y, θ, rfl, h1, h2, h3⟩ := h
  have t : ∀ u v : ℝ, |u| ≤ |u - v| + |v| := fun u v => by have := abs_sub_abs_le_abs_sub u v; linarith
  exact ⟨bd_fin (by have := t x r.x; linarith), bd_fin (by have := t y r.y; linarith), bd_fin (by have := t θ r.theta; norm_num at h3; linarith)⟩

theorem pose_nearby {st : SearchState} (hx : st.coord.x < 64) (hy : st.coord.y < 64) (H : Hunts V a j Vs as js p s o c) :
    Nearby (placeOfSearch (arith exp) st c.squareWidth c.frontOffset) := by
  have room := H.room
  have o1 := H.o1
  have o0 := H.o0
  have s1 := H.w1
  have s0 := H.w0
  norm_num at room o1 s0
  rw [H.width, H.offset]
  have px : ((st.coord.x : ℝ) + 1) * (s / 2) ≤ 64 * 2.5 := mul_le_mul (by exact_mod_cast hx) (by norm_num; linarith) (by linarith) (by norm_num)
  have py : ((st.coord.y : ℝ) + 1) * (s / 2) ≤ 64 * 2.5 := mul_le_mul (by exact_mod_cast hy) (by norm_num; linarith) (by linarith) (by norm_num)
  have px0 : 0 ≤ ((st.coord.x : ℝ) + 1) * (s / 2) := mul_nonneg (by positivity) (by linarith)
  have py0 : 0 ≤ ((st.coord.y : ℝ) + 1) * (s / 2) := mul_nonneg (by positivity) (by linarith)
  have pi1 := Real.pi_lt_d2
  have pi0 := Real.pi_pos
  refine matches_nearby (C126_pose (exp := exp) hx hy H.w0 s1 o0 (by linarith)) ?_ ?_ ?_ ?_ ?_
  · rw [mul_assoc]; norm_num at px ⊢; linarith
  · rw [mul_assoc]; norm_num at py ⊢; linarith
  all_goals
    unfold Slalom.poseOfSearch Slalom.degree
    norm_num at px py pi1
    cases st.posture <;> dsimp only <;> rw [abs_le] <;> constructor <;> linarith

/-! ## Invariant -/

section
variable {A : Arith}

/-- What holds between two rounds: the targets `l` have been issued, `rest` are those left of the current trajectory, `s` is the state at its end. -/
structure Stays (A : Arith) (L : Lib) (c : Quest) (W : Nat) (goals : List Coord) (known : Coord → Prop) (l : List Target) (lp : Hunt)
    (s : SearchState) (rest : List Target) : Prop where
  path : Itinerary A L c W known s (l ++ rest)
  state : Consistent W s
  left : Produces (shiftedTo A L lp.trajectory.1 (Errand.next A L)) lp.trajectory.2 rest
  plan : (lp.next = none ∧ lp.robot = s ∧ ∀ cmd, lp.commander = some cmd → ∃ ws, explore W ⟨0, 1⟩ goals s.coord ws = .ok (.ok (some cmd))) ∨
    (lp.commander = none ∧ ∃ next k, lp.next = some (placeOfSearch A s c.squareWidth c.frontOffset, c.errand A L k) ∧ known next ∧
      Adjacent W s.coord next ∧ s.update next = .ok (lp.robot, some k))

theorem stays_start {l : List Target} (hi : Produces (Errand.next A L) (c.init A L) l) {W : Nat} {goals : List Coord} (h : Request W ⟨0, 1⟩ goals)
    (known : Coord → Prop) : ∃ rest, Stays A L c W goals known [] (c.start A L) ⟨⟨0, 1⟩, .north⟩ rest :=
  ⟨_, .start hi, ⟨h.start, by simp [Faces, vec]⟩, shifted_produces hi, .inl ⟨rfl, rfl, fun cmd hcmd => by cases hcmd⟩⟩

/-- One target. -/
theorem stays_track (he : ∀ k, ∃ l, Produces (Errand.next A L) (c.errand A L k) l ∧ l ≠ []) {W : Nat} {goals : List Coord} (h : Request W ⟨0, 1⟩ goals)
    {known : Coord → Prop} {l : List Target} {lp : Hunt} {s : SearchState} {rest : List Target} (I : Stays A L c W goals known l lp s rest) :
    (∃ t s' rest' lp', track A L lp = .ok (t, lp') ∧ (lp'.commander = lp.commander ∨ lp'.commander = none) ∧ Stays A L c W goals known (l ++ [t]) lp' s' rest') ∨
    (rest = [] ∧ lp.next = none ∧ track A L lp = .error .unreachable) := by
  cases rest with
  | cons t rest =>
    left
    obtain ⟨e1, e2⟩ := produces_cons I.left
    refine ⟨t, s, rest, { lp with trajectory := (lp.trajectory.1, (shiftedTo A L lp.trajectory.1 (Errand.next A L) lp.trajectory.2).2) }, ?_, .inl rfl,
      by have := I.path; simpa using this, I.state, e2, I.plan⟩
    unfold track
    generalize shiftedTo A L lp.trajectory.1 (Errand.next A L) lp.trajectory.2 = z at e1
    obtain ⟨a, b⟩ := z
    subst e1
    rfl
  | nil =>
    have e1 := produces_nil I.left
    have ht := I.path
    rw [List.append_nil] at ht
    rcases I.plan with ⟨p1, p2, p3⟩ | ⟨p1, next, k, p2, p3, p4, p5⟩
    · right
      refine ⟨rfl, p1, ?_⟩
      unfold track
      generalize shiftedTo A L lp.trajectory.1 (Errand.next A L) lp.trajectory.2 = z at e1
      obtain ⟨a, b⟩ := z
      subst e1
      rw [p1]
    · left
      obtain ⟨l', k1, k2⟩ := he k
      cases l' with
      | nil => exact absurd rfl k2
      | cons t rest' =>
        have k3 := shifted_produces (A := A) (L := L) (px := (placeOfSearch A s c.squareWidth c.frontOffset).x)
          (py := (placeOfSearch A s c.squareWidth c.frontOffset).y) (pt := (placeOfSearch A s c.squareWidth c.frontOffset).theta) k1
        rw [List.map_cons] at k3
        obtain ⟨c1, c2⟩ := produces_cons k3
        refine ⟨shift A L (placeOfSearch A s c.squareWidth c.frontOffset).x (placeOfSearch A s c.squareWidth c.frontOffset).y
            (placeOfSearch A s c.squareWidth c.frontOffset).theta t, lp.robot, _, { lp with trajectory := (placeOfSearch A s c.squareWidth c.frontOffset, (shiftedTo A L (placeOfSearch A s c.squareWidth c.frontOffset) (Errand.next A L) (c.errand A L k)).2), next := none },
          ?_, .inr p1, ⟨?_, ?_, c2, .inl ⟨rfl, rfl, fun cmd hcmd => by rw [p1] at hcmd; cases hcmd⟩⟩⟩
        · unfold track
          generalize shiftedTo A L lp.trajectory.1 (Errand.next A L) lp.trajectory.2 = z at e1
          obtain ⟨a, b⟩ := z
          subst e1
          rw [p2]
          simp only
          change (shiftedTo A L (placeOfSearch A s c.squareWidth c.frontOffset) (Errand.next A L) (c.errand A L k)).1 = _ at c1
          generalize shiftedTo A L (placeOfSearch A s c.squareWidth c.frontOffset) (Errand.next A L) (c.errand A L k) = z at c1
          obtain ⟨a, b⟩ := z
          subst c1
          rfl
        · rw [List.append_assoc]
          exact .move ht p4 p3 p5 rfl k1
        · obtain ⟨s1, k1, u1, u2, -⟩ := update_total h.width I.state p4.2.1
          rw [p5] at u1
          simp only [Except.ok.injEq, Prod.mk.injEq] at u1
          rw [u1.1]
          exact u2

/-- One decision. -/
theorem stays_decide {W : Nat} {goals : List Coord} (h : Request W ⟨0, 1⟩ goals) {searcher : Searcher} (hn : Searcher.new W ⟨0, 1⟩ goals = .ok searcher)
    {known : Coord → Prop} {ws : Coord → WallState} (hk : ∀ x, ws x = .checked false → known x) {l : List Target} {lp : Hunt}
    {s : SearchState} {rest : List Target} (I : Stays A L c W goals known l lp s rest) :
    (∃ lp', decideNext A L c W searcher ws lp = .ok (some lp') ∧ Stays A L c W goals known l lp' s rest) ∨
    (decideNext A L c W searcher ws lp = .ok none ∧ lp.next = none ∧ lp.commander = none ∧ explore W ⟨0, 1⟩ goals s.coord ws = .ok (.ok none)) ∨
    (decideNext A L c W searcher ws lp = .error .unreachable ∧ lp.next = none ∧ ((lp.commander = none ∧ explore W ⟨0, 1⟩ goals s.coord ws = .ok (.error .unreachable)) ∨
      ∃ cmd, lp.commander = some cmd ∧ cmd.nextCoordinate ws = .error .unreachable)) := by
  have he : ∀ x, explore W ⟨0, 1⟩ goals x ws = searcher.search W x ws := fun x => by rw [explore, hn]; rfl
  rcases I.plan with ⟨p1, p2, p3⟩ | ⟨p1, p2⟩
  · cases hcm : lp.commander with
    | none =>
      obtain ⟨r, hr⟩ := (C13_total h).2 s.coord I.state.1 ws
      have hs := hr
      rw [he] at hs
      unfold decideNext
      rw [hcm, p1, p2, hs]
      cases r with
      | error e =>
        cases e
        exact .inr (.inr ⟨rfl, rfl, .inl ⟨rfl, hr⟩⟩)
      | ok o =>
        cases o with
        | none => exact .inr (.inl ⟨rfl, rfl, rfl, hr⟩)
        | some cmd =>
          refine .inl ⟨_, rfl, I.path, I.state, I.left, .inl ⟨rfl, rfl, fun cmd' hcmd => ?_⟩⟩
          cases hcmd
          exact ⟨ws, hr⟩
    | some cmd =>
      obtain ⟨ws', hr⟩ := p3 cmd hcm
      unfold decideNext
      rw [hcm]
      simp only [Option.map_some]
      cases hnext : cmd.nextCoordinate ws with
      | error e =>
        cases e
        exact .inr (.inr ⟨rfl, p1, .inr ⟨cmd, rfl, hnext⟩⟩)
      | ok o =>
        cases o with
        | none => exact .inl ⟨_, rfl, I⟩
        | some nc =>
          obtain ⟨s', k, u1, u2, -⟩ := C22_executable h I.state ws' ws cmd hr nc (.inl hnext)
          obtain ⟨before, after, n1, n2, -⟩ := ((C20_next_coordinate cmd ws).1 nc).1 hnext
          obtain ⟨-, -, hcand, -⟩ := C18_candidates h I.state.1 ws' cmd hr
          have ha := ((hcand nc).1 (by rw [n1]; simp)).1
          left
          simp only [p2]
          rw [u1]
          refine ⟨_, rfl, I.path, I.state, I.left, .inr ⟨rfl, nc, k, ?_, hk _ n2, ha, u1⟩⟩
          rfl
  · left
    have := p2
    obtain ⟨next, k, q1, -⟩ := p2
    unfold decideNext
    rw [p1, q1]
    exact ⟨_, rfl, I.path, I.state, I.left, .inr ⟨p1, this⟩⟩

theorem hunt_succ (W : Nat) (searcher : Searcher) (ws : Nat → Coord → WallState) (n i : Nat) (lp : Hunt) :
    hunt A L c W searcher ws (n + 1) i lp = (track A L lp >>= fun x => decideNext A L c W searcher (ws i) x.2 >>= fun y =>
      match y with
      | none => .ok ([x.1], none)
      | some lp' => hunt A L c W searcher ws n (i + 1) lp' >>= fun z => .ok (x.1 :: z.1, z.2)) := rfl

theorem stays_hunt (he : ∀ k, ∃ l, Produces (Errand.next A L) (c.errand A L k) l ∧ l ≠ []) {W : Nat} {goals : List Coord} (h : Request W ⟨0, 1⟩ goals)
    {searcher : Searcher} (hn : Searcher.new W ⟨0, 1⟩ goals = .ok searcher) {known : Coord → Prop} (ws : Nat → Coord → WallState) :
    ∀ (n i : Nat) (l : List Target) (lp : Hunt) (s : SearchState) (rest : List Target), Stays A L c W goals known l lp s rest →
      (∀ j < n, ∀ x, ws (i + j) x = .checked false → known x) →
      (∀ ts e, hunt A L c W searcher ws n i lp = .ok (ts, e) → ∃ s' rest', Itinerary A L c W known s' (l ++ ts ++ rest') ∧
        (∀ lp', e = some lp' → ts.length = n ∧ Stays A L c W goals known (l ++ ts) lp' s' rest') ∧
        (e = none → ∃ k, ts.length = k + 1 ∧ k < n ∧ Consistent W s' ∧ explore W ⟨0, 1⟩ goals s'.coord (ws (i + k)) = .ok (.ok none))) ∧
      (∀ e, hunt A L c W searcher ws n i lp = .error e → e = .unreachable ∧ ∃ k ts lp' s' rest', k < n ∧ hunt A L c W searcher ws k i lp = .ok (ts, some lp') ∧
        Stays A L c W goals known (l ++ ts) lp' s' rest' ∧
        ((rest' = [] ∧ lp'.next = none) ∨
         (∃ r, explore W ⟨0, 1⟩ goals r (ws (i + k)) = .ok (.error .unreachable)) ∨
          ∃ cmd, lp'.commander = some cmd ∧ cmd.nextCoordinate (ws (i + k)) = .error .unreachable))
  | 0, i, l, lp, s, rest, I, _ => by
    refine ⟨fun ts e hr => ?_, fun e hr => (nomatch hr)⟩
    cases hr
    have := I.path
    exact ⟨s, rest, by simpa, fun lp' hlp => by cases hlp; exact ⟨rfl, by simpa using I⟩, fun h => by cases h⟩
  | n + 1, i, l, lp, s, rest, I, hk => by
    have hk0 : ∀ x, ws i x = .checked false → known x := hk 0 (by omega)
    have hk1 : ∀ j < n, ∀ x, ws (i + 1 + j) x = .checked false → known x := fun j hj x hx =>
      hk (j + 1) (by omega) x (by rwa [← Nat.add_assoc, Nat.add_right_comm])
    rcases stays_track he h I with ⟨t, s1, rest1, lp1, ht, hcm, I1⟩ | ⟨h1, h2, h3⟩
    · rw [hunt_succ, ht]
      simp only [bind, Except.bind]
      rcases stays_decide h hn hk0 I1 with ⟨lp2, d1, I2⟩ | ⟨d1, d2, d3, d4⟩ | ⟨d1, d2, d3⟩
      · rw [d1]
        simp only
        obtain ⟨r1, r2⟩ := stays_hunt he h hn ws n (i + 1) (l ++ [t]) lp2 s1 rest1 I2 hk1
        constructor
        · intro ts e hr
          cases hz : hunt A L c W searcher ws n (i + 1) lp2 with
          | error => rw [hz] at hr; cases hr
          | ok z =>
            rw [hz] at hr
            cases hr
            obtain ⟨s', rest', t1, t3, t4⟩ := r1 z.1 z.2 hz
            refine ⟨s', rest', by simpa using t1, fun lp' hlp => ?_, fun he => ?_⟩
            · obtain ⟨x1, x2⟩ := t3 lp' hlp
              exact ⟨by simp [x1], by simpa using x2⟩
            · obtain ⟨k, x1, x2, x3, x4⟩ := t4 he
              exact ⟨k + 1, by simp [x1], by omega, x3, by rwa [Nat.add_right_comm] at x4⟩
        · intro e hr
          cases hz : hunt A L c W searcher ws n (i + 1) lp2 with
          | ok z => rw [hz] at hr; cases hr
          | error e' =>
            rw [hz] at hr
            cases hr
            obtain ⟨e1, k, ts, lp', s', rest', x1, x2, x3, x4⟩ := r2 _ hz
            refine ⟨e1, k + 1, t :: ts, lp', s', rest', by omega, ?_, by simpa using x3, by rwa [Nat.add_right_comm] at x4⟩
            rw [hunt_succ, ht]
            simp only [bind, Except.bind]
            rw [d1]
            simp only
            rw [x2]
      · rw [d1]
        simp only
        refine ⟨fun ts e hr => ?_, fun e hr => (nomatch hr)⟩
        cases hr
        exact ⟨s1, rest1, I1.path, fun _ h => (nomatch h), fun _ => ⟨0, rfl, by omega, I1.state, d4⟩⟩
      · rw [d1]
        simp only
        refine ⟨fun ts e hr => (nomatch hr), fun e hr => ?_⟩
        cases hr
        refine ⟨rfl, 0, [], lp, s, rest, by omega, rfl, by simpa using I, .inr ?_⟩
        rcases d3 with ⟨-, d3⟩ | ⟨cmd, d3, d4⟩
        · exact .inl ⟨_, d3⟩
        · rcases hcm with hcm | hcm
          · exact .inr ⟨cmd, by rw [← hcm]; exact d3, d4⟩
          · rw [hcm] at d3; cases d3
    · rw [hunt_succ, h3]
      refine ⟨fun ts e hr => (nomatch hr), fun e hr => ?_⟩
      cases hr
      exact ⟨rfl, 0, [], lp, s, rest, by omega, rfl, by simpa using I, .inl ⟨h1, h2⟩⟩

end

/-! ## Safety -/

theorem valid_lt {W : Nat} (hW : Supported W) {x : Coord} (h : Valid W x) : x.x < 64 ∧ x.y < 64 := by
  obtain ⟨k, hk, rfl⟩ := hW
  obtain ⟨h1, h2, -⟩ := h
  have : 2 ^ k ≤ 2 ^ 5 := Nat.pow_le_pow_right (by norm_num) hk
  omega

/-- C126: all targets of the moves of a search, from the first pose on, are of moderate size and shifted to a pose nearby. -/
theorem itinerary_commanded (hU : Circular L) (hL : Rooted L) (H : Hunts V a j Vs as js p s o c) {W : Nat} (hW : Supported W) {known : Coord → Prop}
    {st : SearchState} {l : List Target} (h : Itinerary (arith exp) L c W known st l) : ∀ t ∈ l, Commanded (arith exp) L t := by
  have key : ∀ {e : Errand} {l l' : List Target} {q : Place}, Finishes (arith exp) L e → Produces (Errand.next (arith exp) L) e l → Nearby q →
      ∀ t ∈ l.map (shift (arith exp) L q.x q.y q.theta), Commanded (arith exp) L t := by
    intro e l _ q hf hl hq t ht
    obtain ⟨l', h1, -, h3⟩ := hf
    obtain rfl := produces_unique hl h1
    obtain ⟨t', ht', rfl⟩ := List.mem_map.1 ht
    exact ⟨q, t', hq, h3 t' ht', rfl⟩
  induction h with
  | start hl => exact key (l' := []) (init_finishes hL H) hl H.home
  | move _ ha _ _ hq hl ih =>
    intro t ht
    rcases List.mem_append.1 ht with ht | ht
    · exact ih t ht
    · obtain ⟨h1, h2⟩ := valid_lt hW ha.1
      exact key (l' := []) (errand_finishes hU hL H _) hl (hq ▸ pose_nearby h1 h2 H) t ht

/-- **C126, where it goes.** In single precision, whatever the sensors report in every round: the targets of a search that has not panicked are one for
every round, and the beginning of the targets of a sequence of moves, from the first pose over the northern side of the first square, and from there move by
move towards an adjacent side that the map of a round has shown open, each from the pose of the state. All of them are moderate targets shifted to a
pose nearby. When the search ends, it does so because `search` has returned `Ok(None)`. -/
theorem C126_targets (hU : Circular L) (hL : Rooted L) (H : Hunts V a j Vs as js p s o c) {W : Nat} {goals : List Coord} (h : Request W ⟨0, 1⟩ goals)
    {searcher : Searcher} (hn : Searcher.new W ⟨0, 1⟩ goals = .ok searcher) (ws : Nat → Coord → WallState) (n : Nat) (l : List Target) (e : Option Hunt)
    (hr : hunt (arith exp) L c W searcher ws n 0 (c.start (arith exp) L) = .ok (l, e)) :
    (∃ st rest, Itinerary (arith exp) L c W (fun x => ∃ i < n, ws i x = .checked false) st (l ++ rest)) ∧ (∀ t ∈ l, Commanded (arith exp) L t) ∧
      (e.isSome → l.length = n) ∧
      (e = none → ∃ k cur, l.length = k + 1 ∧ k < n ∧ Valid W cur ∧ explore W ⟨0, 1⟩ goals cur (ws k) = .ok (.ok none)) := by
  obtain ⟨li, hi, -⟩ := init_finishes (exp := exp) hL H
  have he : ∀ k, ∃ l, Produces (Errand.next (arith exp) L) (c.errand (arith exp) L k) l ∧ l ≠ [] := fun k => by
    obtain ⟨l, h1, h2, -⟩ := errand_finishes (exp := exp) hU hL H k
    exact ⟨l, h1, h2⟩
  obtain ⟨rest, I⟩ := stays_start hi h (fun x => ∃ i < n, ws i x = .checked false)
  obtain ⟨r, -⟩ := stays_hunt he h hn ws n 0 [] _ _ rest I (fun j hj x hx => ⟨j, hj, by rwa [Nat.zero_add] at hx⟩)
  obtain ⟨s', rest', t1, t3, t4⟩ := r l e hr
  rw [List.nil_append] at t1
  refine ⟨⟨s', rest', t1⟩, fun t ht => itinerary_commanded hU hL H h.width t1 t (List.mem_append_left _ ht), fun he => ?_, fun he => ?_⟩
  · obtain ⟨lp, rfl⟩ := Option.isSome_iff_exists.1 he
    exact (t3 lp rfl).1
  · obtain ⟨k, x1, x2, x3, x4⟩ := t4 he
    exact ⟨k, _, x1, x2, x3.1, by rwa [Nat.zero_add] at x4⟩

/-- **C126, how it fails.** The only panics of the loop are its own three `unreachable!()`: the current trajectory has ended before the commander has
named a coordinate, `search` finds no way to the goal, or all the walls the commander asks about are there. -/
theorem C126_panics (hU : Circular L) (hL : Rooted L) (H : Hunts V a j Vs as js p s o c) {W : Nat} {goals : List Coord} (h : Request W ⟨0, 1⟩ goals)
    {searcher : Searcher} (hn : Searcher.new W ⟨0, 1⟩ goals = .ok searcher) (ws : Nat → Coord → WallState) (n : Nat) (e : Panic)
    (hr : hunt (arith exp) L c W searcher ws n 0 (c.start (arith exp) L) = .error e) :
    e = .unreachable ∧ ∃ k l lp, k < n ∧ hunt (arith exp) L c W searcher ws k 0 (c.start (arith exp) L) = .ok (l, some lp) ∧
      (((∃ st, Itinerary (arith exp) L c W (fun x => ∃ i < n, ws i x = .checked false) st l) ∧ lp.next = none) ∨
       (∃ cur, explore W ⟨0, 1⟩ goals cur (ws k) = .ok (.error .unreachable)) ∨
       ∃ cmd, lp.commander = some cmd ∧ cmd.nextCoordinate (ws k) = .error .unreachable) := by
  obtain ⟨li, hi, -⟩ := init_finishes (exp := exp) hL H
  have he : ∀ k, ∃ l, Produces (Errand.next (arith exp) L) (c.errand (arith exp) L k) l ∧ l ≠ [] := fun k => by
    obtain ⟨l, h1, h2, -⟩ := errand_finishes (exp := exp) hU hL H k
    exact ⟨l, h1, h2⟩
  obtain ⟨rest, I⟩ := stays_start hi h (fun x => ∃ i < n, ws i x = .checked false)
  obtain ⟨-, r⟩ := stays_hunt he h hn ws n 0 [] _ _ rest I (fun j hj x hx => ⟨j, hj, by rwa [Nat.zero_add] at hx⟩)
  obtain ⟨e1, k, ts, lp, st, rest', x1, x2, x3, x4⟩ := r e hr
  refine ⟨e1, k, ts, lp, x1, x2, ?_⟩
  rw [Nat.zero_add] at x4
  rcases x4 with ⟨rfl, x5⟩ | x4
  · left
    have := x3.path
    exact ⟨⟨st, by simpa using this⟩, x5⟩
  · exact .inr x4

/-- C126: and the control loop can follow: with plausible readings of the sensors all voltages of the search are finite numbers. -/
theorem C126_drive (hF : Fair L) (hU : Circular L) (hL : Rooted L) (H : Hunts V a j Vs as js p s o c) {W : Nat} {goals : List Coord} (h : Request W ⟨0, 1⟩ goals)
    {searcher : Searcher} (hn : Searcher.new W ⟨0, 1⟩ goals = .ok searcher) (ws : Nat → Coord → WallState) (n : Nat) (l : List Target) (e : Option Hunt)
    (hr : hunt (arith exp) L c W searcher ws n 0 (c.start (arith exp) L) = .ok (l, e))
    {p' Wh w Ω Vh : ℝ} {r : Robot} (B : Assembled p' Wh w Ω Vh r) (rounds : List (Sensor × Target)) (hs : ∀ q ∈ rounds, Plausible p' Wh w Ω q.1)
    (ht : rounds.map Prod.snd = l) : ∀ o ∈ (roundsOf (arith exp) L r rounds).2, Mag 122 o.left ∧ Mag 122 o.right := by
  obtain ⟨-, hc, -⟩ := C126_targets hU hL H h hn ws n l e hr
  refine C125_drive hF hU B rounds fun q hq => ⟨hs q hq, ?_⟩
  obtain ⟨⟨px, py, pt⟩, t, ⟨⟨x, ex, bx⟩, ⟨y, ey, byy⟩, ⟨z, ez, bz⟩⟩, htame, e⟩ := hc q.2 (ht ▸ List.mem_map_of_mem hq)
  dsimp only at ex ey ez
  subst ex ey ez
  exact ⟨t, x, y, z, htame, bx, byy, bz, e⟩

/-! ## Real numbers -/

section
variable (T : Control.Trig) (pi : ℝ)

theorem exact_degree (d : ℝ) : Single.degree exact d = .fin (Slalom.degree d) := by
  show F.fin (d * (Real.pi / 180)) = _
  unfold Slalom.degree
  congr 1

/-- A stop and the same in real numbers. -/
def HaltSame (s : Halt) (t : Straight.Stop) : Prop := s = ⟨⟨.fin t.t, .fin t.tEnd, .fin t.period⟩, placeOf t.pose⟩

theorem same_halt : Alike targetOf (Halt.next exact) Straight.Stop.next HaltSame := by
  rintro _ t rfl
  unfold Halt.next Straight.Stop.next Clock.rest HaltSame
  dsimp only
  by_cases h : t.t < t.tEnd
  · rw [if_pos h, if_pos (show (F.fin t.t).lt (.fin t.tEnd) from h)]
    exact ⟨rfl, rfl⟩
  · rw [if_neg h, if_neg (show ¬ (F.fin t.t).lt (.fin t.tEnd) from h)]
    exact ⟨rfl, rfl⟩

/-- A spin and the same in real numbers. -/
def SpinSame (s : Journey) (t : Straight.Spin) : Prop :=
  s.clock = ⟨.fin t.t, t.tEnd, .fin t.period⟩ ∧ ∀ x : ℝ, s.calculator.calculate exact (.fin x) = axisOf (t.calculator.calculate x)

theorem same_spin : Alike targetOf (Journey.spin exact) Straight.Spin.next SpinSame := by
  rintro s c ⟨e, h⟩
  unfold Journey.spin Straight.Spin.next
  rw [e, model_clock]
  by_cases hk : c.tEnd.lt (.fin c.t)
  · rw [if_pos hk, if_pos hk]
    exact ⟨rfl, rfl, h⟩
  · rw [if_neg hk, if_neg hk]
    dsimp only
    refine ⟨?_, rfl, h⟩
    rw [Option.map_some, Option.map_some, h]
    rfl

theorem same_turn {G : Straight.Gen} (ha : G.aMax ≠ 0) (hj : G.jMax ≠ 0) (p D : ℝ) :
    SpinSame ((genOf G).journey exact (libOf T pi) (.fin p) (.fin D) (.fin 0) (.fin 0)).1 (Straight.spinGenerate G p D) := by
  unfold Gen.journey Straight.spinGenerate
  rw [show F.fin 0 = F.fin (0:ℝ) from rfl, C124_model T pi ha hj]
  exact ⟨rfl, fun t => C124_target 0 D 0 0 t⟩

/-- The trajectories of a search and the same in real numbers. -/
def ErrandSame : Errand → SearchDriver.Move → Prop
  | .straight s, .straight t => StretchSame s t
  | .slalom q s, .slalom pose t => ∃ P : Slalom.Params, q = shapeOf P ∧ pose = P.curveEnd ∧ Both (Both StretchSame BendSame) StretchSame s t
  | .back q r s, .back q' r' t => q = placeOf q' ∧ r = placeOf r' ∧ Both (Both (Both (Both StretchSame HaltSame) SpinSame) HaltSame) StretchSame s t
  | _, _ => False

theorem same_errand : Alike targetOf (Errand.next exact (libOf T pi)) (SearchDriver.Move.next T) ErrandSame := by
  intro s t h
  cases s with
  | straight s =>
    cases t with
    | straight t => exact same_stretch s t h
    | _ => exact h.elim
  | slalom q s =>
    cases t with
    | slalom pose t =>
      obtain ⟨P, rfl, rfl, h⟩ := h
      obtain ⟨h1, h2⟩ := same_slalom T pi P s t h
      exact ⟨h1, P, rfl, rfl, h2⟩
    | _ => exact h.elim
  | back q r s =>
    cases t with
    | back q' r' t =>
      obtain ⟨rfl, rfl, h⟩ := h
      obtain ⟨h1, h2⟩ := same_chain (same_chain (same_chain (same_chain same_stretch same_halt) (same_shift T pi same_spin q'.x q'.y q'.theta)) same_halt)
        (same_shift T pi same_stretch r'.x r'.y r'.theta) s t h
      exact ⟨h1, rfl, rfl, h2⟩
    | _ => exact h.elim

/-- Settings without a division by zero. -/
structure Proper (c : SearchDriver.SearchConfig) : Prop where
  v : c.gen.vMax ≠ 0
  a : c.gen.aMax ≠ 0
  j : c.gen.jMax ≠ 0
  sa : c.spin.aMax ≠ 0
  sj : c.spin.jMax ≠ 0
  slalom : ∀ d, (Slalom.parameters c.squareWidth c.frontOffset .search90 d).vRef ≠ 0

variable {q : SearchDriver.SearchConfig}

theorem search_limits (s o : ℝ) (d : Run.SlalomDirection) :
    (Slalom.parameters s o .search90 d).ddtheta ≠ 0 ∧ (Slalom.parameters s o .search90 d).dddtheta ≠ 0 := by
  have hp := Real.pi_pos
  have : (Slalom.parameters s o .search90 d).ddtheta = 36 * Real.pi ∧ (Slalom.parameters s o .search90 d).dddtheta = 1200 * Real.pi := by
    unfold Slalom.parameters
    dsimp only
    split_ifs <;> cases d <;> exact ⟨rfl, rfl⟩
  rw [this.1, this.2]
  constructor <;> positivity

theorem same_slalom_move (h : Proper q) (d : Run.SlalomDirection) :
    ErrandSame (.slalom (outline exact (.fin q.squareWidth) (.fin q.frontOffset) .search90 d)
        ((outline exact (.fin q.squareWidth) (.fin q.frontOffset) .search90 d).constantSlalom exact (libOf T pi) (.fin q.period) (.fin q.gen.vMax)))
      (.slalom (Slalom.parameters q.squareWidth q.frontOffset .search90 d).curveEnd
        (Slalom.constantSlalom q.period (Slalom.parameters q.squareWidth q.frontOffset .search90 d) q.gen.vMax)) := by
  rw [C125_exact]
  obtain ⟨l1, l2⟩ := search_limits q.squareWidth q.frontOffset d
  exact ⟨_, rfl, rfl, same_constant _ h.v _, same_curve T pi h.v (h.slalom d) l1 l2 _, same_constant _ h.v _⟩

theorem same_centre (c : SearchDriver.SearchConfig) :
    (questOf c).centre exact = placeOf c.centre ∧ (questOf c).turned exact = placeOf c.turned := by
  have e : exact.sub (exact.div (.fin c.squareWidth) (.fin 2)) (.fin c.frontOffset) = .fin (c.squareWidth / 2 - c.frontOffset) := by
    rw [exact_div _ _ (by norm_num), exact_sub]
  unfold Quest.centre Quest.turned questOf
  dsimp only
  rw [e, exact_degree]
  exact ⟨rfl, rfl⟩

theorem same_move (h : Proper q) : ∀ k, ErrandSame ((questOf q).errand exact (libOf T pi) k) (q.move k)
  | .front => (same_generate T pi h.a h.j q.period q.squareWidth q.gen.vMax q.gen.vMax).1
  | .right => same_slalom_move T pi h .right
  | .left => same_slalom_move T pi h .left
  | .back => by
    have e1 : exact.sub (exact.div (.fin q.squareWidth) (.fin 2)) (.fin q.frontOffset) = .fin (q.squareWidth / 2 - q.frontOffset) := by
      rw [exact_div _ _ (by norm_num), exact_sub]
    have e2 : exact.add (exact.div (.fin q.squareWidth) (.fin 2)) (.fin q.frontOffset) = .fin (q.squareWidth / 2 + q.frontOffset) := by
      rw [exact_div _ _ (by norm_num), exact_add]
    unfold Quest.errand SearchDriver.SearchConfig.move
    dsimp only
    rw [(same_centre q).1, (same_centre q).2, exact_degree]
    unfold questOf
    dsimp only
    rw [e1, e2]
    exact ⟨rfl, rfl, (same_generate T pi h.a h.j q.period (q.squareWidth / 2 + q.frontOffset) 0 q.gen.vMax).1, rfl, same_turn T pi h.sa h.sj q.period (Slalom.degree 180), rfl,
      (same_generate T pi h.a h.j q.period (q.squareWidth / 2 - q.frontOffset) q.gen.vMax 0).1⟩

theorem same_init (h : Proper q) : ErrandSame ((questOf q).init exact (libOf T pi)) q.init := by
  have e2 : exact.add (exact.div (.fin q.squareWidth) (.fin 2)) (.fin q.frontOffset) = .fin (q.squareWidth / 2 + q.frontOffset) := by
    rw [exact_div _ _ (by norm_num), exact_add]
  unfold Quest.init SearchDriver.SearchConfig.init questOf
  dsimp only
  rw [e2]
  exact (same_generate T pi h.a h.j q.period (q.squareWidth / 2 + q.frontOffset) 0 q.gen.vMax).1

theorem same_pose (st : SearchState) (s o : ℝ) : placeOfSearch exact st (.fin s) (.fin o) = placeOf (Slalom.poseOfSearch st s o) := by
  unfold placeOfSearch Slalom.poseOfSearch
  dsimp only
  rw [exact_div _ _ (by norm_num), exact_add, exact_add, exact_mul, exact_mul]
  simp only [exact_degree, exact_add, exact_sub]
  cases st.posture <;> rfl

/-- A trajectory at a pose and the same in real numbers. -/
def PlacedSame (x : Place × Errand) (y : Detect.Pose × SearchDriver.Move) : Prop := x.1 = placeOf y.1 ∧ ErrandSame x.2 y.2

/-- The variables of the loop and the same in real numbers. -/
structure HuntSame (l : Hunt) (l' : SearchDriver.Loop) : Prop where
  trajectory : PlacedSame l.trajectory l'.trajectory
  next : Option.Rel PlacedSame l.next l'.next
  commander : l.commander = l'.commander
  robot : l.robot = l'.robot

/-- Two results of which either both are panics, the same one, or both are values that are related. -/
def Results {α β : Type} (Rel : α → β → Prop) : R α → R β → Prop
  | .ok x, .ok y => Rel x y
  | .error e, .error e' => e = e'
  | _, _ => False

theorem same_track {l : Hunt} {l' : SearchDriver.Loop} (h : HuntSame l l') :
    Results (fun x y => x.1 = targetOf y.1 ∧ HuntSame x.2 y.2) (track exact (libOf T pi) l) (SearchDriver.track T l') := by
  obtain ⟨⟨q, e⟩, next, cmd, rb⟩ := l
  obtain ⟨⟨q', e'⟩, next', cmd', rb'⟩ := l'
  obtain ⟨⟨h1, h2⟩, h3, h4, h5⟩ := h
  dsimp only at h1 h2 h3 h4 h5
  subst h1 h4 h5
  obtain ⟨a1, a2⟩ := same_shift T pi (same_errand T pi) q'.x q'.y q'.theta e e' h2
  unfold track SearchDriver.track
  dsimp only
  rcases hx : shiftedTo exact (libOf T pi) (placeOf q') (Errand.next exact (libOf T pi)) e with ⟨x, m⟩
  rcases hy : Straight.shiftNext T q' (SearchDriver.Move.next T) e' with ⟨y, m'⟩
  change (shiftedTo exact (libOf T pi) (placeOf q') (Errand.next exact (libOf T pi)) e).1 = (Straight.shiftNext T q' (SearchDriver.Move.next T) e').1.map _ at a1
  change ErrandSame (shiftedTo exact (libOf T pi) (placeOf q') (Errand.next exact (libOf T pi)) e).2 (Straight.shiftNext T q' (SearchDriver.Move.next T) e').2 at a2
  rw [hx, hy] at a1 a2
  cases y with
  | some y =>
    obtain rfl : x = some (targetOf y) := a1
    exact ⟨rfl, ⟨rfl, a2⟩, h3, rfl, rfl⟩
  | none =>
    obtain rfl : x = none := a1
    dsimp only
    cases h3 with
    | none => exact rfl
    | @some u w hs =>
      obtain ⟨r, f⟩ := u
      obtain ⟨r', f'⟩ := w
      obtain ⟨s1, s2⟩ := hs
      dsimp only at s1 s2
      subst s1
      obtain ⟨b1, b2⟩ := same_shift T pi (same_errand T pi) r'.x r'.y r'.theta f f' s2
      dsimp only
      change (shiftedTo exact (libOf T pi) (placeOf r') (Errand.next exact (libOf T pi)) f).1 = (Straight.shiftNext T r' (SearchDriver.Move.next T) f').1.map _ at b1
      change ErrandSame (shiftedTo exact (libOf T pi) (placeOf r') (Errand.next exact (libOf T pi)) f).2 (Straight.shiftNext T r' (SearchDriver.Move.next T) f').2 at b2
      rcases hx : shiftedTo exact (libOf T pi) (placeOf r') (Errand.next exact (libOf T pi)) f with ⟨x, m⟩
      rcases hy : Straight.shiftNext T r' (SearchDriver.Move.next T) f' with ⟨y, m'⟩
      rw [hx, hy] at b1 b2
      cases y with
      | some y =>
        obtain rfl : x = some (targetOf y) := b1
        exact ⟨rfl, ⟨rfl, b2⟩, .none, rfl, rfl⟩
      | none =>
        obtain rfl : x = none := b1
        exact rfl

theorem same_decide (h : Proper q) (W : Nat) (searcher : Searcher) (ws : Coord → WallState) {l : Hunt} {l' : SearchDriver.Loop} (hl : HuntSame l l') :
    Results (Option.Rel HuntSame) (decideNext exact (libOf T pi) (questOf q) W searcher ws l) (SearchDriver.decideNext q W searcher ws l') := by
  have hl' := hl
  obtain ⟨tr, next, cmd, rb⟩ := l
  obtain ⟨tr', next', cmd', rb'⟩ := l'
  obtain ⟨h1, h3, h4, h5⟩ := hl
  dsimp only at h1 h3 h4 h5
  subst h4 h5
  unfold decideNext SearchDriver.decideNext
  dsimp only
  cases hc : cmd.map (fun commander : Commander => commander.nextCoordinate ws) with
  | none =>
    dsimp only
    cases h3 with
    | some hs => exact .some hl'
    | none =>
      simp only [Option.isNone_none, if_true, bind, Except.bind]
      cases searcher.search W rb.coord ws with
      | error e => exact rfl
      | ok r =>
        cases r with
        | error e => exact rfl
        | ok r =>
          cases r with
          | none => exact .none
          | some r => exact .some ⟨h1, .none, rfl, rfl⟩
  | some r =>
    cases r with
    | error e => exact rfl
    | ok r =>
      cases r with
      | none => exact .some hl'
      | some x =>
        dsimp only
        simp only [bind, Except.bind]
        cases rb.update x with
        | error e => exact rfl
        | ok r =>
          obtain ⟨rb', k⟩ := r
          cases k with
          | none => exact rfl
          | some k => exact .some ⟨h1, .some ⟨same_pose _ _ _, same_move T pi h k⟩, rfl, rfl⟩

theorem same_rounds (h : Proper q) (W : Nat) (searcher : Searcher) (ws : Nat → Coord → WallState) : ∀ (n i : Nat) (l : Hunt) (l' : SearchDriver.Loop),
    HuntSame l l' → Results (fun x y => x.1 = y.1.map targetOf ∧ Option.Rel HuntSame x.2 y.2)
      (hunt exact (libOf T pi) (questOf q) W searcher ws n i l) (SearchDriver.rounds T q W searcher ws n i l')
  | 0, _, _, _, hl => ⟨rfl, .some hl⟩
  | n + 1, i, l, l', hl => by
    rw [hunt_succ, rounds_succ]
    have ht := same_track T pi hl
    cases hx : track exact (libOf T pi) l with
    | error e =>
      rw [hx] at ht
      cases hy : SearchDriver.track T l' with
      | error e' => rw [hy] at ht; exact ht
      | ok y => rw [hy] at ht; exact ht.elim
    | ok x =>
      rw [hx] at ht
      cases hy : SearchDriver.track T l' with
      | error e' => rw [hy] at ht; exact ht.elim
      | ok y =>
        rw [hy] at ht
        obtain ⟨t1, t2⟩ := ht
        simp only [bind, Except.bind]
        have hd := same_decide T pi h W searcher (ws i) t2
        cases hx' : decideNext exact (libOf T pi) (questOf q) W searcher (ws i) x.2 with
        | error e =>
          rw [hx'] at hd
          cases hy' : SearchDriver.decideNext q W searcher (ws i) y.2 with
          | error e' => rw [hy'] at hd; exact hd
          | ok y => rw [hy'] at hd; exact hd.elim
        | ok x' =>
          rw [hx'] at hd
          cases hy' : SearchDriver.decideNext q W searcher (ws i) y.2 with
          | error e' => rw [hy'] at hd; exact hd.elim
          | ok y' =>
            rw [hy'] at hd
            change Option.Rel HuntSame x' y' at hd
            cases hd with
            | none => exact ⟨congrArg (fun t => [t]) t1, .none⟩
            | @some m m' hm =>
              simp only
              have hr := same_rounds h W searcher ws n (i + 1) m m' hm
              cases hx'' : hunt exact (libOf T pi) (questOf q) W searcher ws n (i + 1) m with
              | error e =>
                rw [hx''] at hr
                cases hy'' : SearchDriver.rounds T q W searcher ws n (i + 1) m' with
                | error e' => rw [hy''] at hr; exact hr
                | ok y => rw [hy''] at hr; exact hr.elim
              | ok z =>
                rw [hx''] at hr
                cases hy'' : SearchDriver.rounds T q W searcher ws n (i + 1) m' with
                | error e' => rw [hy''] at hr; exact hr.elim
                | ok z' =>
                  rw [hy''] at hr
                  obtain ⟨r1, r2⟩ := hr
                  exact ⟨by rw [t1, r1]; rfl, r2⟩

/-- C126: without rounding the search is that of the model in real numbers: the same targets, the same panics, and it ends when the other one does. -/
theorem C126_model (h : Proper q) (W : Nat) (searcher : Searcher) (ws : Nat → Coord → WallState) (n : Nat) :
    (hunt exact (libOf T pi) (questOf q) W searcher ws n 0 ((questOf q).start exact (libOf T pi))).map (fun x => (x.1, x.2.isNone)) =
      (SearchDriver.rounds T q W searcher ws n 0 q.start).map (fun x => (x.1.map targetOf, x.2.isNone)) := by
  have hs : HuntSame ((questOf q).start exact (libOf T pi)) q.start := ⟨⟨rfl, same_init T pi h⟩, .none, rfl, rfl⟩
  have hr := same_rounds T pi h W searcher ws n 0 _ _ hs
  cases hx : hunt exact (libOf T pi) (questOf q) W searcher ws n 0 ((questOf q).start exact (libOf T pi)) with
  | error e =>
    rw [hx] at hr
    cases hy : SearchDriver.rounds T q W searcher ws n 0 q.start with
    | error e' => rw [hy] at hr; exact congrArg Except.error hr
    | ok y => rw [hy] at hr; exact hr.elim
  | ok z =>
    rw [hx] at hr
    cases hy : SearchDriver.rounds T q W searcher ws n 0 q.start with
    | error e' => rw [hy] at hr; exact hr.elim
    | ok z' =>
      rw [hy] at hr
      obtain ⟨r1, r2⟩ := hr
      refine congrArg Except.ok ?_
      show (z.1, z.2.isNone) = (z'.1.map targetOf, z'.2.isNone)
      rw [r1]
      generalize z.2 = u at r2
      generalize z'.2 = w at r2
      cases r2 <;> rfl

end

/-! ## Cases -/

/-- The settings of `tests/search.rs` with the front offset of `test_search_offset1`: squares of 9 cm, the robot 1 cm ahead of the border, 0.3 m/s,
10 m/s², 100 m/s³, turns with 1440 °/s; both velocities as the numbers of single precision nearest to them. -/
noncomputable def trialQuest : Quest where
  gen := ⟨.fin (10066330 * 2 ^ (-25 : ℤ)), .fin 10, .fin 100⟩
  spin := ⟨.fin (13176795 * 2 ^ (-19 : ℤ)), .fin 251.32741, .fin 502.65482⟩
  period := .fin 0.001
  squareWidth := .fin 0.09
  frontOffset := .fin 0.01
  pause := .fin 0.1
  home := ⟨.fin 0.045, .fin 0.045, .fin 1.5707964⟩

theorem trial_hunts : Hunts (10066330 * 2 ^ (-25 : ℤ)) 10 100 (13176795 * 2 ^ (-19 : ℤ)) 251.32741 502.65482 0.001 0.09 0.01 trialQuest := by
  have r1 := round24_fix (m := 10066330) (e := -25) (by norm_num) (by norm_num)
  have r2 := round24_fix (m := 13176795) (e := -19) (by norm_num) (by norm_num)
  have e : ∀ d, (Slalom.parameters 0.09 0.01 .search90 d).vRef = 0.09 * ((0.5 - 0.01 / 0.09) * 6.03975) := by
    intro d
    unfold Slalom.parameters
    dsimp only
    rw [if_neg (by norm_num)]
    cases d <;> rfl
  exact {
    gen := ⟨⟨rfl, rfl, rfl, by exact_mod_cast r1, by norm_num, by norm_num, by norm_num⟩, by norm_num, by norm_num, by norm_num⟩
    spin := ⟨⟨rfl, rfl, rfl, by exact_mod_cast r2, by norm_num, by norm_num, by norm_num⟩, by norm_num, by norm_num, by norm_num⟩
    period := rfl
    brief := ⟨by norm_num, by norm_num⟩
    width := rfl
    w0 := by norm_num
    w1 := by norm_num
    offset := rfl
    o0 := by norm_num
    o1 := by norm_num
    room := by norm_num
    pause := ⟨0.1, rfl, by norm_num⟩
    home := ⟨bd_fin (by norm_num [abs_of_pos]), bd_fin (by norm_num [abs_of_pos]), bd_fin (by norm_num [abs_of_pos])⟩
    low := by norm_num
    high := by norm_num
    slow := fun d => by rw [e]; norm_num
    fast := fun d => by rw [e]; norm_num }

/-- Whatever its sensors report, the search of the tests in a maze of 4 × 4 squares either commands its targets for `n` rounds, or ends, or fails in its own
`unreachable!()`. -/
example (exp : F → F) (ws : Nat → Coord → WallState) (n : Nat) : ∃ searcher, Searcher.new 4 ⟨0, 1⟩ [⟨6, 5⟩] = .ok searcher ∧
    ((∃ l e, hunt (arith exp) (libOf Control.Trig.real 3.14) trialQuest 4 searcher ws n 0 (trialQuest.start (arith exp) (libOf Control.Trig.real 3.14)) = .ok (l, e) ∧
      ∀ t ∈ l, Commanded (arith exp) (libOf Control.Trig.real 3.14) t) ∨
    hunt (arith exp) (libOf Control.Trig.real 3.14) trialQuest 4 searcher ws n 0 (trialQuest.start (arith exp) (libOf Control.Trig.real 3.14)) = .error .unreachable) := by
  have h : Request 4 ⟨0, 1⟩ [⟨6, 5⟩] := ⟨⟨2, by norm_num, rfl⟩, by decide, by decide⟩
  obtain ⟨searcher, hn⟩ : ∃ searcher, Searcher.new 4 ⟨0, 1⟩ [⟨6, 5⟩] = .ok searcher := by
    obtain ⟨r, hr⟩ := (C13_total h).1 fun _ => false
    cases e : Searcher.new 4 ⟨0, 1⟩ [⟨6, 5⟩] with
    | ok x => exact ⟨x, rfl⟩
    | error => rw [plan, e] at hr; cases hr
  refine ⟨searcher, hn, ?_⟩
  cases hr : hunt (arith exp) (libOf Control.Trig.real 3.14) trialQuest 4 searcher ws n 0 (trialQuest.start (arith exp) (libOf Control.Trig.real 3.14)) with
  | ok x => exact .inl ⟨x.1, x.2, rfl, (C126_targets circular_real (rooted_real _ _) trial_hunts h hn ws n x.1 x.2 hr).2.1⟩
  | error e => exact .inr (congrArg _ (C126_panics circular_real (rooted_real _ _) trial_hunts h hn ws n e hr).1)

/-- The pose of the first state: in the middle of the northern side of the first square, facing north. -/
example (exp : F → F) : Matches (placeOfSearch (arith exp) ⟨⟨0, 1⟩, .north⟩ (.fin 0.09) (.fin 0.01)) ⟨0.045, 0.1, Real.pi / 2⟩ 0.000000027 0.000000054 := by
  obtain ⟨x, y, θ, e, h1, h2, h3⟩ := C126_pose (exp := exp) (s := 0.09) (o := 0.01) (st := ⟨⟨0, 1⟩, .north⟩) (by norm_num) (by norm_num) (by norm_num) (by norm_num) (by norm_num) (by norm_num)
  have e90 : Slalom.degree 90 = Real.pi / 2 := by unfold Slalom.degree; ring
  unfold Slalom.poseOfSearch at h1 h2 h3
  dsimp only at h1 h2 h3
  rw [e90] at h3
  norm_num at h1 h2
  exact ⟨x, y, θ, e, by norm_num; exact h1, by norm_num; exact h2, h3⟩

/-- The settings of the tests in real numbers. -/
example (n : Nat) (W : Nat) (searcher : Searcher) (ws : Nat → Coord → WallState) (q : SearchDriver.SearchConfig)
    (hq : q = ⟨⟨0.3, 10, 100⟩, ⟨8 * Real.pi, 80 * Real.pi, 160 * Real.pi⟩, 0.001, 0.09, 0, 0.1⟩) :
    (hunt exact (libOf Control.Trig.real 3.14) (questOf q) W searcher ws n 0 ((questOf q).start exact (libOf Control.Trig.real 3.14))).map (fun x => (x.1, x.2.isNone)) =
      (SearchDriver.rounds Control.Trig.real q W searcher ws n 0 q.start).map (fun x => (x.1.map targetOf, x.2.isNone)) := by
  have hp := Real.pi_pos
  subst hq
  refine C126_model _ _ ⟨by norm_num, by norm_num, by norm_num, show 80 * Real.pi ≠ 0 by positivity, show 160 * Real.pi ≠ 0 by positivity, fun d => ?_⟩ W searcher ws n
  have e : (Slalom.parameters 0.09 0 .search90 d).vRef = 0.09 * 2.6843333 := by
    unfold Slalom.parameters
    dsimp only
    rw [if_pos (by norm_num)]
    cases d <;> rfl
  show (Slalom.parameters 0.09 0 .search90 d).vRef ≠ 0
  rw [e]
  norm_num

end Verif.Props
