import Verif.Proof.Lasting
import Verif.Props.SingleHunt
import Verif.Props.SearchLive
/-!
# C126: the search run in single precision ends
-/
namespace Verif.Props
open Verif Verif.Single Verif.Spec Verif.Binary32 Verif.Proof Verif.Grid Verif.Bfs
open Verif.Search (SearchState Commander Searcher Coord WallState TrajectoryKind)

variable {exp : F → F} {L : Lib} {V a j Vs as js p s o : ℝ} {c : Quest}

/-! ## More than one target -/

theorem produces_two {σ α : Type} {next : σ → Option α × σ} {s : σ} {l : List α} (h : Produces next s l) (h1 : (next s).1 ≠ none) (h2 : (next (next s).2).1 ≠ none) :
    2 ≤ l.length := by
  cases l with
  | nil => exact absurd (produces_nil h) h1
  | cons x l =>
    cases l with
    | nil => exact absurd (produces_nil (produces_cons h).2) h2
    | cons y l => simp

theorem chain_second {σ τ α : Type} {m : σ → Option α × σ} {n : τ → Option α × τ} {a : σ} {b : τ} (h : (m a).1 ≠ none) (hb : (n b).1 ≠ none) :
    (Slalom.chainNext m n (Slalom.chainNext m n (some a, b)).2).1 ≠ none := by
  rcases e : m a with ⟨x, a'⟩
  rw [e] at h
  cases x with
  | none => exact absurd rfl h
  | some x =>
    have e1 : (Slalom.chainNext m n (some a, b)).2 = (some a', b) := by
      unfold Slalom.chainNext
      dsimp only
      rw [e]
    rw [e1]
    unfold Slalom.chainNext
    dsimp only
    rcases e2 : m a' with ⟨y, a''⟩
    cases y with
    | none => exact hb
    | some y => exact Option.some_ne_none _

theorem shifted_first {σ : Type} {next : σ → Option Target × σ} {A : Arith} {L : Lib} {x y z : F} {s : σ} (h : (next s).1 ≠ none) :
    (shifted A L x y z next s).1 ≠ none := by
  unfold shifted
  cases e : (next s).1 with
  | none => exact absurd e h
  | some t => simp [e]

theorem stretch_second (k : Piece) {T p q : ℝ} (hp : rnd p = .fin q) (hq : 0 ≤ q) (h : q ≤ T) :
    (Stretch.next (arith exp) (Stretch.next (arith exp) ⟨k, Clock.new (.fin T) (.fin p)⟩).2).1 ≠ none := by
  have e : (arith exp).add (.fin 0) (.fin p) = .fin q := by
    show rnd (0 + p) = _
    rw [zero_add, hp]
  have e1 : (Stretch.next (arith exp) ⟨k, Clock.new (.fin T) (.fin p)⟩).2 = ⟨k, ⟨.fin q, .fin T, .fin p⟩⟩ := by
    unfold Stretch.next Clock.next Clock.new
    dsimp only
    rw [if_neg (show ¬ (F.fin T).lt (.fin 0) from not_lt.2 (hq.trans h)), e]
  rw [e1]
  unfold Stretch.next Clock.next
  dsimp only
  rw [if_neg (show ¬ (F.fin T).lt (.fin q) from not_lt.2 h)]
  exact Option.some_ne_none _

theorem straight_lingers (hL : Rooted L) (H : Hunts V a j Vs as js p s o c) {d x y : ℝ} (hx : Pace V x) (hy : Pace V y) (d0 : 0.0005 ≤ d) (d1 : d ≤ 10)
    (hd : 1.01 * (p * V) ≤ d) {l : List Target} (hl : Produces (Errand.next (arith exp) L) (.straight (c.gen.stretch (arith exp) L c.period (.fin d) (.fin x) (.fin y)).1) l) :
    2 ≤ l.length := by
  have h := H.high
  have low := H.low
  have short : V / 2 ^ 14 ≤ d := by norm_num at d0 ⊢; linarith
  have d00 : 0 ≤ d := by norm_num at d0; linarith
  have V0 : 0 < V := lt_of_lt_of_le (by positivity) low
  have p0 : 0 ≤ p := le_trans (by positivity) H.brief.low
  have p1 := H.brief.high
  obtain ⟨T, eT, hT⟩ := gen_lasts (exp := exp) hL H.gen.fit hx hy (abs_of_nonneg d00) short (d1.trans (by norm_num))
  obtain ⟨q, eq, q0, bq⟩ := Proof.rnd_up (z := p) p0 (by linarith)
  have hq : q ≤ T := by
    have hp : 1 / 2048 ≤ p := by have := H.brief.low; norm_num at this ⊢; exact this
    have h1 : q ≤ 1.001 * p := by have := (abs_le.1 bq).2; norm_num at this ⊢; linarith
    have h2 : V * (1.001 * p) ≤ V * T := by
      refine le_trans ?_ hT
      have : V * (1.001 * p) = 1.001 * (p * V) := by ring
      have : 0 ≤ p * V := mul_nonneg p0 V0.le
      norm_num at hd ⊢
      linarith
    exact h1.trans (le_of_mul_le_mul_left h2 V0)
  rw [H.period] at hl
  have hs : Produces (Stretch.next (arith exp)) (c.gen.stretch (arith exp) L (.fin p) (.fin d) (.fin x) (.fin y)).1 l := fun n => (errand_straight _ _ n _).symm.trans (hl n)
  refine produces_two hs (accel_first hL H.gen.fit hx hy short d1 _) ?_
  rcases e : c.gen.generate (arith exp) L (.fin 0) (.fin d) (.fin x) (.fin y) with ⟨k, T', u⟩
  rw [e] at eT
  obtain rfl : T' = .fin T := eT
  have e1 : (c.gen.stretch (arith exp) L (.fin p) (.fin d) (.fin x) (.fin y)).1 = ⟨.accel k, Clock.new (.fin T) (.fin p)⟩ := by
    unfold Gen.stretch
    rw [e]
  rw [e1]
  exact stretch_second _ eq q0 hq

theorem init_lingers (hL : Rooted L) (H : Hunts V a j Vs as js p s o c) (hq : p * V ≤ 0.49 * s) {l : List Target}
    (hl : Produces (Errand.next (arith exp) L) (c.init (arith exp) L) l) : 2 ≤ l.length := by
  obtain ⟨⟨d, ed, d0, d1⟩, -⟩ := lengths_ok (exp := exp) H.w0 H.w1 H.o0 H.o1 H.room
  obtain ⟨z, v⟩ := hunt_pace H
  have w0 := H.w0
  have o0 := H.o0
  have o1 := H.o1
  have w1 := H.w1
  have hd : 0.499 * s ≤ d := by
    obtain ⟨h, eh, h0, bh⟩ := half_ok (exp := exp) (s := s) (by norm_num at w0; linarith) w1
    obtain ⟨b1, b2⟩ := abs_le.1 bh
    norm_num at b1 b2 w0 o1
    obtain ⟨x, ex, bx⟩ := plus_ok (exp := exp) (x := h) (y := o) (by rw [abs_le]; constructor <;> linarith)
    rw [eh, ex] at ed
    injection ed with ed
    subst ed
    rw [abs_of_nonneg (show 0 ≤ h + o by linarith)] at bx
    obtain ⟨x1, x2⟩ := abs_le.1 bx
    norm_num at x1 ⊢
    linarith
  unfold Quest.init at hl
  rw [H.width, H.offset, ed, H.gen.fit.vMax] at hl
  exact straight_lingers hL H z v d0 (by linarith) (by norm_num at hq hd w0 ⊢; linarith) hl

theorem errand_lingers (hL : Rooted L) (H : Hunts V a j Vs as js p s o c) (hq : p * V ≤ 0.49 * s) :
    ∀ (k : TrajectoryKind) {l : List Target}, Produces (Errand.next (arith exp) L) (c.errand (arith exp) L k) l → 2 ≤ l.length := by
  have slalom : ∀ (d : Run.SlalomDirection) {l : List Target}, Produces (Errand.next (arith exp) L) (.slalom (outline (arith exp) c.squareWidth c.frontOffset .search90 d)
      ((outline (arith exp) c.squareWidth c.frontOffset .search90 d).constantSlalom (arith exp) L c.period c.gen.vMax)) l → 2 ≤ l.length := by
    intro d l hl
    have hs : Produces ((outline (arith exp) c.squareWidth c.frontOffset .search90 d).next (arith exp) L)
        ((outline (arith exp) c.squareWidth c.frontOffset .search90 d).constantSlalom (arith exp) L c.period c.gen.vMax) l :=
      fun n => (errand_slalom _ _ _ n _).symm.trans (hl n)
    refine produces_two hs (chain_first (chain_first (constant_first _ _ _ _) _) _) ?_
    exact chain_second (chain_first (constant_first _ _ _ _) _) (shifted_first (constant_first _ _ _ _))
  intro k l hl
  have w0 := H.w0
  have w1 := H.w1
  cases k with
  | front =>
    have v := (hunt_pace H).2
    unfold Quest.errand at hl
    dsimp only at hl
    rw [H.width, H.gen.fit.vMax] at hl
    exact straight_lingers hL H v v (by norm_num at w0 ⊢; linarith) (by linarith) (by norm_num at hq w0 ⊢; linarith) hl
  | right => exact slalom .right hl
  | left => exact slalom .left hl
  | back =>
    obtain ⟨⟨d, ed, d0, d1⟩, ⟨d', ed', d0', d1'⟩⟩ := lengths_ok (exp := exp) H.w0 H.w1 H.o0 H.o1 H.room
    obtain ⟨z, v⟩ := hunt_pace H
    have hV := H.high
    have short : V / 2 ^ 14 ≤ d := by norm_num at d0 ⊢; linarith
    have short' : V / 2 ^ 14 ≤ d' := by norm_num at d0' ⊢; linarith
    unfold Quest.errand at hl
    dsimp only at hl
    rw [H.width, H.offset, ed, ed', H.gen.fit.vMax] at hl
    have hs := fun n => (errand_back _ _ _ _ n _).symm.trans (hl n)
    refine produces_two hs ?_ ?_
    · exact chain_first (chain_first (chain_first (chain_first (accel_first hL H.gen.fit v z short' (by linarith) _) _) _) _) _
    · exact chain_second (chain_first (chain_first (chain_first (accel_first hL H.gen.fit v z short' (by linarith) _) _) _) _)
        (shifted_first (accel_first hL H.gen.fit z v short (by linarith) _))

/-! ## Rounds -/

section
variable {A : Arith} {W : Nat} {goals : List Coord} {maze : Coord → Bool}

/-- One target, with what else is left as it was. -/
theorem stays_next (he : ∀ k, ∃ l, Produces (Errand.next A L) (c.errand A L k) l ∧ 2 ≤ l.length) (h : Request W ⟨0, 1⟩ goals)
    {known : Coord → Prop} {l : List Target} {lp : Hunt} {s : SearchState} {rest : List Target} (I : Stays A L c W goals known l lp s rest) :
    (∃ t rest' lp', rest = t :: rest' ∧ track A L lp = .ok (t, lp') ∧ lp'.next = lp.next ∧ lp'.commander = lp.commander ∧ lp'.robot = lp.robot ∧
      Stays A L c W goals known (l ++ [t]) lp' s rest') ∨
    (rest = [] ∧ lp.next ≠ none ∧ ∃ t rest' lp', track A L lp = .ok (t, lp') ∧ lp'.next = none ∧ lp'.commander = none ∧
      Stays A L c W goals known (l ++ [t]) lp' lp.robot rest' ∧ rest' ≠ []) ∨
    (rest = [] ∧ lp.next = none ∧ track A L lp = .error .unreachable) := by
  cases rest with
  | cons t rest =>
    left
    obtain ⟨e1, e2⟩ := produces_cons I.left
    refine ⟨t, rest, { lp with trajectory := (lp.trajectory.1, (shiftedTo A L lp.trajectory.1 (Errand.next A L) lp.trajectory.2).2) }, rfl, ?_, rfl, rfl, rfl,
      by have := I.path; simpa using this, I.state, e2, I.plan⟩
    unfold track
    generalize shiftedTo A L lp.trajectory.1 (Errand.next A L) lp.trajectory.2 = z at e1
    obtain ⟨a, b⟩ := z
    subst e1
    rfl
  | nil =>
    right
    have e1 := produces_nil I.left
    have ht := I.path
    rw [List.append_nil] at ht
    rcases I.plan with ⟨p1, p2, p3⟩ | ⟨p1, next, k, p2, p3, p4, p5⟩
    · right
      refine ⟨rfl, p1, ?_⟩
      unfold track
      generalize shiftedTo A L lp.trajectory.1 (Errand.next A L) lp.trajectory.2 = z at e1
      obtain ⟨a, b⟩ := z
      subst e1
      rw [p1]
    · left
      obtain ⟨l', k1, k2⟩ := he k
      match l', k2 with
      | t :: t2 :: rest', _ =>
        have k3 := shifted_produces (A := A) (L := L) (px := (placeOfSearch A s c.squareWidth c.frontOffset).x)
          (py := (placeOfSearch A s c.squareWidth c.frontOffset).y) (pt := (placeOfSearch A s c.squareWidth c.frontOffset).theta) k1
        rw [List.map_cons] at k3
        obtain ⟨c1, c2⟩ := produces_cons k3
        refine ⟨rfl, by rw [p2]; exact Option.some_ne_none _, shift A L (placeOfSearch A s c.squareWidth c.frontOffset).x (placeOfSearch A s c.squareWidth c.frontOffset).y
            (placeOfSearch A s c.squareWidth c.frontOffset).theta t, _, { lp with trajectory := (placeOfSearch A s c.squareWidth c.frontOffset, (shiftedTo A L (placeOfSearch A s c.squareWidth c.frontOffset) (Errand.next A L) (c.errand A L k)).2), next := none },
          ?_, rfl, p1, ⟨?_, ?_, c2, .inl ⟨rfl, rfl, fun cmd hcmd => by rw [p1] at hcmd; cases hcmd⟩⟩, by simp⟩
        · unfold track
          generalize shiftedTo A L lp.trajectory.1 (Errand.next A L) lp.trajectory.2 = z at e1
          obtain ⟨a, b⟩ := z
          subst e1
          rw [p2]
          simp only
          change (shiftedTo A L (placeOfSearch A s c.squareWidth c.frontOffset) (Errand.next A L) (c.errand A L k)).1 = _ at c1
          generalize shiftedTo A L (placeOfSearch A s c.squareWidth c.frontOffset) (Errand.next A L) (c.errand A L k) = z at c1
          obtain ⟨a, b⟩ := z
          subst c1
          rfl
        · rw [List.append_assoc]
          exact .move ht p4 p3 p5 rfl k1
        · obtain ⟨s1, k1, u1, u2, -⟩ := update_total h.width I.state p4.2.1
          rw [p5] at u1
          simp only [Except.ok.injEq, Prod.mk.injEq] at u1
          rw [u1.1]
          exact u2

theorem hunt_append {searcher : Searcher} {ws : Nat → Coord → WallState} (m : Nat) {lp' : Hunt} : ∀ {n i : Nat} {lp : Hunt} {ts : List Target},
    hunt A L c W searcher ws n i lp = .ok (ts, some lp') →
    hunt A L c W searcher ws (n + m) i lp = (hunt A L c W searcher ws m (i + n) lp' >>= fun z => .ok (ts ++ z.1, z.2))
  | 0, i, lp, ts, h => by
    cases h
    rw [Nat.zero_add, Nat.add_zero]
    cases hunt A L c W searcher ws m i lp' <;> rfl
  | n + 1, i, lp, ts, h => by
    rw [Nat.succ_add, hunt_succ]
    rw [hunt_succ] at h
    cases h1 : track A L lp with
    | error => rw [h1] at h; cases h
    | ok x =>
      rw [h1] at h
      simp only [bind, Except.bind] at h ⊢
      cases h2 : decideNext A L c W searcher (ws i) x.2 with
      | error => rw [h2] at h; cases h
      | ok y =>
        rw [h2] at h
        simp only at h ⊢
        cases y with
        | none => cases h
        | some lp1 =>
          simp only at h ⊢
          cases h3 : hunt A L c W searcher ws n (i + 1) lp1 with
          | error => rw [h3] at h; cases h
          | ok z =>
            rw [h3] at h
            obtain ⟨z1, z2⟩ := z
            simp only [Except.ok.injEq, Prod.mk.injEq] at h
            obtain ⟨rfl, rfl⟩ := h
            have := hunt_append m h3
            simp only [bind, Except.bind] at this
            rw [this, show i + 1 + n = i + (n + 1) by omega]
            cases hunt A L c W searcher ws m (i + (n + 1)) lp' <;> rfl

theorem hunt_one {searcher : Searcher} {ws : Nat → Coord → WallState} {i : Nat} {lp lp1 lp2 : Hunt} {t : Target}
    (h1 : track A L lp = .ok (t, lp1)) (h2 : decideNext A L c W searcher (ws i) lp1 = .ok (some lp2)) :
    hunt A L c W searcher ws 1 i lp = .ok ([t], some lp2) := by
  rw [hunt_succ, h1]
  simp only [bind, Except.bind, h2]
  rfl

theorem hunt_snoc {searcher : Searcher} {ws : Nat → Coord → WallState} {n m i : Nat} {lp lp1 lp2 : Hunt} {ts ts' : List Target}
    (h1 : hunt A L c W searcher ws n i lp = .ok (ts, some lp1)) (h2 : hunt A L c W searcher ws m (i + n) lp1 = .ok (ts', some lp2)) :
    hunt A L c W searcher ws (n + m) i lp = .ok (ts ++ ts', some lp2) := by
  rw [hunt_append m h1, h2]
  rfl

/-- The rest of a trajectory when the next is chosen already. -/
theorem hunt_finish (he : ∀ k, ∃ l, Produces (Errand.next A L) (c.errand A L k) l ∧ 2 ≤ l.length) (h : Request W ⟨0, 1⟩ goals) {searcher : Searcher}
    {ws : Nat → Coord → WallState} {known : Coord → Prop} {s : SearchState} :
    ∀ (rest : List Target) (i : Nat) (l : List Target) (lp : Hunt), Stays A L c W goals known l lp s rest → lp.commander = none → lp.next ≠ none →
      ∃ ts lp', hunt A L c W searcher ws rest.length i lp = .ok (ts, some lp') ∧ Stays A L c W goals known (l ++ ts) lp' s [] ∧
        lp'.commander = none ∧ lp'.next ≠ none ∧ lp'.robot = lp.robot
  | [], i, l, lp, I, h1, h2 => ⟨[], lp, rfl, by simpa using I, h1, h2, rfl⟩
  | t :: rest, i, l, lp, I, h1, h2 => by
    rcases stays_next he h I with ⟨t', rest', lp', e, q1, q2, q3, q4, q5⟩ | ⟨e, -⟩ | ⟨e, -⟩
    · cases e
      have hd : decideNext A L c W searcher (ws i) lp' = .ok (some lp') := by
        unfold decideNext
        rw [q3, h1, q2]
        cases hx : lp.next with
        | none => exact absurd hx h2
        | some => rfl
      obtain ⟨ts, lp2, r1, r2, r3, r4, r5⟩ := hunt_finish he h (searcher := searcher) (ws := ws) rest (i + 1) (l ++ [t]) lp' q5 (by rw [q3, h1]) (by rw [q2]; exact h2)
      refine ⟨[t] ++ ts, lp2, ?_, by simpa using r2, r3, r4, by rw [r5, q4]⟩
      rw [List.length_cons, Nat.add_comm]
      exact hunt_snoc (hunt_one q1 hd) r1
    · cases e
    · cases e

/-- Waiting for the commander, at the longest until the last target of the trajectory. -/
theorem hunt_wait (he : ∀ k, ∃ l, Produces (Errand.next A L) (c.errand A L k) l ∧ 2 ≤ l.length) (h : Request W ⟨0, 1⟩ goals) {searcher : Searcher}
    {ws : Nat → Coord → WallState} {s : SearchState} {cmd : Commander}
    {ws0 : Coord → WallState} (hcmd : explore W ⟨0, 1⟩ goals s.coord ws0 = .ok (.ok (some cmd))) (herr : ∀ j e, cmd.nextCoordinate (ws j) ≠ .error e)
    (hp : Prompt A L c W searcher ws) :
    ∀ (rest : List Target) (i : Nat) (l : List Target) (lp : Hunt), Stays A L c W goals (fun _ => True) l lp s rest → lp.commander = some cmd → lp.next = none →
      rest ≠ [] → hunt A L c W searcher ws i 0 (c.start A L) = .ok (l, some lp) →
      ∃ q ts lp' rest' nc k, hunt A L c W searcher ws (q + 1) i lp = .ok (ts, some lp') ∧ Stays A L c W goals (fun _ => True) (l ++ ts) lp' s rest' ∧
        lp'.next ≠ none ∧ lp'.commander = none ∧ s.update nc = .ok (lp'.robot, some k) ∧ cmd.nextCoordinate (ws (i + q)) = .ok (some nc)
  | [], _, _, _, _, _, _, h3, _ => absurd rfl h3
  | t :: rest, i, l, lp, I, h1, h2, h3, h4 => by
    rcases stays_next he h I with ⟨t', rest', lp', e, q1, q2, q3, q4, q5⟩ | ⟨e, -⟩ | ⟨e, -⟩
    · cases e
      cases hn : cmd.nextCoordinate (ws i) with
      | error e => exact absurd hn (herr i e)
      | ok o =>
        cases o with
        | some nc =>
          rcases q5.plan with ⟨-, p2, -⟩ | ⟨p1, -⟩
          · obtain ⟨s', k, u1, -⟩ := C22_executable h I.state ws0 (ws i) cmd hcmd nc (.inl hn)
            have hd : decideNext A L c W searcher (ws i) lp' = .ok (some { lp' with robot := s', next := some (placeOfSearch A s c.squareWidth c.frontOffset, c.errand A L k), commander := none }) := by
              unfold decideNext
              rw [q3, h1]
              simp only [Option.map_some, hn, p2]
              rw [u1]
              rfl
            obtain ⟨before, after, n1, -⟩ := ((C20_next_coordinate cmd (ws i)).1 nc).1 hn
            obtain ⟨-, -, hcand, -⟩ := C18_candidates h I.state.1 ws0 cmd hcmd
            have ha := ((hcand nc).1 (by rw [n1]; simp)).1
            exact ⟨0, [t], _, rest, nc, k, hunt_one q1 hd, ⟨q5.path, q5.state, q5.left, .inr ⟨rfl, nc, k, rfl, trivial, ha, u1⟩⟩, by simp, rfl, u1, hn⟩
          · rw [q3, h1] at p1
            cases p1
        | none =>
          have hr : rest ≠ [] := by
            rintro rfl
            exact hp i l lp t lp' cmd h4 q1 (produces_nil q5.left) (by rw [q3, h1]) hn
          have hd : decideNext A L c W searcher (ws i) lp' = .ok (some lp') := by
            unfold decideNext
            rw [q3, h1]
            simp only [Option.map_some, hn]
            rfl
          have h5 : hunt A L c W searcher ws (i + 1) 0 (c.start A L) = .ok (l ++ [t], some lp') := by
            rw [hunt_append 1 h4, Nat.zero_add, hunt_one q1 hd]
            rfl
          obtain ⟨q, ts, lp2, rest2, nc, k, r1, r2, r3, r4, r5, r6⟩ := hunt_wait he h (searcher := searcher) hcmd herr hp rest (i + 1) (l ++ [t]) lp' q5
            (by rw [q3, h1]) (by rw [q2, h2]) hr h5
          refine ⟨q + 1, [t] ++ ts, lp2, rest2, nc, k, ?_, by simpa using r2, r3, r4, r5, by rwa [Nat.add_right_comm] at r6⟩
          rw [Nat.add_comm]
          exact hunt_snoc (hunt_one q1 hd) r1
    · cases e
    · cases e

/-- From the first target of a trajectory to the end of the search. -/
theorem hunt_ends (he : ∀ k, ∃ l, Produces (Errand.next A L) (c.errand A L k) l ∧ 2 ≤ l.length) (h : Request W ⟨0, 1⟩ goals) {searcher : Searcher}
    (hn : Searcher.new W ⟨0, 1⟩ goals = .ok searcher)
    {ws : Nat → Coord → WallState} (htruth : ∀ i, Truthful W maze (ws i)) (hslot : ∀ i, SlotConsistent W (ws i)) (hext : ∀ i, Extends (ws i) (ws (i + 1)))
    (hp : Prompt A L c W searcher ws) :
    ∀ (N m : Nat) (l : List Target) (lp lp1 : Hunt) (t : Target) (s : SearchState) (rest : List Target), effort W ⟨0, 1⟩ goals (s, ws m) < N → Knows W maze s (ws m) →
      hunt A L c W searcher ws m 0 (c.start A L) = .ok (l, some lp) → track A L lp = .ok (t, lp1) → lp1.next = none → lp1.commander = none →
      Stays A L c W goals (fun _ => True) (l ++ [t]) lp1 s rest → rest ≠ [] →
      ∃ n s', Knows W maze s' (ws n) ∧
        ((∃ ts, hunt A L c W searcher ws (n + 1) 0 (c.start A L) = .ok (ts, none) ∧ explore W ⟨0, 1⟩ goals s'.coord (ws n) = .ok (.ok none)) ∨
         (hunt A L c W searcher ws (n + 1) 0 (c.start A L) = .error .unreachable ∧ explore W ⟨0, 1⟩ goals s'.coord (ws n) = .ok (.error .unreachable)))
  | 0, m, l, lp, lp1, t, s, rest, he, _, _, _, _, _, _, _ => absurd he (by omega)
  | N + 1, m, l, lp, lp1, t, s, rest, hN, hk, hr, htr, hn1, hc1, I, hlen => by
    have hse : ∀ x, explore W ⟨0, 1⟩ goals x (ws m) = searcher.search W x (ws m) := fun x => by rw [explore, hn]; rfl
    have hrob : lp1.robot = s := by
      rcases I.plan with ⟨-, p2, -⟩ | ⟨-, next, k, p2, -⟩
      · exact p2
      · rw [hn1] at p2; cases p2
    obtain ⟨r, hx⟩ := (C13_total h).2 s.coord I.state.1 (ws m)
    have hx' := hx
    rw [hse] at hx'
    have one : hunt A L c W searcher ws (m + 1) 0 (c.start A L) = (hunt A L c W searcher ws 1 m lp >>= fun z => .ok (l ++ z.1, z.2)) := by
      have := hunt_append 1 hr
      rwa [Nat.zero_add] at this
    cases r with
    | error e =>
      cases e
      refine ⟨m, s, hk, .inr ⟨?_, hx⟩⟩
      rw [one, hunt_succ, htr]
      simp only [bind, Except.bind]
      have : decideNext A L c W searcher (ws m) lp1 = .error .unreachable := by
        unfold decideNext
        rw [hc1, hn1, hrob, hx']
        rfl
      rw [this]
    | ok o =>
      cases o with
      | none =>
        refine ⟨m, s, hk, .inl ⟨l ++ [t], ?_, hx⟩⟩
        rw [one, hunt_succ, htr]
        simp only [bind, Except.bind]
        have : decideNext A L c W searcher (ws m) lp1 = .ok none := by
          unfold decideNext
          rw [hc1, hn1, hrob, hx']
          rfl
        rw [this]
      | some cmd =>
        have hdec : decideNext A L c W searcher (ws m) lp1 = .ok (some { lp1 with commander := some cmd }) := by
          unfold decideNext
          rw [hc1, hn1, hrob, hx']
          simp [← hrob]
          rfl
        have r1 : hunt A L c W searcher ws (m + 1) 0 (c.start A L) = .ok (l ++ [t], some { lp1 with commander := some cmd }) := by
          rw [one, hunt_one htr hdec]
          rfl
        have I1 : Stays A L c W goals (fun _ => True) (l ++ [t]) { lp1 with commander := some cmd } s rest :=
          ⟨I.path, I.state, I.left, .inl ⟨hn1, hrob, fun cmd' hcmd => by cases hcmd; exact ⟨_, hx⟩⟩⟩
        obtain ⟨q, ts, lp2, rest2, nc, k, w1, w2, w3, w4, w5, w6⟩ := hunt_wait he h (searcher := searcher) hx
          (fun j e => knows_no_error h hk (htruth j) hx e) hp rest (m + 1) _ _ I1 rfl hn1 hlen r1
        have r2 := hunt_snoc r1 (by rw [Nat.zero_add]; exact w1)
        obtain ⟨ts', lp3, f1, f2, f3, f4, f5⟩ := hunt_finish he h (searcher := searcher) (ws := ws) rest2 (m + 1 + (q + 1)) _ lp2 w2 w4 w3
        have r3 := hunt_snoc r2 (by rw [Nat.zero_add]; exact f1)
        have hext' : Extends (ws (m + 1 + q)) (ws (m + 1 + (q + 1) + rest2.length)) := extends_le hext (by omega)
        obtain ⟨hk', hlt⟩ := knows_step h hk (htruth (m + 1 + (q + 1) + rest2.length)) (hslot _) (extends_le hext (by omega)) hx (next_stable hext' w6) w5
        rcases stays_next he h f2 with ⟨_, _, _, e, -⟩ | ⟨-, -, t', rest', lp', q1, q2, q3, q5, q6⟩ | ⟨-, e, -⟩
        · cases e
        · exact hunt_ends he h hn htruth hslot hext hp N _ _ lp3 lp' t' lp3.robot rest' (by rw [f5]; omega) (by rw [f5]; exact hk') r3 q1 q2 q3 q5 q6
        · exact absurd e f4

theorem hunt_stuck (he : ∀ k, ∃ l, Produces (Errand.next A L) (c.errand A L k) l ∧ 2 ≤ l.length) (h : Request W ⟨0, 1⟩ goals) {searcher : Searcher}
    {ws : Nat → Coord → WallState} {known : Coord → Prop} {s : SearchState} {cmd : Commander} :
    ∀ (rest : List Target) (i : Nat) (l : List Target) (lp : Hunt), Stays A L c W goals known l lp s rest → lp.commander = some cmd → lp.next = none →
      (∀ j, i ≤ j → cmd.nextCoordinate (ws j) = .ok none) → hunt A L c W searcher ws (rest.length + 1) i lp = .error .unreachable
  | [], i, l, lp, I, _, h2, _ => by
    rcases stays_next he h I with ⟨_, _, _, e, -⟩ | ⟨-, e, -⟩ | ⟨-, -, e⟩
    · cases e
    · exact absurd h2 e
    · rw [hunt_succ, e]
      rfl
  | t :: rest, i, l, lp, I, h1, h2, h3 => by
    rcases stays_next he h I with ⟨t', rest', lp', e, q1, q2, q3, q4, q5⟩ | ⟨e, -⟩ | ⟨e, -⟩
    · cases e
      have hd : decideNext A L c W searcher (ws i) lp' = .ok (some lp') := by
        unfold decideNext
        rw [q3, h1]
        simp only [Option.map_some, h3 i le_rfl]
        rfl
      rw [hunt_succ, q1]
      simp only [bind, Except.bind, hd]
      rw [List.length_cons, hunt_stuck he h rest (i + 1) (l ++ [t]) lp' q5 (by rw [q3, h1]) (by rw [q2, h2]) (fun j hj => h3 j (by omega))]
    · cases e
    · cases e

end

/-! ## The end -/

theorem errand_two (hU : Circular L) (hL : Rooted L) (H : Hunts V a j Vs as js p s o c) (hq : p * V ≤ 0.49 * s) (k : TrajectoryKind) :
    ∃ l, Produces (Errand.next (arith exp) L) (c.errand (arith exp) L k) l ∧ 2 ≤ l.length := by
  obtain ⟨l, h1, -⟩ := errand_finishes (exp := exp) hU hL H k
  exact ⟨l, h1, errand_lingers hL H hq k h1⟩

/-- **C126, the end.** In single precision, with at most 49 % of a square per period: sensors that never change what they have reported, tell the truth about
the maze, know that the side the mouse goes over first is open, and have settled what the commander asks for when the last target of a trajectory is
commanded. Then the search ends. If a goal can be reached, it ends without panic, and the map of the last round has the same shortest path as the
maze. If no goal can be reached, it ends with a panic. -/
theorem C126_ends (hU : Circular L) (hL : Rooted L) (H : Hunts V a j Vs as js p s o c) (hq : p * V ≤ 0.49 * s) {W : Nat} {goals : List Coord}
    (h : Request W ⟨0, 1⟩ goals) {searcher : Searcher} (hn : Searcher.new W ⟨0, 1⟩ goals = .ok searcher)
    (maze : Coord → Bool) (ws : Nat → Coord → WallState) (htruth : ∀ i, Truthful W maze (ws i)) (hslot : ∀ i, SlotConsistent W (ws i))
    (hext : ∀ i, Extends (ws i) (ws (i + 1))) (hopen : ws 0 ⟨0, 1⟩ = .checked false) (hout : ∃ x, Adjacent W ⟨0, 1⟩ x ∧ maze x = false)
    (hp : Prompt (arith exp) L c W searcher ws) :
    (∃ n l path, hunt (arith exp) L c W searcher ws (n + 1) 0 (c.start (arith exp) L) = .ok (l, none) ∧ plan W ⟨0, 1⟩ goals maze = .ok (some path) ∧
      plan W ⟨0, 1⟩ goals (pessimistic (ws n)) = .ok (some path)) ∨
    (∃ n, hunt (arith exp) L c W searcher ws (n + 1) 0 (c.start (arith exp) L) = .error .unreachable ∧ plan W ⟨0, 1⟩ goals maze = .ok none) := by
  have he := errand_two (exp := exp) hU hL H hq
  obtain ⟨li, hi, -⟩ := init_finishes (exp := exp) hL H
  have h2 := init_lingers hL H hq hi
  have I : Stays (arith exp) L c W goals (fun _ => True) [] (c.start (arith exp) L) ⟨⟨0, 1⟩, .north⟩ _ :=
    ⟨.start hi, ⟨h.start, by simp [Faces, vec]⟩, shifted_produces hi, .inl ⟨rfl, rfl, fun cmd hcmd => by cases hcmd⟩⟩
  have hk : Knows W maze ⟨⟨0, 1⟩, .north⟩ (ws 0) := ⟨⟨I.state, hslot 0⟩, htruth 0, hopen, ⟨[], trivial, rfl⟩, hout⟩
  have hne : li ≠ [] := by rintro rfl; simp at h2
  rcases stays_next he h I with ⟨t, rest', lp', e, q1, q2, q3, q4, q5⟩ | ⟨e, -⟩ | ⟨e, -⟩
  · have hr' : rest' ≠ [] := by
      rintro rfl
      have := congrArg List.length e
      simp at this
      omega
    obtain ⟨n, s', hk', hr⟩ := hunt_ends he h hn htruth hslot hext hp _ 0 [] (c.start (arith exp) L) lp' t _ rest' (Nat.lt_succ_self _) hk rfl q1 q2 q3 q5 hr'
    have hopen' : ∀ c, Valid W c → maze c = false → ws n c ≠ .checked true := fun c hc hmc hw => by
      rw [htruth n c true hc hw] at hmc; cases hmc
    rcases hr with ⟨ts, r1, r2⟩ | ⟨r1, r2⟩
    · left
      obtain ⟨path, p1, p2, -⟩ := C23_complete_optimal h hk'.good.1.1 (ws n) maze (htruth n) r2
      exact ⟨n, ts, path, r1, p1, p2⟩
    · right
      refine ⟨n, r1, (C12_complete h maze).2 ?_⟩
      have := unreachable_only_goal h hk'.good.1.1 (hslot n) (by rw [hk'.here]; simp) (hk'.back.mono hopen') r2
      rintro ⟨path, q1, q2, q3⟩
      exact this ⟨path, q1, q2, runPath_mono hopen' q3⟩
  · exact absurd (List.map_eq_nil_iff.1 e) hne
  · exact absurd (List.map_eq_nil_iff.1 e) hne

/-- **C126, too late.** When the commander waits for a wall that is never decided, the loop panics: there is no other move to fall back on. -/
theorem C126_late (hU : Circular L) (hL : Rooted L) (H : Hunts V a j Vs as js p s o c) (hq : p * V ≤ 0.49 * s) {W : Nat} {goals : List Coord}
    (h : Request W ⟨0, 1⟩ goals) {searcher : Searcher} (hn : Searcher.new W ⟨0, 1⟩ goals = .ok searcher)
    (ws : Nat → Coord → WallState) (n : Nat) (l : List Target) (lp : Hunt) (hr : hunt (arith exp) L c W searcher ws n 0 (c.start (arith exp) L) = .ok (l, some lp))
    (cmd : Commander) (hcmd : lp.commander = some cmd) (hlate : ∀ j, n ≤ j → cmd.nextCoordinate (ws j) = .ok none) :
    ∃ m, hunt (arith exp) L c W searcher ws m 0 (c.start (arith exp) L) = .error .unreachable := by
  have he := errand_two (exp := exp) hU hL H hq
  obtain ⟨li, hi, -⟩ := init_finishes (exp := exp) hL H
  obtain ⟨rest, I⟩ := stays_start hi h (fun _ => True)
  obtain ⟨r, -⟩ := stays_hunt (fun k => by obtain ⟨l, h1, h2⟩ := he k; exact ⟨l, h1, by rintro rfl; simp at h2⟩) h hn ws n 0 [] _ _ rest I (fun _ _ _ _ => trivial)
  obtain ⟨s', rest', -, t3, -⟩ := r l _ hr
  obtain ⟨-, I'⟩ := t3 lp rfl
  rw [List.nil_append] at I'
  have hnext : lp.next = none := by
    rcases I'.plan with ⟨p1, -⟩ | ⟨p1, -⟩
    · exact p1
    · rw [hcmd] at p1; cases p1
  refine ⟨n + (rest'.length + 1), ?_⟩
  rw [hunt_append _ hr, Nat.zero_add, hunt_stuck he h rest' n l lp I' hcmd hnext hlate]
  rfl

/-- C124: no trajectory is over before its length could be travelled with the largest velocity (up to a ten-thousandth). -/
theorem C124_lasting (hL : Rooted L) {v a j x y D : ℝ} {g : Gen} (G : Fit v a j g) (hx : Pace v x) (hy : Pace v y) (short : v / 2 ^ 14 ≤ |D|) (long : |D| ≤ 2 ^ 30)
    (p : F) : ∃ T : ℝ, (g.journey (arith exp) L p (.fin D) (.fin x) (.fin y)).1.clock.tEnd = .fin T ∧ 0.9999 * |D| ≤ v * T := by
  obtain ⟨T, e, h⟩ := gen_lasts (exp := exp) hL G hx hy rfl short long
  exact ⟨T, e, h⟩

/-! ## Cases -/

/-- The search of the tests, in single precision, with a map that shows everything from the second round on: it ends in every maze. -/
example (exp : F → F) {W : Nat} {goals : List Coord} (h : Request W ⟨0, 1⟩ goals) {searcher : Searcher} (hn : Searcher.new W ⟨0, 1⟩ goals = .ok searcher)
    (maze : Coord → Bool) (hopen : maze ⟨0, 1⟩ = false) (hout : ∃ x, Adjacent W ⟨0, 1⟩ x ∧ maze x = false) (path : List Coord)
    (hp : plan W ⟨0, 1⟩ goals maze = .ok (some path)) :
    ∃ n l, hunt (arith exp) (libOf Control.Trig.real 3.14) trialQuest W searcher (sudden maze) (n + 1) 0
      (trialQuest.start (arith exp) (libOf Control.Trig.real 3.14)) = .ok (l, none) ∧ plan W ⟨0, 1⟩ goals (pessimistic (sudden maze n)) = .ok (some path) := by
  obtain ⟨k1, k2, k3⟩ := sudden_facts (W := W) maze
  have k4 : Prompt (arith exp) (libOf Control.Trig.real 3.14) trialQuest W searcher (sudden maze) := by
    intro n l lp t lp' cmd hr ht _ hcmd hnone
    obtain ⟨_, x, _, _, e, _⟩ := (C20_next_coordinate cmd _).2.1.1 hnone
    unfold sudden at e
    by_cases hn : n = 0
    · subst hn
      cases hr
      unfold track at ht
      split at ht
      · cases ht; cases hcmd
      · split at ht
        · cases ht
        · split at ht <;> cases ht
          cases hcmd
    · rw [if_neg hn] at e
      cases e
  rcases C126_ends circular_real (rooted_real _ _) trial_hunts (by norm_num) h hn maze (sudden maze) k1 k2 k3 (by simp [sudden, hopen]) hout k4 with
    ⟨n, l, p, r1, r2, r3⟩ | ⟨n, r1, r2⟩
  · rw [hp] at r2
    cases r2
    exact ⟨n, l, r1, r3⟩
  · rw [hp] at r2
    cases r2

/-- 9 cm at 0.3 m/s take at least 0.2999 s. -/
example (exp : F → F) (p : F) : ∃ T : ℝ, (trialQuest.gen.journey (arith exp) (libOf Control.Trig.real 3.14) p (.fin 0.09) (.fin 0) (.fin 0)).1.clock.tEnd = .fin T ∧
    0.2999 ≤ T := by
  obtain ⟨z, -⟩ := hunt_pace trial_hunts
  have a9 : |(0.09:ℝ)| = 0.09 := abs_of_pos (by norm_num)
  obtain ⟨T, e, h⟩ := C124_lasting (exp := exp) (rooted_real Control.Trig.real 3.14) trial_hunts.gen.fit z z (D := 0.09) (by rw [a9]; norm_num) (by rw [a9]; norm_num) p
  rw [a9] at h
  norm_num at h
  exact ⟨T, e, by norm_num; linarith⟩

end Verif.Props
