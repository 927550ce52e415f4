import Verif.Spec.SingleTest
import Verif.Props.SingleSimLook
import Verif.Props.SingleHuntEnds
import Verif.Props.Trial
/-!
# C132: the whole integration test of the search in single precision
-/
namespace Verif.Props
open Verif Verif.Spec Verif.Convert Verif.Single Verif.Binary32 Verif.Detect Verif.Proof
open Verif.Search (Coord WallState Searcher SearchState)
open Verif.Grid Verif.WallsP

variable {exp : F → F} {L : Lib} {ε : ℝ}

/-- The place of a sensor is finite and of moderate size (`FairPose`). -/
def FairPlace (L : Lib) (ε : ℝ) (q : Place) : Prop := ∃ p : Pose, q = placeOf p ∧ FairPose L ε p

/-- In the first `n` rounds all sensors are at places of moderate size, where the robot takes itself to be. -/
def InView (exp : F → F) (L : Lib) (ε : ℝ) (g : Kit) (m : Attempt) (n : Nat) : Prop :=
  ∀ k < n, ∀ m', g.go (arith exp) L k m = .ok (true, m') → ∀ pose ∈ g.poses, FairPlace L ε (sensorPlace (arith exp) L (guessed (arith exp) L m') pose)

/-- The invariant of the test: the simulated maze is what it is, the detector is not settled against it, what is recorded is true, and whatever the detector is
sure of is recorded. -/
structure Aware (exp : F → F) (W : Nat) (maze : Walls.Walls) (truth : Coord → Bool) (m : Attempt) : Prop where
  sim : m.simulator.walls = maze
  map : Reachable W m.walls
  sure : NoError W truth m.detector
  true : Recorded W maze m.walls
  written : Written exp W m.detector m.walls

/-! ## The walls seen in a round -/

/-- Places that are finite. -/
theorem lookAround_inspect (A : Arith) (L : Lib) (g : Kit) (s : Single.Simulator) : ∀ (ps : List Pose) (d : Detector) (w : Walls.Walls),
    g.lookAround A L s (ps.map placeOf) d w = s.inspect A L g.W g.sort ps d w
  | [], _, _ => rfl
  | p :: ps, d, w => by
    have ih := lookAround_inspect A L g s ps
    rw [List.map_cons, Kit.lookAround, Simulator.inspect]
    simp only [placeOf]
    have e : ∀ mean stddev, detectAndUpdate A (fun _ => (Finder.default A).convert A L g.W g.sort (.fin p.x) (.fin p.y) (.fin p.theta)) g.W d mean stddev ⟨0, 0, 0⟩ =
      detectAndUpdate A (fun p => (Finder.default A).convert A L g.W g.sort (.fin p.x) (.fin p.y) (.fin p.theta)) g.W d mean stddev p := fun _ _ => rfl
    simp only [e]
    have ih' : ∀ d w, g.lookAround A L s (ps.map fun q => ⟨.fin q.x, .fin q.y, .fin q.theta⟩) d w = s.inspect A L g.W g.sort ps d w := ih
    show (s.distanceFromWall A L g.W g.sort (.fin p.x) (.fin p.y) (.fin p.theta) >>= _) = _
    congr 1
    funext o
    cases o with
    | none => exact ih d w
    | some x =>
      obtain ⟨mean, stddev⟩ := x
      dsimp only
      congr 1
      funext y
      obtain ⟨d', seen⟩ := y
      cases seen with
      | none => exact ih d' w
      | some z =>
        obtain ⟨c, st⟩ := z
        dsimp only
        congr 1
        funext w'
        exact ih d' w'

theorem wallState_index {W : Nat} {w : Walls.Walls} {x c : Coord} (h : x.asIndex W = c.asIndex W) : Walls.wallState W w x = Walls.wallState W w c := by
  unfold Walls.wallState
  rw [h]

theorem oracle_index {W : Nat} {w : Walls.Walls} {x c : Coord} (h : x.asIndex W = c.asIndex W) : oracle W w x = oracle W w c := by
  unfold oracle
  rw [wallState_index h]

/-- An update changes nothing but the wall it is about. -/
theorem update_other {W : Nat} (hW : Supported W) {w w' : Walls.Walls} {c x : Coord} {st : WallState} (hc : Valid W c) (h : Walls.update W w c st = .ok w')
    (hx : x.asIndex W ≠ c.asIndex W) : oracle W w' x = oracle W w x := by
  obtain ⟨w1, e, f⟩ := WallsP.update_eq (W := W) (w := w) (asIndex_lt_que hW hc) st
  rw [h] at e
  cases e
  unfold oracle
  by_cases hlt : x.asIndex W < 2048
  · rw [wallState_eq hlt, wallState_eq hlt, f, if_neg hx]
  · have big : ∀ v : Walls.Walls, ∃ e, Walls.wallState W v x = .error e := by
      intro v
      unfold Walls.wallState arrGet
      dsimp only
      rw [if_neg]
      · exact ⟨_, rfl⟩
      · have : Walls.LEN = 512 := rfl
        rw [Nat.shiftRight_eq_div_pow]
        omega
    obtain ⟨e1, h1⟩ := big w
    obtain ⟨e2, h2⟩ := big w'
    rw [h1, h2]

theorem detect_coord {A : Arith} {conv : Pose → Option WallInfo} {W : Nat} {d d' : Detector} {mean stddev : F} {p : Pose} {c : Coord} {st : WallState}
    (h : detectAndUpdate A conv W d mean stddev p = .ok (d', some (c, st))) : ∃ info, conv p = some info ∧ info.coord = c := by
  unfold detectAndUpdate at h
  cases hi : conv p with
  | none => rw [hi] at h; cases h
  | some info =>
    refine ⟨info, rfl, ?_⟩
    rw [hi] at h
    simp only [bind, Except.bind, pure, Except.pure] at h
    split at h
    · cases h
    · split at h
      · cases h
      · split at h
        · cases h
        · split at h
          · cases h
          · cases h; rfl

/-- The sensors write only walls of the maze. -/
theorem inspect_slots (hε : ε ≤ 1 / 1000) {W : Nat} (hW : Supported W) {sort : List (Dir × F) → List (Dir × F)} (hs : Sorts sort) (s : Single.Simulator) :
    ∀ (ps : List Pose) (d d' : Detector) (w w' : Walls.Walls), (∀ p ∈ ps, FairPose L ε p) → s.inspect (arith exp) L W sort ps d w = .ok (d', w') → Reachable W w →
      Reachable W w' ∧ ∀ x, oracle W w' x = oracle W w x ∨ ∃ c, Valid W c ∧ x.asIndex W = c.asIndex W
  | [], d, d', w, w', _, h, hr => by cases h; exact ⟨hr, fun _ => .inl rfl⟩
  | p :: ps, d, d', w, w', hp, h, hr => by
    have ih := inspect_slots hε hW hs s ps
    have hp' : ∀ q ∈ ps, FairPose L ε q := fun q hq => hp q (by simp [hq])
    obtain ⟨hx, hy, hθ, hT⟩ := hp p (by simp)
    rw [Simulator.inspect] at h
    simp only [bind, Except.bind] at h
    split at h
    · cases h
    · split at h
      · exact ih _ _ _ _ hp' h hr
      · split at h
        · cases h
        · rename_i y hy'
          obtain ⟨d1, seen⟩ := y
          cases seen with
          | none => exact ih _ _ _ _ hp' h hr
          | some z =>
            obtain ⟨c, st⟩ := z
            dsimp only at h
            split at h
            · cases h
            · rename_i w1 hu
              obtain ⟨info, hi, rfl⟩ := detect_coord hy'
              obtain ⟨hv, -⟩ := C130_gap (exp := exp) hx hy hθ hT hε hW hs info hi
              obtain ⟨k1, k2⟩ := ih _ _ _ _ hp' h (.updated hr hv hu)
              refine ⟨k1, fun x => ?_⟩
              by_cases hxi : x.asIndex W = info.coord.asIndex W
              · exact .inr ⟨_, hv, hxi⟩
              · rcases k2 x with k | k
                · exact .inl (k.trans (update_other hW hv hu hxi))
                · exact .inr k

/-- What the sensors of one round do to detector and map. -/
theorem look_single (hg : GoodExp exp) (he : Steep exp) (hε : ε ≤ 1 / 1000) {g : Kit} (hW : Supported g.W) (hs : Sorts g.sort) {truth : Coord → Bool}
    {s : Single.Simulator} (ht : ∀ c, Valid g.W c → Walls.wallState g.W s.walls c = .ok (.checked (truth c))) {qs : List Place}
    (hq : ∀ q ∈ qs, FairPlace L ε q) {d : Detector} {w : Walls.Walls} (hd : NoError g.W truth d) (hm : Reachable g.W w) (hr : Recorded g.W s.walls w)
    (hw : Written exp g.W d w) :
    ∃ d' w', g.lookAround (arith exp) L s qs d w = .ok (d', w') ∧ NoError g.W truth d' ∧ Reachable g.W w' ∧ Recorded g.W s.walls w' ∧ Written exp g.W d' w' ∧
      Extends (oracle g.W w) (oracle g.W w') := by
  obtain ⟨ps, rfl, hp⟩ : ∃ ps : List Pose, qs = ps.map placeOf ∧ ∀ p ∈ ps, FairPose L ε p := by
    induction qs with
    | nil => exact ⟨[], rfl, by simp⟩
    | cons q qs ih =>
      obtain ⟨ps, rfl, hp⟩ := ih fun x hx => hq x (by simp [hx])
      obtain ⟨p, rfl, hp0⟩ := hq q (by simp)
      exact ⟨p :: ps, rfl, by simpa using ⟨hp0, hp⟩⟩
  have right : ∀ w, Reachable g.W w → (Recorded g.W s.walls w ↔ MapRight g.W truth w) := by
    intro w hm
    constructor
    · intro h c hc
      have hv := (C24_walls_slotConsistent hW hm).2 c (.inl hc)
      cases hst : oracle g.W w c with
      | unchecked => rw [hst] at hv; exact .inl hv
      | checked b =>
        rw [hst] at hv
        have := h c b hc hv
        rw [ht c hc] at this
        cases this
        exact .inr hv
    · intro h c b hc hb
      rcases h c hc with k | k
      · rw [k] at hb; cases hb
      · rw [k] at hb; cases hb; exact ht c hc
  rw [lookAround_inspect]
  have hmr := (right w hm).1 hr
  obtain ⟨d', w', e, k1, k2, k3, k4, -⟩ := C131_inspect hg he hε hW hs truth s ht ps hp d hd w hmr hw
  obtain ⟨j1, j2⟩ := inspect_slots hε hW hs s ps d d' w w' hp e hm
  refine ⟨d', w', e, k1, j1, (right w' j1).2 k2, k3, fun x hx => ?_⟩
  rcases j2 x with j | ⟨c, hc, hi⟩
  · exact j
  · rw [oracle_index hi] at hx ⊢
    rw [oracle_index hi]
    rcases hmr c hc with k | k
    · exfalso; apply hx; unfold oracle; rw [k]
    · rw [oracle_checked.2 k, oracle_checked.2 (k4 c hc k)]

/-! ## Rounds -/

variable {g : Kit} {maze : Walls.Walls} {truth : Coord → Bool}

theorem inView_zero {m : Attempt} {n : Nat} (h : InView exp L ε g m (n + 1)) :
    ∀ pose ∈ g.poses, FairPlace L ε (sensorPlace (arith exp) L (guessed (arith exp) L m) pose) := h 0 (by omega) m rfl

theorem inView_succ {m m' : Attempt} {n : Nat} (h : InView exp L ε g m (n + 1)) (ht : g.turn (arith exp) L m = .ok (true, m')) : InView exp L ε g m' n := by
  intro k hk m2 h2
  refine h (k + 1) (by omega) m2 ?_
  rw [Kit.go, ht]
  exact h2

theorem inView_mono {m : Attempt} {n k : Nat} (h : InView exp L ε g m n) (hk : k ≤ n) : InView exp L ε g m k := fun i hi => h i (by omega)

/-- One round of the test is one round of the driver. -/
theorem attempt_cases (hg : GoodExp exp) (he : Steep exp) (hε : ε ≤ 1 / 1000) (hW : Supported g.W) (hs : Sorts g.sort)
    (hf : ∀ c, Valid g.W c → Walls.wallState g.W maze c = .ok (.checked (truth c))) {m : Attempt} (h : Aware exp g.W maze truth m)
    (hv : ∀ pose ∈ g.poses, FairPlace L ε (sensorPlace (arith exp) L (guessed (arith exp) L m) pose)) :
    (∃ e, g.turn (arith exp) L m = .error e ∧ ((track (arith exp) L m.hunt = .error e) ∨
      ∃ t lp, track (arith exp) L m.hunt = .ok (t, lp) ∧ decideNext (arith exp) L g.quest g.W g.searcher (oracle g.W m.walls) lp = .error e)) ∨
    (∃ t lp m', track (arith exp) L m.hunt = .ok (t, lp) ∧ decideNext (arith exp) L g.quest g.W g.searcher (oracle g.W m.walls) lp = .ok none ∧
      g.turn (arith exp) L m = .ok (false, m') ∧ Aware exp g.W maze truth m' ∧ m'.walls = m.walls) ∨
    (∃ t lp m', track (arith exp) L m.hunt = .ok (t, lp) ∧ decideNext (arith exp) L g.quest g.W g.searcher (oracle g.W m.walls) lp = .ok (some m'.hunt) ∧
      g.turn (arith exp) L m = .ok (true, m') ∧ Aware exp g.W maze truth m' ∧ Extends (oracle g.W m.walls) (oracle g.W m'.walls)) := by
  unfold Kit.turn
  cases ht : track (arith exp) L m.hunt with
  | error e => exact .inl ⟨e, rfl, .inl rfl⟩
  | ok x =>
    obtain ⟨t, lp⟩ := x
    simp only [bind, Except.bind, pure, Except.pure]
    rw [asking_eq hW h.map]
    dsimp only
    cases hd : decideNext (arith exp) L g.quest g.W g.searcher (oracle g.W m.walls) lp with
    | error e => exact .inl ⟨e, rfl, .inr ⟨t, lp, rfl, hd⟩⟩
    | ok y =>
      cases y with
      | none => exact .inr (.inl ⟨t, lp, _, rfl, hd, rfl, ⟨h.sim, h.map, h.sure, h.true, h.written⟩, rfl⟩)
      | some lp' =>
        right; right
        dsimp only
        obtain ⟨hsim, hmap, hl, hr, hw⟩ := h
        subst hsim
        have hst : ((m.robot.round (arith exp) L (senses (arith exp) L m.simulator) t).1).state = guessed (arith exp) L m := rfl
        generalize ho : m.robot.round (arith exp) L (senses (arith exp) L m.simulator) t = o at hst ⊢
        obtain ⟨robot, vol⟩ := o
        dsimp only at hst ⊢
        rw [hst]
        generalize hv' : Simulator.apply m.simulator _ _ = s
        have hsw : s.walls = m.simulator.walls := by rw [← hv']; rfl
        rw [← hsw] at hf hr ⊢
        have hq : ∀ q ∈ g.poses.map (sensorPlace (arith exp) L (guessed (arith exp) L m)), FairPlace L ε q := by
          intro q hq
          obtain ⟨pose, h1, rfl⟩ := List.mem_map.1 hq
          exact hv pose h1
        obtain ⟨d', w', k1, k2, k3, k4, k5, k6⟩ := look_single hg he hε hW hs hf hq hl hmap hr hw
        rw [k1]
        exact ⟨t, lp, _, rfl, hd, rfl, ⟨rfl, k3, k2, k4, k5⟩, k6⟩

theorem after_aware (hg : GoodExp exp) (he : Steep exp) (hε : ε ≤ 1 / 1000) (hW : Supported g.W) (hs : Sorts g.sort)
    (hf : ∀ c, Valid g.W c → Walls.wallState g.W maze c = .ok (.checked (truth c))) :
    ∀ (n : Nat) {m : Attempt}, Aware exp g.W maze truth m → InView exp L ε g m n → Aware exp g.W maze truth (afterRounds (arith exp) L g m n)
  | 0, m, h, _ => h
  | n + 1, m, h, hv => by
    unfold afterRounds
    rcases attempt_cases hg he hε hW hs hf h (inView_zero hv) with ⟨e, ht, -⟩ | ⟨t, lp, m', -, -, ht, h', -⟩ | ⟨t, lp, m', -, -, ht, h', -⟩
    · rw [ht]; exact h
    · rw [ht]; exact h'
    · rw [ht]; exact after_aware hg he hε hW hs hf n h' (inView_succ hv ht)

theorem after_extends (hg : GoodExp exp) (he : Steep exp) (hε : ε ≤ 1 / 1000) (hW : Supported g.W) (hs : Sorts g.sort)
    (hf : ∀ c, Valid g.W c → Walls.wallState g.W maze c = .ok (.checked (truth c))) :
    ∀ (n : Nat) {m : Attempt}, Aware exp g.W maze truth m → InView exp L ε g m (n + 1) →
      Extends (oracle g.W (afterRounds (arith exp) L g m n).walls) (oracle g.W (afterRounds (arith exp) L g m (n + 1)).walls)
  | 0, m, h, hv => by
    unfold afterRounds
    rcases attempt_cases hg he hε hW hs hf h (inView_zero hv) with ⟨e, ht, -⟩ | ⟨t, lp, m', -, -, ht, -, hw⟩ | ⟨t, lp, m', -, -, ht, -, k⟩
    · rw [ht]; exact extends_refl _
    · rw [ht]; simp only [afterRounds, hw]; exact extends_refl _
    · rw [ht]; exact k
  | n + 1, m, h, hv => by
    unfold afterRounds
    rcases attempt_cases hg he hε hW hs hf h (inView_zero hv) with ⟨e, ht, -⟩ | ⟨t, lp, m', -, -, ht, h', -⟩ | ⟨t, lp, m', -, -, ht, h', -⟩
    · rw [ht]; exact extends_refl _
    · rw [ht]; exact extends_refl _
    · rw [ht]; exact after_extends hg he hε hW hs hf n h' (inView_succ hv ht)

/-- The test and the driver, from any round on. -/
theorem go_hunt (hg : GoodExp exp) (he : Steep exp) (hε : ε ≤ 1 / 1000) (hW : Supported g.W) (hs : Sorts g.sort)
    (hf : ∀ c, Valid g.W c → Walls.wallState g.W maze c = .ok (.checked (truth c))) (ws : Nat → Coord → WallState) :
    ∀ (n i : Nat) {m : Attempt}, Aware exp g.W maze truth m → InView exp L ε g m n → (∀ k, ws (i + k) = mapAfter (arith exp) L g m k) →
      (∃ e, g.go (arith exp) L n m = .error e ∧ hunt (arith exp) L g.quest g.W g.searcher ws n i m.hunt = .error e) ∨
      (∃ l, g.go (arith exp) L n m = .ok (true, afterRounds (arith exp) L g m n) ∧
        hunt (arith exp) L g.quest g.W g.searcher ws n i m.hunt = .ok (l, some (afterRounds (arith exp) L g m n).hunt)) ∨
      (∃ k l m', k < n ∧ g.go (arith exp) L n m = .ok (false, m') ∧ hunt (arith exp) L g.quest g.W g.searcher ws n i m.hunt = .ok (l, none) ∧
        l.length = k + 1 ∧ Aware exp g.W maze truth m' ∧ m'.walls = (afterRounds (arith exp) L g m k).walls)
  | 0, i, m, h, _, hw => .inr (.inl ⟨[], rfl, rfl⟩)
  | n + 1, i, m, h, hv, hw => by
    have h0 : ws i = oracle g.W m.walls := by have := hw 0; rw [Nat.add_zero] at this; rw [this]; rfl
    rw [Kit.go, hunt, h0]
    rcases attempt_cases hg he hε hW hs hf h (inView_zero hv) with ⟨e, ht, hd⟩ | ⟨t, lp, m', h1, h2, ht, h', hw'⟩ | ⟨t, lp, m', h1, h2, ht, h', -⟩
    · refine .inl ⟨e, by rw [ht]; rfl, ?_⟩
      rcases hd with h1 | ⟨t, lp, h1, h2⟩
      · rw [h1]; rfl
      · rw [h1]; simp only [bind, Except.bind]; rw [h2]
    · refine .inr (.inr ⟨0, [t], m', by omega, by rw [ht]; rfl, ?_, rfl, h', hw'⟩)
      rw [h1]; simp only [bind, Except.bind]; rw [h2]; rfl
    · have ha : ∀ k, afterRounds (arith exp) L g m (k + 1) = afterRounds (arith exp) L g m' k := fun k => by rw [afterRounds, ht]
      have hgo : (g.turn (arith exp) L m >>= fun x => match x with | (on, m) => if on = true then g.go (arith exp) L n m else pure (false, m)) =
        g.go (arith exp) L n m' := by rw [ht]; rfl
      rw [hgo, h1]
      simp only [bind, Except.bind]
      rw [h2]
      simp only [ha]
      rcases go_hunt hg he hε hW hs hf ws n (i + 1) h' (inView_succ hv ht) (fun k => by
          have := hw (k + 1)
          rw [show i + 1 + k = i + (k + 1) by omega, this]
          unfold mapAfter
          rw [ha]) with ⟨e, r1, r2⟩ | ⟨l, r1, r2⟩ | ⟨k, l, m2, r0, r1, r2, r3, r4, r5⟩
      · exact .inl ⟨e, r1, by rw [r2]⟩
      · exact .inr (.inl ⟨t :: l, r1, by rw [r2]; rfl⟩)
      · exact .inr (.inr ⟨k + 1, t :: l, m2, by omega, r1, by rw [r2]; rfl, by simp [r3], r4, by rw [ha]; exact r5⟩)

/-- **C132, map.** The test in single precision, however the robot drives, whatever its settings, its trajectories and its planner are: as long as the places of
the sensors are of moderate size, the simulated maze stays what it is, the detector is not settled against it, what is recorded is true, and what has been
recorded is kept. -/
theorem C132_map (hg : GoodExp exp) (he : Steep exp) (hε : ε ≤ 1 / 1000) (hW : Supported g.W) (hs : Sorts g.sort)
    (hf : ∀ c, Valid g.W c → Walls.wallState g.W maze c = .ok (.checked (truth c))) (m : Attempt) (h : Aware exp g.W maze truth m) (n : Nat)
    (hv : InView exp L ε g m n) :
    Aware exp g.W maze truth (afterRounds (arith exp) L g m n) ∧
    (∀ k ≤ n, Keeps g.W (afterRounds (arith exp) L g m k).walls (afterRounds (arith exp) L g m n).walls) ∧
    ∀ on m', g.go (arith exp) L n m = .ok (on, m') → Aware exp g.W maze truth m' ∧ Keeps g.W m.walls m'.walls := by
  have hk : ∀ (a d : Nat), a + d ≤ n → Keeps g.W (afterRounds (arith exp) L g m a).walls (afterRounds (arith exp) L g m (a + d)).walls := by
    intro a d
    induction d with
    | zero => intro _ c b _ hb; exact hb
    | succ d ih =>
      intro hle c b hc hb
      have h1 := ih (by omega) c b hc hb
      have hex := after_extends hg he hε hW hs hf (a + d) h (inView_mono hv (by omega))
      exact oracle_checked.1 ((hex c (by rw [oracle_checked.2 h1]; simp)).trans (oracle_checked.2 h1))
  refine ⟨after_aware hg he hε hW hs hf n h hv, fun k hkn => ?_, fun on m' hgo => ?_⟩
  · have := hk k (n - k) (by omega)
    rwa [show k + (n - k) = n by omega] at this
  · rcases go_hunt hg he hε hW hs hf (mapAfter (arith exp) L g m) n 0 h hv (fun k => by rw [Nat.zero_add]) with
      ⟨e, r1, -⟩ | ⟨l, r1, -⟩ | ⟨k, l, m2, r0, r1, -, -, r4, r5⟩
    · rw [r1] at hgo; cases hgo
    · rw [r1] at hgo; cases hgo
      have := hk 0 n (by omega)
      rw [Nat.zero_add] at this
      exact ⟨after_aware hg he hε hW hs hf n h hv, this⟩
    · rw [r1] at hgo; cases hgo
      have := hk 0 k (by omega)
      rw [Nat.zero_add] at this
      exact ⟨r4, by rw [r5]; exact this⟩

/-- **C132, driver.** As long as the places of the sensors are of moderate size, the test does exactly what its driver does with the recorded maps: it panics
when that panics, leaves the loop when that leaves it, and goes on when that goes on. So neither sensors, detector nor map make it panic. -/
theorem C132_driver (hg : GoodExp exp) (he : Steep exp) (hε : ε ≤ 1 / 1000) (hW : Supported g.W) (hs : Sorts g.sort)
    (hf : ∀ c, Valid g.W c → Walls.wallState g.W maze c = .ok (.checked (truth c))) (m : Attempt) (h : Aware exp g.W maze truth m) (n : Nat)
    (hv : InView exp L ε g m n) :
    (fun r => if r.1 then some r.2.hunt else none) <$> g.go (arith exp) L n m =
      Prod.snd <$> hunt (arith exp) L g.quest g.W g.searcher (mapAfter (arith exp) L g m) n 0 m.hunt := by
  rcases go_hunt hg he hε hW hs hf (mapAfter (arith exp) L g m) n 0 h hv (fun k => by rw [Nat.zero_add]) with
    ⟨e, r1, r2⟩ | ⟨l, r1, r2⟩ | ⟨k, l, m2, -, r1, r2, -⟩
  all_goals rw [r1, r2]; rfl

end Verif.Props
