import Verif.Spec.Trial
import Verif.Props.Look
import Verif.Props.SearchPunctual
/-!
# C114: the whole integration test of the search
-/
namespace Verif.Props
open Verif Verif.Control Verif.Detect Verif.Sim Verif.Spec Verif.Convert Verif.Trial Verif.SearchDriver
open Verif.Search (Coord WallState Searcher SearchState)
open Verif.Grid Verif.WallsP

/-- The invariant of the test: the simulated maze is what it is, the detector does not lean to the wrong side, and the recorded map is true. -/
structure Sighted (W : Nat) (maze : Walls.Walls) (m : Trial) : Prop where
  sim : m.simulator.walls = maze
  map : Reachable W m.walls
  lean : Leaning W maze m.detector
  true : Recorded W maze m.walls

theorem asking_eq {W : Nat} (hW : Supported W) {w : Walls.Walls} (h : Reachable W w) : asking W w = .ok (oracle W w) := by
  have hl : ∀ c : Coord, c.x < 2 * W → c.y < 2 * W → ¬ (c.x % 2 = 1 ∧ c.y % 2 = 1) → ∃ st, Walls.wallState W w c = .ok st := by
    intro c h1 h2 h3
    refine ⟨_, (C24_walls_slotConsistent hW h).2 c ?_⟩
    by_cases hp : (c.x + c.y) % 2 = 1
    · exact .inl ⟨h1, h2, hp⟩
    · exact .inr ⟨by omega, by omega, h1, h2⟩
  unfold asking
  rw [if_pos hl]
  rfl

theorem oracle_checked {W : Nat} {w : Walls.Walls} {c : Coord} {b : Bool} : oracle W w c = .checked b ↔ Walls.wallState W w c = .ok (.checked b) := by
  unfold oracle
  cases Walls.wallState W w c <;> simp

/-- Writing what is true into the map. -/
theorem update_true {W : Nat} (hW : Supported W) {maze w : Walls.Walls} (hr : Reachable W w) (ht : Recorded W maze w) {c : Coord} {b : Bool} (hc : Valid W c)
    (hb : Walls.wallState W maze c = .ok (.checked b)) :
    ∃ w', Walls.update W w c (.checked b) = .ok w' ∧ Reachable W w' ∧ Recorded W maze w' ∧ Extends (oracle W w) (oracle W w') := by
  obtain ⟨w', e, f⟩ := update_eq (W := W) (w := w) (asIndex_lt_que hW hc) (.checked b)
  have hst : ∀ x : Coord, x.asIndex W = c.asIndex W → Walls.wallState W w' x = .ok (.checked b) := by
    intro x hx
    rw [wallState_eq (by rw [hx]; exact asIndex_lt_que hW hc), f, if_pos hx, decode_bits]
  have hne : ∀ x : Coord, x.asIndex W ≠ c.asIndex W → oracle W w' x = oracle W w x := by
    intro x hx
    unfold oracle
    by_cases hlt : x.asIndex W < 2048
    · rw [wallState_eq hlt, wallState_eq hlt, f, if_neg hx]
    · have big : ∀ v : Walls.Walls, ∃ e, Walls.wallState W v x = .error e := by
        intro v
        unfold Walls.wallState arrGet
        dsimp only
        rw [if_neg]
        · exact ⟨_, rfl⟩
        · have : Walls.LEN = 512 := rfl
          rw [Nat.shiftRight_eq_div_pow]
          omega
      obtain ⟨e1, h1⟩ := big w
      obtain ⟨e2, h2⟩ := big w'
      rw [h1, h2]
  refine ⟨w', e, .updated hr hc e, fun x b' hx hb' => ?_, fun x hx => ?_⟩
  · by_cases hi : x.asIndex W = c.asIndex W
    · obtain rfl := asIndex_inj hW hx hc hi
      rw [hst _ rfl] at hb'
      cases hb'
      exact hb
    · exact ht x b' hx (oracle_checked.1 ((hne x hi).symm.trans (oracle_checked.2 hb')))
  · by_cases hi : x.asIndex W = c.asIndex W
    · cases ho : oracle W w x with
      | unchecked => exact absurd ho hx
      | checked b' =>
        have h1 : Walls.wallState W w c = .ok (.checked b') := by
          have := oracle_checked.1 ho
          unfold Walls.wallState at this ⊢
          rwa [hi] at this
        have h2 := ht c b' hc h1
        rw [hb] at h2
        cases h2
        exact oracle_checked.2 (hst x hi)
    · exact hne x hi

theorem extends_refl (ws : Coord → WallState) : Extends ws ws := fun _ _ => rfl

theorem extends_trans {a b c : Coord → WallState} (h1 : Extends a b) (h2 : Extends b c) : Extends a c := fun x hx => by
  have := h1 x hx
  rw [h2 x (by rwa [this]), this]

/-- What the sensors of one round do to detector and map. -/
theorem look_around {g : Gear} (hW : Supported g.W) (hs : Sorts g.sort) {s : Simulator} (hm : Reachable g.W s.walls)
    (hf : ∀ c, Valid g.W c → ∃ b, Walls.wallState g.W s.walls c = .ok (.checked b)) (state : State) :
    ∀ (poses : List Pose) (d : Detector) (w : Walls.Walls), Leaning g.W s.walls d → Reachable g.W w → Recorded g.W s.walls w →
      ∃ d' w', g.lookAround s state poses (d, w) = .ok (d', w') ∧ Leaning g.W s.walls d' ∧ Reachable g.W w' ∧ Recorded g.W s.walls w' ∧
        Extends (oracle g.W w) (oracle g.W w')
  | [], d, w, h1, h2, h3 => ⟨d, w, rfl, h1, h2, h3, extends_refl _⟩
  | pose :: rest, d, w, h1, h2, h3 => by
    unfold Gear.lookAround
    dsimp only
    cases hi : g.convert (sensorPose g.T state pose) with
    | none =>
      have : s.distanceFromWall g.convert g.W (sensorPose g.T state pose) = .ok none := by unfold Simulator.distanceFromWall; rw [hi]; rfl
      rw [this]
      exact look_around hW hs hm hf state rest d w h1 h2 h3
    | some info =>
      obtain ⟨hv, -⟩ := (C34_good (by norm_num) (by norm_num) hW hs : GoodConverter (Converter.default.convert g.W g.sort) g.W) _ _ hi
      obtain ⟨mean, d', r, e1, e2, hd, -, hr⟩ := C66_once hW hs s hm _ info hi d h1
      have e1' : s.distanceFromWall g.convert g.W (sensorPose g.T state pose) = .ok (some (.fin mean, .fin (2 / 1000))) := e1
      have e2' : detectAndUpdate exact g.convert g.W d (.fin mean) (.fin (2 / 1000)) (sensorPose g.T state pose) = .ok (d', r) := e2
      rw [e1']
      simp only [bind, Except.bind]
      rw [e2']
      have hr' : (r = none ∧ d' = d) ∨ ∃ b, Walls.wallState g.W s.walls info.coord = .ok (.checked b) ∧ r = some (info.coord, .checked b) := by
        rcases hr with ⟨h1, h2, -⟩ | ⟨ht, hr⟩ | ⟨ht, hr⟩
        · exact .inl ⟨h1, h2⟩
        · exact .inr ⟨true, ht, hr⟩
        · obtain ⟨b, hb⟩ := hf _ hv
          cases b
          · exact .inr ⟨false, hb, hr⟩
          · exact absurd hb ht
      rcases hr' with ⟨rfl, rfl⟩ | ⟨b, hb, rfl⟩
      · exact look_around hW hs hm hf state rest d' w h1 h2 h3
      · obtain ⟨w', f1, f2, f3, f4⟩ := update_true hW h2 h3 hv hb
        obtain ⟨d2, w2, k1, k2, k3, k4, k5⟩ := look_around hW hs hm hf state rest d' w' hd f2 f3
        refine ⟨d2, w2, ?_, k2, k3, k4, extends_trans f4 k5⟩
        simp only [f1]
        exact k1

variable {g : Gear} {maze : Walls.Walls}

/-- One round of the test is one round of the driver. -/
theorem turn_cases (hW : Supported g.W) (hs : Sorts g.sort) (hm : Reachable g.W maze)
    (hf : ∀ c, Valid g.W c → ∃ b, Walls.wallState g.W maze c = .ok (.checked b)) {m : Trial} (h : Sighted g.W maze m) :
    (∃ e, g.turn m = .error e ∧ ((track g.T m.loop = .error e) ∨
      ∃ t lp, track g.T m.loop = .ok (t, lp) ∧ decideNext g.config g.W g.searcher (oracle g.W m.walls) lp = .error e)) ∨
    (∃ t lp m', track g.T m.loop = .ok (t, lp) ∧ decideNext g.config g.W g.searcher (oracle g.W m.walls) lp = .ok none ∧ g.turn m = .ok (false, m') ∧
      Sighted g.W maze m' ∧ m'.walls = m.walls) ∨
    (∃ t lp m', track g.T m.loop = .ok (t, lp) ∧ decideNext g.config g.W g.searcher (oracle g.W m.walls) lp = .ok (some m'.loop) ∧
      g.turn m = .ok (true, m') ∧ Sighted g.W maze m' ∧ Extends (oracle g.W m.walls) (oracle g.W m'.walls)) := by
  unfold Gear.turn
  dsimp only
  rw [asking_eq hW h.map]
  cases ht : track g.T m.loop with
  | error e => exact .inl ⟨e, rfl, .inl rfl⟩
  | ok x =>
    obtain ⟨t, lp⟩ := x
    simp only [bind, Except.bind, pure, Except.pure]
    cases hd : decideNext g.config g.W g.searcher (oracle g.W m.walls) lp with
    | error e => exact .inl ⟨e, rfl, .inr ⟨t, lp, rfl, hd⟩⟩
    | ok y =>
      cases y with
      | none => exact .inr (.inl ⟨t, lp, _, rfl, hd, rfl, ⟨h.sim, h.map, h.lean, h.true⟩, rfl⟩)
      | some lp' =>
        right; right
        dsimp only
        obtain ⟨hsim, hmap, hl, hr⟩ := h
        subst hsim
        generalize hv : Simulator.apply m.simulator _ _ = s
        have hsw : s.walls = m.simulator.walls := by rw [← hv]; rfl
        rw [← hsw] at hm hf hl hr ⊢
        obtain ⟨d', w', k1, k2, k3, k4, k5⟩ := look_around hW hs hm hf _ g.poses m.detector m.walls hl hmap hr
        rw [k1]
        exact ⟨t, lp, _, rfl, hd, rfl, ⟨rfl, k3, k2, k4⟩, k5⟩

theorem after_sighted (hW : Supported g.W) (hs : Sorts g.sort) (hm : Reachable g.W maze)
    (hf : ∀ c, Valid g.W c → ∃ b, Walls.wallState g.W maze c = .ok (.checked b)) :
    ∀ (n : Nat) {m : Trial}, Sighted g.W maze m → Sighted g.W maze (after g m n) ∧ Extends (oracle g.W (after g m n).walls) (oracle g.W (after g m (n + 1)).walls)
  | 0, m, h => by
    refine ⟨h, ?_⟩
    unfold after
    rcases turn_cases hW hs hm hf h with ⟨e, ht, -⟩ | ⟨t, lp, m', -, -, ht, -, hw⟩ | ⟨t, lp, m', -, -, ht, -, he⟩
    · rw [ht]; exact extends_refl _
    · rw [ht]; simp only [after, hw]; exact extends_refl _
    · rw [ht]; exact he
  | n + 1, m, h => by
    unfold after
    rcases turn_cases hW hs hm hf h with ⟨e, ht, -⟩ | ⟨t, lp, m', -, -, ht, h', -⟩ | ⟨t, lp, m', -, -, ht, h', -⟩
    · rw [ht]; exact ⟨h, extends_refl _⟩
    · rw [ht]; exact ⟨h', extends_refl _⟩
    · rw [ht]; exact after_sighted hW hs hm hf n h'

/-- The test and the driver, from any round on. -/
theorem go_rounds (hW : Supported g.W) (hs : Sorts g.sort) (hm : Reachable g.W maze)
    (hf : ∀ c, Valid g.W c → ∃ b, Walls.wallState g.W maze c = .ok (.checked b)) (ws : Nat → Coord → WallState) :
    ∀ (n i : Nat) {m : Trial}, Sighted g.W maze m → (∀ k, ws (i + k) = recorded g m k) →
      (∃ e, g.go n m = .error e ∧ rounds g.T g.config g.W g.searcher ws n i m.loop = .error e) ∨
      (∃ l, g.go n m = .ok (true, after g m n) ∧ rounds g.T g.config g.W g.searcher ws n i m.loop = .ok (l, some (after g m n).loop)) ∨
      (∃ k l m', k < n ∧ g.go n m = .ok (false, m') ∧ rounds g.T g.config g.W g.searcher ws n i m.loop = .ok (l, none) ∧ l.length = k + 1 ∧
        Sighted g.W maze m' ∧ m'.walls = (after g m k).walls)
  | 0, i, m, h, hw => .inr (.inl ⟨[], rfl, rfl⟩)
  | n + 1, i, m, h, hw => by
    have h0 : ws i = oracle g.W m.walls := by have := hw 0; rw [Nat.add_zero] at this; rw [this]; rfl
    unfold Gear.go
    rw [rounds_succ, h0]
    rcases turn_cases hW hs hm hf h with ⟨e, ht, hd⟩ | ⟨t, lp, m', h1, h2, ht, h', hw'⟩ | ⟨t, lp, m', h1, h2, ht, h', -⟩
    · refine .inl ⟨e, by rw [ht]; rfl, ?_⟩
      rcases hd with h1 | ⟨t, lp, h1, h2⟩
      · rw [h1]; rfl
      · rw [h1]; simp only [bind, Except.bind]; rw [h2]
    · refine .inr (.inr ⟨0, [t], m', by omega, by rw [ht]; rfl, ?_, rfl, h', hw'⟩)
      rw [h1]; simp only [bind, Except.bind]; rw [h2]
    · have ha : ∀ k, after g m (k + 1) = after g m' k := fun k => by rw [after, ht]
      have hgo : (g.turn m >>= fun x => match x with | (on, m) => if on = true then g.go n m else pure (false, m)) = g.go n m' := by rw [ht]; rfl
      rw [hgo, h1]
      simp only [bind, Except.bind]
      rw [h2]
      simp only [ha]
      rcases go_rounds hW hs hm hf ws n (i + 1) h' (fun k => by
          have := hw (k + 1)
          rw [show i + 1 + k = i + (k + 1) by omega, this]
          unfold recorded
          rw [ha]) with ⟨e, r1, r2⟩ | ⟨l, r1, r2⟩ | ⟨k, l, m2, r0, r1, r2, r3, r4, r5⟩
      · exact .inl ⟨e, r1, by rw [r2]⟩
      · exact .inr (.inl ⟨t :: l, r1, by rw [r2]⟩)
      · exact .inr (.inr ⟨k + 1, t :: l, m2, by omega, r1, by rw [r2], by simp [r3], r4, by rw [ha]; exact r5⟩)

/-- **C114, map.** However the robot drives, whatever its sensors, settings and planner are: as long as the test runs, the simulated maze stays what it is,
the detector does not lean to the wrong side, what is recorded is true, and what has been recorded is kept. -/
theorem C114_map (hW : Supported g.W) (hs : Sorts g.sort) (hm : Reachable g.W maze)
    (hf : ∀ c, Valid g.W c → ∃ b, Walls.wallState g.W maze c = .ok (.checked b)) (m : Trial) (h : Sighted g.W maze m) (n : Nat) :
    Sighted g.W maze (after g m n) ∧ (∀ k, n ≤ k → Keeps g.W (after g m n).walls (after g m k).walls) ∧
    ∀ on m', g.go n m = .ok (on, m') → Sighted g.W maze m' ∧ Keeps g.W m.walls m'.walls := by
  have hk : ∀ (a b : Nat), a ≤ b → Keeps g.W (after g m a).walls (after g m b).walls := by
    intro a b hab c st hc hst
    have hex := extends_le (ws := fun i => oracle g.W (after g m i).walls) (fun i => (after_sighted hW hs hm hf i h).2) hab
    have := hex c (by rw [oracle_checked.2 hst]; simp)
    exact oracle_checked.1 (this.trans (oracle_checked.2 hst))
  refine ⟨(after_sighted hW hs hm hf n h).1, fun k hk' => hk n k hk', fun on m' hgo => ?_⟩
  rcases go_rounds hW hs hm hf (recorded g m) n 0 h (fun k => by rw [Nat.zero_add]) with ⟨e, r1, -⟩ | ⟨l, r1, -⟩ | ⟨k, l, m2, r0, r1, -, -, r4, r5⟩
  · rw [r1] at hgo; cases hgo
  · rw [r1] at hgo; cases hgo
    exact ⟨(after_sighted hW hs hm hf n h).1, hk 0 n (Nat.zero_le _)⟩
  · rw [r1] at hgo; cases hgo
    exact ⟨r4, by rw [r5]; exact hk 0 k (Nat.zero_le _)⟩

/-- **C114, driver.** The test does exactly what its driver does with the recorded maps: it panics when that panics, leaves the loop when that leaves it,
and goes on when that goes on. So neither sensors, detector nor map ever make it panic. -/
theorem C114_driver (hW : Supported g.W) (hs : Sorts g.sort) (hm : Reachable g.W maze)
    (hf : ∀ c, Valid g.W c → ∃ b, Walls.wallState g.W maze c = .ok (.checked b)) (m : Trial) (h : Sighted g.W maze m) (n : Nat) :
    (fun r => if r.1 then some r.2.loop else none) <$> g.go n m = Prod.snd <$> rounds g.T g.config g.W g.searcher (recorded g m) n 0 m.loop := by
  rcases go_rounds hW hs hm hf (recorded g m) n 0 h (fun k => by rw [Nat.zero_add]) with ⟨e, r1, r2⟩ | ⟨l, r1, r2⟩ | ⟨k, l, m2, -, r1, r2, -⟩
  all_goals rw [r1, r2]; rfl

/-! ## The test itself -/

theorem config_eq (fo : ℝ) : config fo = testSearch fo := by
  unfold config testSearch Slalom.degree
  congr 2 <;> ring

theorem recorded_slot (hW : Supported g.W) (hs : Sorts g.sort) (hm : Reachable g.W maze)
    (hf : ∀ c, Valid g.W c → ∃ b, Walls.wallState g.W maze c = .ok (.checked b)) {m : Trial} (h : Sighted g.W maze m) :
    (∀ i, Truthful g.W (pessimistic (oracle g.W maze)) (recorded g m i)) ∧ (∀ i, SlotConsistent g.W (recorded g m i)) ∧
    ∀ i, Extends (recorded g m i) (recorded g m (i + 1)) := by
  refine ⟨fun i c b hc hb => ?_, fun i => (C24_walls_slotConsistent hW (after_sighted hW hs hm hf i h).1.map).1,
    fun i => (after_sighted hW hs hm hf i h).2⟩
  have := (after_sighted hW hs hm hf i h).1.true c b hc (oracle_checked.1 hb)
  unfold pessimistic
  rw [oracle_checked.2 this]
  cases b <;> simp

/-- Leaving the loop, the assertion at the end holds. -/
theorem check_ok {goals : List Coord} (hr : Request g.W ⟨0, 1⟩ goals) (hn : Searcher.new g.W ⟨0, 1⟩ goals = .ok g.searcher) (hm : Reachable g.W maze)
    {m : Trial} (h : Sighted g.W maze m) {path : Option (List Coord)} (h1 : plan g.W ⟨0, 1⟩ goals (pessimistic (oracle g.W maze)) = .ok path)
    (h2 : plan g.W ⟨0, 1⟩ goals (pessimistic (oracle g.W m.walls)) = .ok path) : g.check m = .ok () := by
  unfold plan at h1 h2
  rw [hn] at h1 h2
  simp only [bind, Except.bind] at h1 h2
  unfold Gear.check
  rw [asking_eq hr.width h.map, h.sim, asking_eq hr.width hm]
  simp only [bind, Except.bind]
  have e1 : (fun c => decide (oracle g.W m.walls c ≠ .checked false)) = pessimistic (oracle g.W m.walls) := rfl
  have e2 : (fun c => decide (oracle g.W maze c ≠ .checked false)) = pessimistic (oracle g.W maze) := rfl
  rw [e1, e2, h1, h2]
  simp
  rfl

/-- When the loop is left, the test passes. -/
theorem left_ok (hok : SearchOk g.config) (hT : g.T = .real) {goals : List Coord} (hr : Request g.W ⟨0, 1⟩ goals)
    (hn : Searcher.new g.W ⟨0, 1⟩ goals = .ok g.searcher) (hs : Sorts g.sort) (hm : Reachable g.W maze)
    (hf : ∀ c, Valid g.W c → ∃ b, Walls.wallState g.W maze c = .ok (.checked b)) {m m2 : Trial} (h : Sighted g.W maze m) (hl : m.loop = g.config.start)
    {n k : Nat} {l : List Target} (r1 : g.go n m = .ok (false, m2)) (r2 : rounds g.T g.config g.W g.searcher (recorded g m) n 0 m.loop = .ok (l, none))
    (r3 : l.length = k + 1) (r4 : Sighted g.W maze m2) (r5 : m2.walls = (after g m k).walls) : g.test n m = .ok (some ()) := by
  obtain ⟨t1, t2, t3⟩ := recorded_slot hr.width hs hm hf h
  rw [hT, hl] at r2
  obtain ⟨-, -, -, x⟩ := C78_tour hok hr hn _ n l none r2
  obtain ⟨k', cur, x1, -, x3, x4⟩ := x rfl
  obtain rfl : k' = k := by omega
  obtain ⟨path, p1, p2, -⟩ := C23_complete_optimal hr x3 (recorded g m k') _ (t1 k') x4
  have e : recorded g m k' = oracle g.W m2.walls := by rw [r5]; rfl
  rw [e] at p2
  unfold Gear.test
  rw [r1]
  simp only [bind, Except.bind]
  rw [check_ok hr hn hm r4 p1 p2]
  rfl

/-- **C114, assertion.** A test with exact trigonometric functions, however well the robot follows its targets: it does not come to an end, or it passes, or
it panics at one of the three `unreachable!()` of the driver; the assertion at the end never fails. -/
theorem C114_assertion (hok : SearchOk g.config) (hT : g.T = .real) {goals : List Coord} (hr : Request g.W ⟨0, 1⟩ goals)
    (hn : Searcher.new g.W ⟨0, 1⟩ goals = .ok g.searcher) (hs : Sorts g.sort) (hm : Reachable g.W maze)
    (hf : ∀ c, Valid g.W c → ∃ b, Walls.wallState g.W maze c = .ok (.checked b)) (m : Trial) (h : Sighted g.W maze m) (hl : m.loop = g.config.start)
    (n : Nat) : g.test n m = .ok none ∨ g.test n m = .ok (some ()) ∨ g.test n m = .error .unreachable := by
  rcases go_rounds hr.width hs hm hf (recorded g m) n 0 h (fun k => by rw [Nat.zero_add]) with ⟨e, r1, r2⟩ | ⟨l, r1, -⟩ | ⟨k, l, m2, -, r1, r2, r3, r4, r5⟩
  · rw [hT, hl] at r2
    obtain ⟨rfl, -⟩ := C78_panics hok hr hn _ n e r2
    exact .inr (.inr (by unfold Gear.test; rw [r1]; rfl))
  · exact .inl (by unfold Gear.test; rw [r1]; rfl)
  · exact .inr (.inl (left_ok hok hT hr hn hs hm hf h hl r1 r2 r3 r4 r5))

theorem go_stays : ∀ {n : Nat} (k : Nat) {m : Trial}, (∀ m', g.go n m ≠ .ok (true, m')) → g.go (n + k) m = g.go n m
  | 0, _, m, h => absurd rfl (h m)
  | n + 1, k, m, h => by
    rw [show n + 1 + k = n + k + 1 by omega]
    unfold Gear.go at h ⊢
    cases ht : g.turn m with
    | error e => rfl
    | ok x =>
      obtain ⟨on, m'⟩ := x
      rw [ht] at h
      cases on
      · rfl
      · exact go_stays (n := n) k (m := m') h

theorem solvable_iff {W : Nat} {goals : List Coord} (h : Request W ⟨0, 1⟩ goals) :
    plan W ⟨0, 1⟩ goals (pessimistic (oracle W maze)) = .ok none ↔ ¬ Solvable W maze goals := by
  rw [C12_complete h]
  have hpess : ∀ c, Walls.wallState W maze c = .ok (.checked false) ↔ pessimistic (oracle W maze) c = false := by
    intro c
    unfold pessimistic
    rw [decide_eq_false_iff_not, not_not, oracle_checked]
  unfold Solvable
  simp only [hpess]

/-- **C114, end.** If the walls are seen in time, the test ends: it passes if a goal can be reached, and panics if not. -/
theorem C114_ends (hok : SearchOk g.config) (hT : g.T = .real) {goals : List Coord} (hr : Request g.W ⟨0, 1⟩ goals)
    (hn : Searcher.new g.W ⟨0, 1⟩ goals = .ok g.searcher) (hs : Sorts g.sort) (hm : Reachable g.W maze)
    (hf : ∀ c, Valid g.W c → ∃ b, Walls.wallState g.W maze c = .ok (.checked b)) (m : Trial) (h : Sighted g.W maze m) (hl : m.loop = g.config.start)
    (hopen : Walls.wallState g.W m.walls ⟨0, 1⟩ = .ok (.checked false))
    (hout : ∃ x, Adjacent g.W ⟨0, 1⟩ x ∧ Walls.wallState g.W maze x = .ok (.checked false))
    (hp : Punctual g.config g.W g.searcher (recorded g m)) :
    ∃ N, ∀ n, N ≤ n → (Solvable g.W maze goals → g.test n m = .ok (some ())) ∧ (¬ Solvable g.W maze goals → g.test n m = .error .unreachable) := by
  have hW := hr.width
  obtain ⟨t1, t2, t3⟩ := recorded_slot hW hs hm hf h
  have hiff := solvable_iff (maze := maze) hr
  have hout' : ∃ x, Adjacent g.W ⟨0, 1⟩ x ∧ pessimistic (oracle g.W maze) x = false := by
    obtain ⟨x, x1, x2⟩ := hout
    refine ⟨x, x1, ?_⟩
    unfold pessimistic
    rw [oracle_checked.2 x2]
    simp
  have stay : ∀ k, (∀ m', g.go (k + 1) m ≠ .ok (true, m')) → ∀ n, k + 1 ≤ n → g.test n m = g.test (k + 1) m := by
    intro k hk n hle
    obtain ⟨j, rfl⟩ : ∃ j, n = k + 1 + j := ⟨n - (k + 1), by omega⟩
    unfold Gear.test
    rw [go_stays j hk]
  rcases C78_punctual hok hr hn _ (recorded g m) t1 t2 t3 (oracle_checked.2 hopen) hout' hp with ⟨k, l, path, r, p1, p2⟩ | ⟨k, r, p⟩
  · refine ⟨k + 1, fun n hle => ?_⟩
    rcases go_rounds hW hs hm hf (recorded g m) (k + 1) 0 h (fun k => by rw [Nat.zero_add]) with ⟨e, q1, q2⟩ | ⟨l', q1, q2⟩ | ⟨k', l', m2, -, q1, q2, q3, q4, q5⟩
    · rw [hT, hl, r] at q2; cases q2
    · rw [hT, hl, r] at q2; cases q2
    · rw [stay k (by rw [q1]; simp) n hle]
      refine ⟨fun _ => left_ok hok hT hr hn hs hm hf h hl q1 q2 q3 q4 q5, fun hno => ?_⟩
      rw [hiff.2 hno] at p1
      cases p1
  · refine ⟨k + 1, fun n hle => ?_⟩
    rcases go_rounds hW hs hm hf (recorded g m) (k + 1) 0 h (fun k => by rw [Nat.zero_add]) with ⟨e, q1, q2⟩ | ⟨l', q1, q2⟩ | ⟨k', l', m2, -, q1, q2, q3, q4, q5⟩
    · rw [hT, hl, r] at q2
      cases q2
      rw [stay k (by rw [q1]; simp) n hle]
      refine ⟨fun hyes => absurd hyes (hiff.1 p), fun _ => ?_⟩
      unfold Gear.test
      rw [q1]
      rfl
    · rw [hT, hl, r] at q2; cases q2
    · rw [hT, hl, r] at q2; cases q2

/-! ## `test_search` -/

theorem initial_sighted {W : Nat} (hW : Supported W) (h2 : 2 ≤ W) {w : Walls.Walls} (hw : Walls.new W = .ok w) (hm : MazeMap W maze) (fo : ℝ) :
    Sighted W maze (initial w maze fo) where
  sim := rfl
  map := .new hw
  lean := C66_new W maze
  true := by
    intro c b hc hb
    obtain ⟨w', e, f⟩ := C04_new hW h2
    rw [hw] at e
    cases e
    obtain ⟨f1, f2, -⟩ := f c hc
    cases b
    · rw [f2.1 hb]; exact hm.ahead
    · rcases f1.1 hb with h | h | rfl
      · exact hm.outer c hc (.inr h)
      · exact hm.outer c hc (.inl h)
      · exact hm.right

theorem goals_map {W : Nat} (hW : Supported W) : ∀ {goals : List Coord}, (∀ c ∈ goals, Valid W c) →
    (goals.map fun c => (c.x, c.y)).mapM (fun p => unwrap (Coord.new W p.1 p.2)) = .ok goals
  | [], _ => rfl
  | c :: l, hg => by
    have hc := hg c (by simp)
    have hn : Coord.new W c.x c.y = some c := by
      obtain ⟨k, hk, rfl⟩ := hW
      have h32 : 2 ^ k ≤ 32 := (Nat.pow_le_pow_right (by norm_num) hk).trans (by norm_num)
      exact (C01_new_iff _ c.x c.y (by omega) (by have := hc.1; omega) (by have := hc.2.1; omega) c).2
        ⟨⟨⟨k, by omega, rfl⟩, hc⟩, rfl, rfl⟩
    have := goals_map hW (goals := l) (fun d hd => hg d (by simp [hd]))
    rw [List.map_cons, List.mapM_cons, this]
    dsimp only
    rw [hn]
    rfl

/-- What `test_search` comes down to, for goals made of valid coordinates. -/
theorem whole_eq {W : Nat} (hW : Supported W) {goals : List Coord} (hg : ∀ c ∈ goals, Valid W c) (T : Trig) (pi : ℝ)
    (sort : List (Dir × F) → List (Dir × F)) {text : List Char} (ht : Walls.fromStr W text = .ok (.ok maze)) (fo : ℝ) {w : Walls.Walls}
    (hw : Walls.new W = .ok w) {searcher : Searcher} (hn : Searcher.new W ⟨0, 1⟩ goals = .ok searcher) (n : Nat) :
    wholeTest T pi W sort n text (goals.map fun c => (c.x, c.y)) fo = (gear T pi W sort searcher fo).test n (initial w maze fo) := by
  unfold wholeTest
  rw [goals_map hW hg, hw]
  simp only [bind, Except.bind]
  rw [hn, ht]

theorem searcher_new {W : Nat} {goals : List Coord} (h : Request W ⟨0, 1⟩ goals) : ∃ searcher, Searcher.new W ⟨0, 1⟩ goals = .ok searcher := by
  obtain ⟨r, hr⟩ := (C13_total h).1 fun _ => false
  cases e : Searcher.new W ⟨0, 1⟩ goals with
  | ok x => exact ⟨x, rfl⟩
  | error => rw [plan, e] at hr; cases hr

/-- **C114, `test_search`.** On every maze, for all goals and every offset up to 10 mm, after any number of rounds: the test is still running, or has passed, or
has panicked at one of the three `unreachable!()` in its loop. The assertion at its end never fails, and nothing else panics. -/
theorem C114_test {W : Nat} (hW : Supported W) (h2 : 2 ≤ W) {goals : List Coord} (hg : ∀ c ∈ goals, Valid W c) (pi : ℝ)
    {sort : List (Dir × F) → List (Dir × F)} (hs : Sorts sort) {text : List Char} (ht : Walls.fromStr W text = .ok (.ok maze)) (hm : MazeMap W maze)
    {fo : ℝ} (h0 : 0 ≤ fo) (h1 : fo ≤ 0.01) (n : Nat) :
    wholeTest .real pi W sort n text (goals.map fun c => (c.x, c.y)) fo = .ok none ∨
    wholeTest .real pi W sort n text (goals.map fun c => (c.x, c.y)) fo = .ok (some ()) ∨
    wholeTest .real pi W sort n text (goals.map fun c => (c.x, c.y)) fo = .error .unreachable := by
  have hv : Valid W ⟨0, 1⟩ := ⟨by show 0 < 2 * W; omega, by show 1 < 2 * W; omega, rfl⟩
  have hr : Request W ⟨0, 1⟩ goals := ⟨hW, hv, hg⟩
  obtain ⟨searcher, hn⟩ := searcher_new hr
  obtain ⟨w, hw, -⟩ := C04_new hW h2
  rw [whole_eq hW hg .real pi sort ht fo hw hn n]
  exact C114_assertion (g := gear .real pi W sort searcher fo) (by show SearchOk (config fo); rw [config_eq]; exact test_search h0 h1) rfl hr hn hs (.parsed ht)
    hm.full _ (initial_sighted hW h2 hw hm fo) rfl n

/-- **C114, `test_search` ends.** If moreover the walls are seen in time and the square behind the first side has another open side, the test passes after
finitely many rounds on every maze in which a goal can be reached, and panics on every other. -/
theorem C114_passes {W : Nat} (hW : Supported W) (h2 : 2 ≤ W) {goals : List Coord} (hg : ∀ c ∈ goals, Valid W c) (pi : ℝ)
    {sort : List (Dir × F) → List (Dir × F)} (hs : Sorts sort) {text : List Char} (ht : Walls.fromStr W text = .ok (.ok maze)) (hm : MazeMap W maze)
    {fo : ℝ} (h0 : 0 ≤ fo) (h1 : fo ≤ 0.01) (hout : ∃ x, Adjacent W ⟨0, 1⟩ x ∧ Walls.wallState W maze x = .ok (.checked false))
    (hp : ∀ w searcher, Walls.new W = .ok w → Searcher.new W ⟨0, 1⟩ goals = .ok searcher →
      Punctual (config fo) W searcher (recorded (gear .real pi W sort searcher fo) (initial w maze fo))) :
    ∃ N, ∀ n, N ≤ n →
      (Solvable W maze goals → wholeTest .real pi W sort n text (goals.map fun c => (c.x, c.y)) fo = .ok (some ())) ∧
      (¬ Solvable W maze goals → wholeTest .real pi W sort n text (goals.map fun c => (c.x, c.y)) fo = .error .unreachable) := by
  have hv : Valid W ⟨0, 1⟩ := ⟨by show 0 < 2 * W; omega, by show 1 < 2 * W; omega, rfl⟩
  have hr : Request W ⟨0, 1⟩ goals := ⟨hW, hv, hg⟩
  obtain ⟨searcher, hn⟩ := searcher_new hr
  obtain ⟨w, hw, hk⟩ := C04_new hW h2
  obtain ⟨N, hN⟩ := C114_ends (g := gear .real pi W sort searcher fo) (by show SearchOk (config fo); rw [config_eq]; exact test_search h0 h1) rfl hr hn hs (.parsed ht)
    hm.full _ (initial_sighted hW h2 hw hm fo) rfl ((hk _ hv).2.1.2 rfl) hout (hp w searcher hw hn)
  refine ⟨N, fun n hle => ?_⟩
  rw [whole_eq hW hg .real pi sort ht fo hw hn n]
  exact hN n hle

/-- The open maze: no walls but those known in advance. -/
theorem open_maze {W : Nat} (hW : Supported W) (h2 : 2 ≤ W) : ∃ text maze, Walls.fromStr W text = .ok (.ok maze) ∧ MazeMap W maze ∧
    ∃ x, Adjacent W ⟨0, 1⟩ x ∧ Walls.wallState W maze x = .ok (.checked false) := by
  obtain ⟨maze, e, f, -⟩ := C09_canonical hW (fun c => decide (c.x = 2 * W - 1 ∨ c.y = 2 * W - 1 ∨ c = ⟨1, 0⟩))
  have hv : Valid W ⟨1, 2⟩ := ⟨by show 1 < 2 * W; omega, by show 2 < 2 * W; omega, rfl⟩
  have hv0 : Valid W ⟨0, 1⟩ := ⟨by show 0 < 2 * W; omega, by show 1 < 2 * W; omega, rfl⟩
  refine ⟨_, maze, e, ⟨fun c hc => ⟨_, f c hc⟩, fun c hc ho => ?_, ?_, ?_⟩, ⟨1, 2⟩, ⟨hv0, hv, by decide, (0, 1), by simp [Touches], by simp [Touches]⟩, ?_⟩
  · rw [f c hc]; simp; tauto
  · rw [f _ ⟨by show 1 < 2 * W; omega, by show 0 < 2 * W; omega, rfl⟩]; simp
  · rw [f _ hv0]; simp; omega
  · rw [f _ hv]; simp; omega

/-- The test on it, with a goal anywhere. -/
example (goal : Coord) (hg : Valid 16 goal) (n : Nat) : ∃ text maze, Walls.fromStr 16 text = .ok (.ok maze) ∧ MazeMap 16 maze ∧
    wholeTest .real Real.pi 16 demoSort n text [(goal.x, goal.y)] 0.01 ≠ .error .assert := by
  obtain ⟨text, maze, ht, hm, -⟩ := open_maze (W := 16) ⟨4, by omega, rfl⟩ (by norm_num)
  refine ⟨text, maze, ht, hm, ?_⟩
  rcases C114_test ⟨4, by omega, rfl⟩ (by norm_num) (goals := [goal]) (by simpa using hg) Real.pi demoSort_sorts ht hm (fo := 0.01) (by norm_num) le_rfl n with e | e | e
  all_goals
    rw [List.map_cons, List.map_nil] at e
    rw [e]
    simp

end Verif.Props
