import Verif.Proof.OldTof
import Verif.Props.OldSim
/-!
# C109: the former distance sensors
-/
namespace Verif.Props
open Verif Verif.Spec Verif.Old.Sensors Verif.Old.Manager Verif.Old.Search Verif.Proof.OldE Verif.Proof.OldZ
open Verif.Old.Detect hiding State
open Verif.Detect (Pose)
open Verif.Convert (Converter)

variable {w : Verif.Tof.World} {conv : FPose → R (Except ConvError Info)} {see : Pose → Option Seen}

/-- **C109, readings.** Whatever fails, and whatever else is done on the bus: each reading is the answer `mm` of the device to a call that saw its interrupt, read it and cleared it, as
`a · mm / 1000 + b` with deviation 0.04; it was asked for by an earlier call, and no call in between had a reading or asked again. -/
theorem C109_reading {t0 t : Tof} {hist : List (Verif.Tof.Log × Option (ℝ × ℝ))} (h : Polls w t0 hist t) (h0 : t0.dev.state = .idle) {older newer piece z s}
    (he : hist = older ++ (piece, some (z, s)) :: newer) :
    (∃ mm : Nat, Delivers t0.dev.address mm piece ∧ z = t0.a * (mm / 1000) + t0.b ∧ s = 0.04) ∧
    ∃ a r b, older = a ++ r :: b ∧ Asks t0.dev.address r.1 ∧ r.2 = none ∧ ∀ x ∈ b, x.2 = none ∧ ¬ Asks t0.dev.address x.1 := by
  obtain ⟨t1, log, r, t2, h1, h2, h3⟩ := polls_prefix h _ _ _ he
  obtain ⟨a1, a2, a3, a4⟩ := polls_settings h1
  obtain ⟨i1, -⟩ := polls_inv h1 h0
  obtain ⟨-, hc⟩ := step_cases h2
  rw [← h3] at hc
  rcases hc with ⟨-, -, c3, -⟩ | ⟨-, -, c3, -⟩ | ⟨-, -, c3, -⟩ | ⟨c1, -, -, mm, c4, c5⟩
  · cases c3
  · cases c3
  · cases c3
  · simp only [Option.some.injEq, Prod.mk.injEq] at c4
    rw [a1] at c5
    rw [a3, a4] at c4
    exact ⟨⟨mm, c5, c4.1, c4.2⟩, i1 c1⟩

/-- **C109, requests.** Between two successful requests there is a reading: no measurement is asked for before the last one has been delivered. -/
theorem C109_once {t0 t : Tof} {hist : List (Verif.Tof.Log × Option (ℝ × ℝ))} (h : Polls w t0 hist t) (h0 : t0.dev.state = .idle) {a b c r1 r2}
    (he : hist = a ++ r1 :: (b ++ r2 :: c)) (h1 : Asks t0.dev.address r1.1) (h2 : Asks t0.dev.address r2.1) : ∃ x ∈ b, x.2.isSome := by
  obtain ⟨t1, log, r, t2, k1, k2, k3⟩ := polls_prefix h (a ++ r1 :: b) r2 c (by rw [he]; simp)
  obtain ⟨-, i2⟩ := polls_inv k1 h0
  obtain ⟨a1, -⟩ := polls_settings k1
  obtain ⟨-, hc⟩ := step_cases k2
  rw [a1] at hc
  rcases hc with ⟨-, -, -, -, c5⟩ | ⟨c1, -⟩ | ⟨-, -, -, c4⟩ | ⟨-, -, c3, -⟩
  · exact absurd h2 c5
  · exact i2 c1 a r1 b rfl h1
  · exact absurd h2 c4
  · exact absurd h2 c3

/-- **C109, lost measurements.** If a device that was asked never raises its interrupt, the sensor waits for ever: no call asks again, and none has a reading. -/
theorem C109_stuck {t0 t : Tof} {hist : List (Verif.Tof.Log × Option (ℝ × ℝ))} (h : Polls w t0 hist t) (h0 : t0.dev.state = .waiting)
    (hw : ∀ log v, w log (.writeRead t0.dev.address (regBytes 0x004F)) = some v → v &&& 4 ≠ 4) :
    t = t0 ∧ ∀ x ∈ hist, x.2 = none ∧ ¬ Asks t0.dev.address x.1 ∧ ¬ AsksInVain t0.dev.address x.1 := by
  induction h with
  | nil => exact ⟨rfl, fun _ h => by cases h⟩
  | snoc l t log r t' piece hp hs ih =>
    obtain ⟨rfl, i2⟩ := ih
    rcases call_cases t w log with ⟨k0, e, h1⟩ | ⟨k0, x, h1⟩ | ⟨k0, e, p, h1, h2⟩ | ⟨k0, mm, p, h1, h2⟩
    · rw [k0] at h0; cases h0
    · rw [k0] at h0; cases h0
    · rw [h1] at hs
      simp only [Prod.mk.injEq, List.append_cancel_left_eq] at hs
      obtain ⟨rfl, rfl, rfl⟩ := hs
      refine ⟨rfl, fun x hx => ?_⟩
      rcases List.mem_append.1 hx with hx | hx
      · exact i2 x hx
      · rw [List.mem_singleton.1 hx]
        exact ⟨rfl, (not_asks_of h2).1, (not_asks_of h2).2⟩
    · exfalso
      obtain ⟨s, x, g1, rfl⟩ := h2
      unfold Tof.getDistance at h1
      rw [k0] at h1
      dsimp only at h1
      unfold Verif.Tof.Tof.readReg Verif.Tof.perform at h1
      have hreg : [(Verif.Tof.split 0x4F).1, (Verif.Tof.split 0x4F).2] = regBytes 0x004F := rfl
      dsimp only at h1
      cases hv : w log (.writeRead t.dev.address (regBytes 0x004F)) with
      | none =>
        have hv' : w log (.writeRead t.dev.address [(Verif.Tof.split 0x4F).1, (Verif.Tof.split 0x4F).2]) = none := hv
        rw [hv'] at h1
        cases h1
      | some v =>
        have hv' : w log (.writeRead t.dev.address [(Verif.Tof.split 0x4F).1, (Verif.Tof.split 0x4F).2]) = some v := hv
        rw [hv'] at h1
        dsimp only at h1
        rw [if_pos (hw log v hv)] at h1
        cases h1

/-- **C109, poses.** Let sensor `i` of a detector that was new at first be such a sensor, idle at first. If no request has failed, the pose remembered for it is the one at which the measurement
was asked for that has not been delivered yet; a sensor of which a measurement has been asked for has such a pose, so that a reading is never taken for one at the current pose. -/
theorem C109_pose {W : Nat} {t0 t : Tof} {hist : List (Verif.Tof.Log × Option (ℝ × ℝ))} (h : Polls w t0 hist t) (h0 : t0.dev.state = .idle)
    (hv : ∀ x ∈ hist, ¬ AsksInVain t0.dev.address x.1) (ps : List Pose) (hps : ps.length = hist.length) {m : Manager} {calls : List (Pose × ℝ × ℝ × List Look)} {i : Nat}
    (hcalls : (calls.filterMap fun c => (c.2.2.2[i]?).map fun l => (c.1, l.reading)) = ps.zip (hist.map Prod.snd)) {d' : Detector}
    (hd : detections conv W calls (Detector.new m) = .ok d') :
    let q := (ps.zip hist).foldl (fun q x => askedAt q x.1 t0.dev.address x.2) none
    d'.past i = q.map (fun p => ⟨.fin p.x, .fin p.y, p.theta⟩) ∧ (t.dev.state = .waiting ↔ q.isSome) := by
  obtain ⟨k1, k2⟩ := polls_asked h h0 hv ps hps
  refine ⟨?_, k2⟩
  rw [C91_past hd i, k1]
  congr 2
  have e1 : (calls.reverse.filterMap fun c => (c.2.2.2[i]?).map fun l => (c.1, l.reading.isSome)) =
      ((calls.filterMap fun c => (c.2.2.2[i]?).map fun l => (c.1, l.reading)).reverse).map fun x => (x.1, x.2.isSome) := by
    rw [← List.filterMap_reverse, List.map_filterMap]
    congr 1
    funext c
    cases c.2.2.2[i]? <;> rfl
  rw [e1, hcalls, List.zip_map_right, List.map_reverse, List.map_map, List.map_reverse]
  rfl

/-- A world where the first operation fails, and everything works afterwards: the interrupt is always there, and the distance is 4 mm. -/
def failsFirst : Verif.Tof.World := fun log _ => if log = [] then none else some 4

/-- **C109, failed requests.** It is not so if a request has failed: here the first one, made at a pose `p0`, fails and the second one, made at `p1`, succeeds; the reading, delivered at the third
call, is taken for one at `p0`, however far away that is. -/
theorem C109_early {W : Nat} (t0 : Tof) (h0 : t0.dev.state = .idle) (p0 p1 : Pose) :
    ∃ hist t, Polls failsFirst t0 hist t ∧ hist.length = 2 ∧ ([p0, p1].zip hist).foldl (fun q x => askedAt q x.1 t0.dev.address x.2) none = some p1 ∧
      (∃ log r t' log', t.getDistance failsFirst log = (.ok r, t', log')) ∧
      ∀ (m : Manager) (calls : List (Pose × ℝ × ℝ × List Look)) (i : Nat) (d' : Detector),
        (calls.filterMap fun c => (c.2.2.2[i]?).map fun l => (c.1, l.reading)) = [p0, p1].zip (hist.map Prod.snd) → detections conv W calls (Detector.new m) = .ok d' →
        d'.past i = some ⟨.fin p0.x, .fin p0.y, p0.theta⟩ := by
  obtain ⟨⟨address, state⟩, pose, a, b⟩ := t0
  have h0 : state = .idle := h0
  subst h0
  have s1 : Tof.getDistance ⟨⟨address, .idle⟩, pose, a, b⟩ failsFirst [] = (.error .other, ⟨⟨address, .idle⟩, pose, a, b⟩, [] ++ [(startOp address, none)]) := rfl
  have s2 : Tof.getDistance ⟨⟨address, .idle⟩, pose, a, b⟩ failsFirst [(startOp address, none)] =
      (.error .wouldBlock, ⟨⟨address, .waiting⟩, pose, a, b⟩, [(startOp address, none)] ++ [(startOp address, some 4)]) := rfl
  have s3 : ∃ log r t' log', Tof.getDistance ⟨⟨address, .waiting⟩, pose, a, b⟩ failsFirst log = (.ok r, t', log') := ⟨[(startOp address, none)], _, _, _, rfl⟩
  have hp : Polls failsFirst ⟨⟨address, .idle⟩, pose, a, b⟩ [([(startOp address, none)], none), ([(startOp address, some 4)], none)] ⟨⟨address, .waiting⟩, pose, a, b⟩ :=
    .snoc _ _ _ _ _ _ _ (.snoc _ _ _ _ _ _ _ (.nil _) s1) s2
  refine ⟨_, _, hp, rfl, ?_, s3, fun m calls i d' hc hd => ?_⟩
  · have hn : ¬ Asks address [(startOp address, none)] := by rintro ⟨x, hx⟩; simp at hx
    have hy : Asks address [(startOp address, some 4)] := ⟨4, by simp⟩
    simp [askedAt, hn, hy]
  · rw [C91_past hd i]
    have e1 : (calls.reverse.filterMap fun c => (c.2.2.2[i]?).map fun l => (c.1, l.reading.isSome)) =
        ((calls.filterMap fun c => (c.2.2.2[i]?).map fun l => (c.1, l.reading)).reverse).map fun x => (x.1, x.2.isSome) := by
      rw [← List.filterMap_reverse, List.map_filterMap]
      congr 1
      funext c
      cases c.2.2.2[i]? <;> rfl
    rw [e1, hc]
    rfl

/-- **C109, search.** A robot that is sure of its position searches any regular maze with up to six such sensors on one bus. Whatever else fails on the bus, however long the measurements take,
and wherever the robot goes meanwhile: if no request fails, and each measurement is right for the pose at which it was asked for, then all of C91 holds: the memory never says anything wrong, and the
commands returned are a tour through openings. And whatever the sensors say, the detector neither panics nor moves the robot. -/
theorem C109_search {P : Config} {cost : Old.Pattern → Nat} {goal0 : Verif.Run.Node} {rest : List Verif.Run.Node} {real : Old.Wall → Bool} {t : F} {d : Detector}
    (S : Setting P cost real goal0 rest) (h0 : P.start = ⟨0, 0, .north⟩) (ht : GoodThreshold exact t) (hr : Regular P.W real) (hs : Sees P.W conv see) {ts : List Tof} {log : Verif.Tof.Log}
    {asked : Nat → Option Pose} {c : Commander} {rs : List Reply} (h : BusPatrol P t real conv see w ts log asked d c rs) :
    Patrol P t real conv see d c rs ∧
    (∀ ws, TrueBelief P.W real (belief exact P.W (held P.W ws) d.memory)) ∧
    CommandTour P.W (posBlocked real) P.start (commandsOf rs) c.current ∧
    (∀ i b, ts[i]? = some b → d.past i = (asked i).map (fun p => ⟨.fin p.x, .fin p.y, p.theta⟩) ∧ (b.dev.state = .waiting ↔ (asked i).isSome)) ∧
    ∀ p xs ts' log' busy, sweep w ts log = (xs, ts', log') → (∀ i, (∀ v ∈ (busy i).1, InMaze P.W v) ∧ ∀ v ∈ (busy i).2, InMaze P.W v) →
      ∃ d', detectAndUpdate exact conv P.W d ((looksOf ts xs busy 0).map (Look.input P.W)) (stateAt p 0 0) = .ok (d', stateAt p 0 0) := by
  obtain ⟨h1, h2, h3, h4⟩ := bus_inv S.width ht hr hs h
  obtain ⟨-, k1, -, k2, -⟩ := C91_search S h0 ht hr hs h1
  obtain ⟨-, -, ⟨g, hd⟩, hsd⟩ := patrol_inv S.width ht hr hs h1
  refine ⟨h1, k1, k2, fun i b hb => ⟨?_, h3 i b hb⟩, fun p xs ts' log' busy hsw hbusy => ?_⟩
  · have hi := (List.getElem?_eq_some_iff.1 hb).1
    rw [hd.past i (by show i < 6; omega), h4 g hd i hi]
  · obtain ⟨w1, -, -⟩ := sweep_spec ts log xs ts' log' hsw
    obtain ⟨d', e1, -, -⟩ := call_eq S.width hs hd (hsd g hd).chances (by rw [looksOf_length ts xs busy 0 w1]; exact h2) (sweep_fair (W := P.W) hsw hbusy) p 0 0
    obtain ⟨f1, f2, f3⟩ := afterAll_still (see := see) (here := p) (looksOf ts xs busy 0) 0 (g.begin 0 0) ⟨rfl, rfl, by simp [Guess.begin]⟩
    refine ⟨d', ?_⟩
    rw [e1, f1, f2, f3, Real.sqrt_zero, add_zero, add_zero]
    rfl

/-- A world where everything works: the interrupt is always there, and the distance is 4 mm. -/
def allWell : Verif.Tof.World := fun _ _ => some 4

/-- A sensor in the middle of the robot, with an offset of 38 mm. -/
noncomputable def midSensor (s : Verif.Tof.State) : Tof := ⟨⟨0x30, s⟩, ⟨0, 0, 0⟩, 1, 38 / 1000⟩

theorem mid_asks (log : Verif.Tof.Log) : (midSensor .idle).getDistance allWell log = (.error .wouldBlock, midSensor .waiting, log ++ [(startOp 0x30, some 4)]) := rfl

theorem mid_reads (log : Verif.Tof.Log) : ∃ piece, (midSensor .waiting).getDistance allWell log = (.ok (42 / 1000, 0.04), midSensor .idle, log ++ piece) ∧ ∀ e ∈ piece, e.1 ≠ startOp 0x30 := by
  refine ⟨[(.writeRead 0x30 (regBytes 0x004F), some 4), (.writeRead 0x30 (regBytes 0x0062), some 4), (.write 0x30 (regBytes 0x0015 ++ [7]), some 4)], ?_, ?_⟩
  · have : (midSensor .waiting).getDistance allWell log = (.ok (1 * (((4 : Nat) : ℝ) / 1000) + 38 / 1000, 0.04), midSensor .idle,
      log ++ [(.writeRead 0x30 (regBytes 0x004F), some 4)] ++ [(.writeRead 0x30 (regBytes 0x0062), some 4)] ++ [(.write 0x30 (regBytes 0x0015 ++ [7]), some 4)]) := rfl
    rw [this]
    norm_num
  · intro e he
    simp only [List.mem_cons, List.not_mem_nil, or_false] at he
    rcases he with rfl | rfl | rfl <;> simp [startOp, regBytes]

/-- Its calls are histories as in C109. -/
example : ∃ piece, Polls allWell (midSensor .idle) [([(startOp 0x30, some 4)], none), (piece, some (42 / 1000, 0.04))] (midSensor .idle) := by
  obtain ⟨piece, h, -⟩ := mid_reads []
  exact ⟨piece, .snoc _ _ _ _ _ _ _ (.snoc _ _ _ _ _ _ _ (.nil _) (mid_asks [])) h⟩

/-- Two measurements: the second is asked for after the first has been delivered. -/
example : ∃ piece, Polls allWell (midSensor .idle) ([] ++ ([(startOp 0x30, some 4)], none) :: ([(piece, some (42 / 1000, 0.04))] ++ ([(startOp 0x30, some 4)], none) :: [])) (midSensor .waiting) ∧
    Asks (midSensor .idle).dev.address [(startOp 0x30, some 4)] := by
  obtain ⟨piece, h, -⟩ := mid_reads []
  exact ⟨piece, .snoc _ _ _ _ _ _ _ (.snoc _ _ _ _ _ _ _ (.snoc _ _ _ _ _ _ _ (.nil _) (mid_asks [])) h) (mid_asks []), 4, by simp [midSensor]⟩

/-- A device that has lost its measurement, asked in vain. -/
example : ∃ piece, Polls (fun _ _ => some 0) (midSensor .waiting) [(piece, none)] (midSensor .waiting) ∧
    ∀ log v, (fun _ _ => some 0 : Verif.Tof.World) log (.writeRead (midSensor .waiting).dev.address (regBytes 0x004F)) = some v → v &&& 4 ≠ 4 :=
  ⟨_, .snoc _ [] _ [] (.error .wouldBlock) _ [(.writeRead 0x30 (regBytes 0x004F), some 0)] (.nil _) rfl, by intro _ v h; cases h; decide⟩

/-- A detector with this sensor that has been asked for a measurement. -/
example (p : Pose) : ∃ m d', Polls allWell (midSensor .idle) [([(startOp 0x30, some 4)], none)] (midSensor .waiting) ∧ ¬ AsksInVain 0x30 [(startOp 0x30, some 4)] ∧
    detections (convertF Converter.default 16 demoSort) 16 [(p, 0, 0, [⟨⟨0, 0, 0⟩, none, [], []⟩])] (Detector.new m) = .ok d' ∧
    ([(p, (0 : ℝ), (0 : ℝ), [(⟨⟨0, 0, 0⟩, none, [], []⟩ : Look)])].filterMap fun c => (c.2.2.2[0]?).map fun l => (c.1, l.reading)) = [p].zip [none] := by
  have hW : Supported 16 := ⟨4, by decide, rfl⟩
  obtain ⟨see, hs, -⟩ := demo_sees hW
  obtain ⟨m, g, h1, h2, h3, -⟩ := demo_guess hW (.fin (1 / 10))
  obtain ⟨d', _, -, k, -⟩ := C91_call hW hs h2 h3 (ls := [⟨⟨0, 0, 0⟩, none, [], []⟩]) (by simp) (by
    intro l hl
    rw [List.mem_singleton.1 hl]
    exact ⟨by simp, by simp, by simp⟩) p 0 0
  refine ⟨m, d', .snoc _ _ _ _ _ _ _ (.nil _) (mid_asks []), by unfold AsksInVain; simp, ?_, rfl⟩
  unfold detections
  rw [k]
  rfl

/-- A search with this sensor, in a maze of width 4: in the middle of the first cell, heading right, the robot asks for a measurement; it is delivered when the robot is elsewhere. -/
example (elsewhere : Pose) : ∃ d see ts log asked, Sees 4 (convertF Converter.default 4 demoSort) see ∧
    BusPatrol smallConfig (.fin (1 / 10)) (walled twoWalls) (convertF Converter.default 4 demoSort) see allWell ts log asked d (Commander.new smallConfig.start) [] ∧
    Regular smallConfig.W (walled twoWalls) ∧ GoodThreshold exact (.fin (1 / 10)) := by
  have hW : Supported 4 := ⟨2, by decide, rfl⟩
  obtain ⟨see, hs, hsee⟩ := demo_sees hW
  obtain ⟨m, h1, -⟩ := C89_new hW (.fin (1 / 10))
  have hg : GoodThreshold exact (.fin (1 / 10)) := ⟨⟨1 / 10, rfl, by norm_num, by norm_num, rfl⟩, by show (0 : ℝ) < 1 / 10; norm_num,
    by show (1 : ℝ) + -(1 / 10) < 1; norm_num, by show (1 / 10 : ℝ) ≤ 1 / 2; norm_num⟩
  have hr : Regular smallConfig.W (walled twoWalls) := ⟨walled_closed _, by decide, by decide⟩
  have k0 : BusPatrol smallConfig (.fin (1 / 10)) (walled twoWalls) (convertF Converter.default 4 demoSort) see allWell [midSensor .idle] [] (fun _ => none) (Detector.new m)
    (Commander.new smallConfig.start) [] := .start m _ [] h1 (by simp) (by intro x hx; rw [List.mem_singleton.1 hx]; rfl)
  have hnv : ¬ AsksInVain 0x30 [(startOp 0x30, some 4)] := by unfold AsksInVain; simp
  have hy : Asks 0x30 [(startOp 0x30, some 4)] := ⟨4, by simp⟩
  have w1 : sweep allWell [midSensor .idle] [] = ([([(startOp 0x30, some 4)], none)], [midSensor .waiting], [(startOp 0x30, some 4)]) := rfl
  have nobusy : ∀ i : Nat, (∀ v ∈ ((fun _ => ([], [])) i : List Old.Wall × List Old.Wall).1, InMaze smallConfig.W v) ∧
    ∀ v ∈ ((fun _ => ([], [])) i : List Old.Wall × List Old.Wall).2, InMaze smallConfig.W v := fun _ => ⟨by simp, by simp⟩
  obtain ⟨-, -, -, -, n0⟩ := C109_search (small_setting twoWalls) rfl hg hr hs k0
  obtain ⟨d1, c1⟩ := n0 (centre 0) _ _ _ _ w1 nobusy
  have k1 := BusPatrol.detect _ _ _ _ d1 _ _ (centre 0) _ _ _ _ _ k0 w1 (by
    intro i b x h1 h2
    cases i with
    | zero => cases h1; cases h2; exact hnv
    | succ i => simp at h1) (by intro i b x h1 h2 q z s e hq; cases hq) nobusy c1
  obtain ⟨piece, p1, p2⟩ := mid_reads [(startOp 0x30, some 4)]
  have w2 : sweep allWell [midSensor .waiting] [(startOp 0x30, some 4)] = ([(piece, some (42 / 1000, 0.04))], [midSensor .idle], [(startOp 0x30, some 4)] ++ piece) := by
    unfold sweep
    rw [p1]
    rfl
  obtain ⟨-, -, -, -, n1⟩ := C109_search (small_setting twoWalls) rfl hg hr hs k1
  obtain ⟨d2, c2⟩ := n1 elsewhere _ _ _ _ w2 nobusy
  have k2 := BusPatrol.detect _ _ _ _ d2 _ _ elsewhere _ _ _ _ _ k1 w2 (by
    intro i b x h1 h2
    cases i with
    | zero => cases h1; cases h2; exact (not_asks_of p2).2
    | succ i => simp at h1) (by
    intro i b x h1 h2 q z s e hq hz hse
    cases i with
    | succ i => simp at h1
    | zero =>
      cases h1; cases h2; cases hz
      have hq : askedAt none (centre 0) 0x30 ([(startOp 0x30, some 4)], none) = some q := hq
      unfold askedAt at hq
      simp only [Option.isSome_none, Bool.false_eq_true, if_false, if_pos hy, Option.some.injEq] at hq
      subst hq
      obtain ⟨far, hfar⟩ := hsee 0 (by norm_num)
      have hc : aimed (centre 0) (midSensor .waiting).pose 0 0 = centre 0 := by
        simp [aimed, midSensor]
      rw [Nat.cast_zero] at hfar
      rw [hc, hfar] at hse
      cases hse
      have : walled twoWalls ⟨0, 0, false⟩ = true := by decide
      simp only [this, if_true, sub_self, abs_zero]
      exact abs_nonneg _) nobusy c2
  exact ⟨d2, see, _, _, _, hs, k2, hr, hg⟩

end Verif.Props
