import Verif.Props.PaceRuns
import Verif.Props.Direct
/-!
# C119: the test of the fast run passes on a straight way
-/
namespace Verif.Props
open Verif Verif.Control Verif.Estimate Verif.Sim Verif.Spec Verif.Trial Verif.Driver Verif.RunTrial Verif.Straight
open Verif.Run (Node Posture EdgeKind HeapOps)

/-! ## The places of the targets -/

theorem cube_le {r u q : ℝ} (r0 : 0 ≤ r) (r1 : r ≤ u) (h : u ^ 2 = q) : 0 ≤ r * r * r ∧ r * r * r ≤ q * r := by
  subst h
  refine ⟨by positivity, mul_le_mul_of_nonneg_right ?_ r0⟩
  rw [sq]
  exact mul_le_mul r1 r1 r0 (by linarith)

theorem way_bounds {P : Pace} {d : ℝ} {N : Nat} (h : P.Fit d N) {n : Nat} (hn : n ≤ N) : 0 ≤ (P.at n).1 ∧ (P.at n).1 ≤ d := by
  have p0 := h.p0
  have p1 := h.p1
  have d0 := h.d0
  have hu2 : P.u ^ 2 = P.p / 100 := by rw [h.u, Real.sq_sqrt (by linarith)]
  have hd2 : P.dn ^ 2 = (P.p - 0.5) / 100 := by rw [h.dn, Real.sq_sqrt (by linarith)]
  have hu0 : 0 ≤ P.u := by rw [h.u]; positivity
  have hd0 : 0 ≤ P.dn := by rw [h.dn]; positivity
  have hr : reachDist P.p = P.p * P.u + (P.p + 0.5) * P.dn := by rw [h.u, h.dn]; rfl
  have ht := h.t2
  have hw := h.way
  have hpu : 0 ≤ P.p * P.u := by positivity
  have hpd : 0 ≤ (P.p + 0.5) * P.dn := by positivity
  rw [hr] at ht hw
  have hnn : (0 : ℝ) ≤ n := n.cast_nonneg
  unfold Pace.at
  norm_num at *
  split
  · rename_i c
    have c' : (n : ℝ) ≤ P.n1 := by exact_mod_cast c
    have hx : (n : ℝ) / 1000 ≤ P.u := by linarith [h.n1.1]
    have hx0 : 0 ≤ (n : ℝ) / 1000 := by positivity
    have e : (n : ℝ) ^ 3 / 60000000 = 100 / 6 * (n / 1000) ^ 3 := by ring
    refine ⟨by positivity, ?_⟩
    simp only [e]
    have : ((n : ℝ) / 1000) ^ 3 ≤ P.u ^ 3 := pow_le_pow_left₀ hx0 hx 3
    have e2 : P.u ^ 3 = P.p / 100 * P.u := by rw [← hu2]; ring
    linarith
  rename_i c1
  have c1' : ((P.n1 : ℝ) + 1) ≤ n := by exact_mod_cast (not_le.1 c1)
  have b1 : P.u ≤ n / 1000 := by linarith [h.n1.2]
  split
  · rename_i c
    have c' : (n : ℝ) ≤ P.n2 := by exact_mod_cast c
    have hx : (n : ℝ) / 1000 ≤ 2 * P.u := by linarith [h.n2.1]
    dsimp only
    set r := 2 * P.u - n / 1000 with hr'
    have r0 : 0 ≤ r := by linarith
    have r1 : r ≤ P.u := by linarith
    obtain ⟨z1, z2⟩ := cube_le r0 r1 hu2
    have : P.p * r ≤ P.p * P.u := mul_le_mul_of_nonneg_left r1 (by linarith)
    have : 0 ≤ P.p * r := by positivity
    constructor <;> linarith
  rename_i c2
  have c2' : ((P.n2 : ℝ) + 1) ≤ n := by exact_mod_cast (not_le.1 c2)
  have b2 : 2 * P.u ≤ n / 1000 := by linarith [h.n2.2]
  split
  · rename_i c
    have c' : (n : ℝ) ≤ P.n3 := by exact_mod_cast c
    have hx : (n : ℝ) / 1000 ≤ P.t2 := by linarith [h.n3.1]
    dsimp only
    have q1 : 0 ≤ P.p * (n / 1000 - 2 * P.u) := mul_nonneg (by linarith) (by linarith)
    have q2 : P.p * (n / 1000 - 2 * P.u) ≤ P.p * (P.t2 - 2 * P.u) := mul_le_mul_of_nonneg_left (by linarith) (by linarith)
    constructor <;> linarith
  rename_i c3
  have c3' : ((P.n3 : ℝ) + 1) ≤ n := by exact_mod_cast (not_le.1 c3)
  have b3 : P.t2 ≤ n / 1000 := by linarith [h.n3.2]
  split
  · rename_i c
    have c' : (n : ℝ) ≤ P.n4 := by exact_mod_cast c
    have hx : (n : ℝ) / 1000 ≤ P.t2 + P.dn := by linarith [h.n4.1]
    dsimp only
    set r := n / 1000 - P.t2 with hr'
    have r0 : 0 ≤ r := by linarith
    have r1 : r ≤ P.dn := by linarith
    obtain ⟨z1, z2⟩ := cube_le r0 r1 hd2
    have : P.p * r ≤ P.p * P.dn := mul_le_mul_of_nonneg_left r1 (by linarith)
    have : 0 ≤ P.p * r := by positivity
    constructor <;> linarith
  rename_i c4
  have c4' : ((P.n4 : ℝ) + 1) ≤ n := by exact_mod_cast (not_le.1 c4)
  have b4 : P.t2 + P.dn ≤ n / 1000 := by linarith [h.n4.2]
  have c' : (n : ℝ) ≤ N := by exact_mod_cast hn
  have hx : (n : ℝ) / 1000 ≤ P.t2 + 2 * P.dn := by linarith [h.n5.1]
  dsimp only
  set r := P.t2 + 2 * P.dn - n / 1000 with hr'
  have r0 : 0 ≤ r := by linarith
  have r1 : r ≤ P.dn := by linarith
  obtain ⟨z1, z2⟩ := cube_le r0 r1 hd2
  have : P.p * r ≤ P.p * P.dn := mul_le_mul_of_nonneg_left r1 (by linarith)
  constructor <;> linarith

theorem way_end {P : Pace} {d : ℝ} {N : Nat} (h : P.Fit d N) (hN : P.n4 < N) (h34 : P.n1 ≤ P.n2 ∧ P.n2 ≤ P.n3 ∧ P.n3 ≤ P.n4) : d - 0.00051 ≤ (P.at N).1 := by
  have ht := h.t2
  have hr : reachDist P.p = P.p * P.u + (P.p + 0.5) * P.dn := by rw [h.u, h.dn]; rfl
  rw [hr] at ht
  have h5 := h.n5
  unfold Pace.at
  rw [if_neg (by omega), if_neg (by omega), if_neg (by omega), if_neg (by omega)]
  dsimp only
  norm_num at ht ⊢
  set r := P.t2 + 2 * P.dn - N / 1000 with hr'
  have r0 : 0 ≤ r := by linarith [h5.1]
  have r1 : r ≤ 1 / 1000 := by linarith [h5.2]
  have : r * r * r ≤ 1 / 1000 * (1 / 1000) * (1 / 1000) := by gcongr
  linarith

/-! ## The supervisor lets the robot be -/

variable {pi : ℝ} {s : Along}

/-- In the middle between the pillars of a straight way nothing is demanded that is not so anyway. -/
theorem clear_demand {st : State} {px py uy : ℝ} (hx : 0.045 ≤ |st.x.x - px|) (hv : st.x.v = 0) (hu : |2 * uy + 400 * st.y.v| ≤ 806) :
    0 ≤ demand ⟨100, 0.02, 0.09⟩ st (px, py) 0 uy := by
  unfold demand barrier'' barrier' barrier
  dsimp only
  rw [hv]
  have h1 : (0.045 : ℝ) ^ 2 ≤ (st.x.x - px) ^ 2 := by rw [← sq_abs (st.x.x - px)]; exact pow_le_pow_left₀ (by norm_num) hx 2
  have h2 : (2 * uy + 400 * st.y.v) ^ 2 ≤ 806 ^ 2 := by rw [← sq_abs]; exact pow_le_pow_left₀ (abs_nonneg _) hu 2
  set D := st.y.x - py
  set K := 2 * uy + 400 * st.y.v with hK
  have h3 : 0 ≤ (100 * D + K / 200) ^ 2 := sq_nonneg _
  have e : 2 * 0 ^ 2 + 2 * st.y.v ^ 2 + 2 * (st.x.x - px) * 0 + 2 * D * uy + 2 * 100 * (2 * (st.x.x - px) * 0 + 2 * D * st.y.v) +
      100 ^ 2 * ((st.x.x - px) ^ 2 + D ^ 2 - 0.02 ^ 2) = 2 * st.y.v ^ 2 + (100 * D + K / 200) ^ 2 + 10000 * (st.x.x - px) ^ 2 - 4 - K ^ 2 / 40000 := by
    rw [hK]; ring
  rw [e]
  have := sq_nonneg st.y.v
  norm_num at h1 h2 ⊢
  linarith

/-- The supervisor changes nothing on the middle of a straight way along the first column. -/
theorem clear_way {st : State} {i : TrackingInput} (hx : st.x.x = 0.045) (hv : st.x.v = 0) (h0 : 0 ≤ st.y.x) (h1 : st.y.x < 64 * 0.09) (hux : i.ux = 0)
    (hu : |2 * i.uy + 400 * st.y.v| ≤ 806) :
    (⟨100, 0.02, 0.09⟩ : Supervisor).supervise .real i st = .ok ⟨i.ux, i.uy, .fin i.dux, .fin i.duy⟩ := by
  have far : ∀ z : Int, 0.045 ≤ |st.x.x - z * 0.09| := by
    intro z
    rw [hx]
    by_cases hz : z ≤ 0
    · have : (z : ℝ) ≤ 0 := by exact_mod_cast hz
      rw [abs_of_nonneg (by linarith)]; linarith
    · have : (1 : ℝ) ≤ z := by exact_mod_cast (by omega : 1 ≤ z)
      rw [abs_of_nonpos (by norm_num; linarith)]; norm_num; linarith
  have hn : 0 ≤ st.y.x / 0.09 := by positivity
  have f1 := Nat.floor_le hn
  have f2 := Nat.lt_floor_add_one (st.y.x / 0.09)
  rw [le_div_iff₀ (by norm_num)] at f1
  rw [div_lt_iff₀ (by norm_num)] at f2
  generalize ⌊st.y.x / 0.09⌋₊ = b at f1 f2
  have hb : b ≤ 124 := by
    have : (b : ℝ) < 64 := lt_of_mul_lt_mul_right (lt_of_le_of_lt f1 h1) (by norm_num)
    have : b < 64 := by exact_mod_cast this
    omega
  obtain ⟨p, q, hnp, hpq⟩ := C50_pillars ⟨100, 0.02, 0.09⟩ 90 (by norm_num) (by norm_num) st.x.x st.y.x 0 b (by norm_num) hb
    (by rw [hx]; norm_num) (by rw [hx]; norm_num) f1 f2
  have isP : ∀ a ∈ ([pillar ⟨100, 0.02, 0.09⟩ ((0 : Nat) + 1) (b + 1), pillar ⟨100, 0.02, 0.09⟩ ((0 : Nat) + 2) (b + 1), pillar ⟨100, 0.02, 0.09⟩ ((0 : Nat) + 1) (b + 2),
        pillar ⟨100, 0.02, 0.09⟩ ((0 : Nat) + 2) (b + 2), p, q] : List (ℝ × ℝ)), ∃ i j : Int, a = ((i : ℝ) * 0.09, (j : ℝ) * 0.09) := by
    intro a ha
    simp only [List.mem_cons, List.not_mem_nil, or_false] at ha
    rcases ha with rfl | rfl | rfl | rfl | rfl | rfl
    · exact ⟨_, _, rfl⟩
    · exact ⟨_, _, rfl⟩
    · exact ⟨_, _, rfl⟩
    · exact ⟨_, _, rfl⟩
    · rcases hpq with hpq | hpq | hpq | hpq <;> rw [Prod.mk.injEq] at hpq <;> rw [hpq.1] <;> exact ⟨_, _, rfl⟩
    · rcases hpq with hpq | hpq | hpq | hpq <;> rw [Prod.mk.injEq] at hpq <;> rw [hpq.2] <;> exact ⟨_, _, rfl⟩
  obtain ⟨o, ho⟩ := C49_total .real ⟨100, 0.02, 0.09⟩ i st _ (by simp) hnp (by
    intro a ha
    obtain ⟨z, z', rfl⟩ := isP a ha
    intro e
    have e := congrArg Prod.fst e
    have := far z
    simp only at e
    rw [e, sub_self, abs_zero] at this
    norm_num at this)
  obtain ⟨ps, h2, h3, -⟩ := C49_supervise .real _ i st o ho
  rw [hnp] at h2
  cases h2
  rw [ho, h3]
  intro a ha
  obtain ⟨z, z', rfl⟩ := isP a ha
  rw [hux]
  exact clear_demand (far z) hv hu

/-! ## A round -/

/-- The parts a run has in common with a search. -/
def asTrial (m : Runner) (b : Trial) : Trial :=
  { b with state := m.state, tracker := m.tracker, controller := m.controller, estimator := m.estimator, simulator := m.simulator }

theorem lane_run (hpi : 0 ≤ pi) {m : Runner} {b : Trial} (h : Lane 0.045 (asTrial m b) s) {y v a j : ℝ} {tr : List (Detect.Pose × Traj)}
    (hn : nextTarget .real m.trajectories = .ok (some (onLane 0.045 y v a j), tr)) (hu : |s.volt y v a| ≤ 3.7) (h0 : 0 ≤ s.place) (h1 : s.place < 64 * 0.09)
    (hw : |2 * s.want y v a + 400 * s.speed| ≤ 806) :
    believed (runGear .real pi) m = ⟨⟨0.045, 0, 0⟩, ⟨s.place, s.speed, (s.v - s.vp) / 0.001⟩, ⟨Real.pi / 2, 0, 0⟩⟩ ∧
    ∃ m', (runGear .real pi).turn m = .ok (true, m') ∧ m'.trajectories = tr ∧ Lane 0.045 (asTrial m' b) (s.step y v a) ∧
      m'.simulator = (m.simulator.apply (s.volt y v a) (s.volt y v a)).step .real := by
  have he : m.estimator.estimate .real m.state (Trial.sensed .real m.simulator) =
    (⟨0.001, 0.76094276, 100, 0.1, 0, s.speed⟩, ⟨⟨0.045, 0, 0⟩, ⟨s.place, s.speed, (s.v - s.vp) / 0.001⟩, ⟨Real.pi / 2, 0, 0⟩⟩) := h.estimate
  have hb : believed (runGear .real pi) m = ⟨⟨0.045, 0, 0⟩, ⟨s.place, s.speed, (s.v - s.vp) / 0.001⟩, ⟨Real.pi / 2, 0, 0⟩⟩ := congrArg Prod.snd he
  refine ⟨hb, ?_⟩
  set st : State := ⟨⟨0.045, 0, 0⟩, ⟨s.place, s.speed, (s.v - s.vp) / 0.001⟩, ⟨Real.pi / 2, 0, 0⟩⟩ with hst
  have hnav : ((⟨40, 4⟩ : Navigation).navigate st (onLane 0.045 y v a j)).ux = 0 ∧ ((⟨40, 4⟩ : Navigation).navigate st (onLane 0.045 y v a j)).uy = s.want y v a := by
    unfold Navigation.navigate onLane Along.want
    simp [hst]
  have hsup := clear_way (st := st) (i := (⟨40, 4⟩ : Navigation).navigate st (onLane 0.045 y v a j)) rfl rfl h0 h1 hnav.1 (by rw [hnav.2]; exact hw)
  have htk : m.tracker = ⟨s.xi, 0.001, 0.2, 1, 1⟩ := h.tracker
  have hct : m.controller = _ := h.controller
  have htr := lane_track (x := 0.045) hpi st y v a j hst
  unfold RunGear.turn
  simp only [runGear, he, hn, bind, Except.bind, hsup, trackSupervised, htk]
  rw [show (⟨((⟨40, 4⟩ : Navigation).navigate st (onLane 0.045 y v a j)).ux, ((⟨40, 4⟩ : Navigation).navigate st (onLane 0.045 y v a j)).uy,
    ((⟨40, 4⟩ : Navigation).navigate st (onLane 0.045 y v a j)).dux, ((⟨40, 4⟩ : Navigation).navigate st (onLane 0.045 y v a j)).duy⟩ : TrackingInput) =
      (⟨40, 4⟩ : Navigation).navigate st (onLane 0.045 y v a j) from rfl, htr]
  simp only [hct, lane_control]
  rw [if_pos ⟨by linarith, by linarith⟩]
  refine ⟨_, rfl, rfl, h.advance hu rfl rfl rfl rfl rfl, rfl⟩

theorem off_more (s : Along) {y0 v0 y v a : ℝ} (o : Off) (ho : s.off y0 v0 = o) (c : Change) (hc : c = ⟨v, a, v - v0, y - y0 - 0.001 * v⟩) :
    v - s.speed = o.lag c ∧ s.want y v a = o.want c := by
  subst ho hc
  set o := s.off y0 v0 with ho
  set c : Change := ⟨v, a, v - v0, y - y0 - 0.001 * v⟩ with hc
  have h1 : v - s.speed = o.lag c := by simp only [ho, hc, Off.lag, Along.off, Along.speed]; ring
  have h2 : y - s.place = o.e1 c := by
    unfold Off.e1
    rw [← h1]
    simp only [ho, hc, Along.off, Along.place]; ring
  exact ⟨h1, by unfold Along.want Off.want; rw [h1, h2]⟩

/-- The robot before the round of target `n`. -/
structure Ready (P : Pace) (N : Nat) (f : Nat → Target) (b : Trial) (n : Nat) (m : Runner) (s : Along) : Prop where
  lane : Lane 0.045 (asTrial m b) s
  issues : Issues m.trajectories ((List.range' n (N + 1 - n)).map f)
  off : s.off (0.045 + (P.at (n - 1)).1) (P.at (n - 1)).2.1 = P.off 0 .none n

theorem ready_next (hpi : 0 ≤ pi) {P : Pace} {d : ℝ} {N : Nat} (hf : P.Fit d N) (hr : CanFollow P N) (hd : d ≤ 2.8) {f : Nat → Target}
    (hfj : ∀ n, n ≤ N → ∃ j, f n = onLane 0.045 (0.045 + (P.at n).1) (P.at n).2.1 (P.at n).2.2 j) {b : Trial} {n : Nat} (hn : n ≤ N) {m : Runner}
    (h : Ready P N f b n m s) :
    believed (runGear .real pi) m = ⟨⟨0.045, 0, 0⟩, ⟨s.place, s.speed, (s.v - s.vp) / 0.001⟩, ⟨Real.pi / 2, 0, 0⟩⟩ ∧ |s.place - (0.045 + (P.at n).1)| ≤ 0.002 ∧
    ∃ m' s', (runGear .real pi).turn m = .ok (true, m') ∧ Ready P N f b (n + 1) m' s' ∧ |s'.place - s.place| ≤ 0.0017 := by
  obtain ⟨j, hj⟩ := hfj n hn
  have hi := h.issues
  rw [show N + 1 - n = (N - n) + 1 by omega, List.range'_succ, List.map_cons, hj] at hi
  obtain ⟨tr, t1, t2⟩ := issues_next hi
  obtain ⟨w1, w2⟩ := way_bounds hf hn
  obtain ⟨rm, rs, rv, rn, rw', rl⟩ := hr n hn
  have hc : P.change n = ⟨(P.at n).2.1, (P.at n).2.2, (P.at n).2.1 - (P.at (n - 1)).2.1,
      0.045 + (P.at n).1 - (0.045 + (P.at (n - 1)).1) - 0.001 * (P.at n).2.1⟩ := by
    unfold Pace.change
    simp only [Change.mk.injEq, true_and]
    ring
  obtain ⟨m1, m2⟩ := off_more s _ h.off _ hc
  obtain ⟨o1, o2, o3⟩ := off_step s (decide (64 ≤ n)) _ h.off _ hc (by
    revert rm
    have e : (P.change n).v = (P.at n).2.1 := rfl
    rw [e]
    split
    · rintro ⟨a1, a2⟩
      exact ⟨lt_of_lt_of_le a1 (le_abs_self _), lt_of_lt_of_le a2 (le_abs_self _)⟩
    · exact id)
  have ev : (P.change n).v = (P.at n).2.1 := rfl
  rw [ev] at rs
  rw [← o3] at rn
  rw [← m2] at rw'
  rw [← m1] at rl
  rw [← o2] at rv
  have rn' := abs_le.1 rn
  have rw'' := abs_le.1 rw'
  have rl' := abs_le.1 rl
  norm_num at rn' rw'' rl' hd
  obtain ⟨hb, m', k1, k2, k3, -⟩ := lane_run hpi h.lane t1 rv (by linarith) (by norm_num; linarith) (by rw [abs_le]; constructor <;> linarith)
  refine ⟨hb, by rw [abs_sub_comm]; exact rn, m', _, k1, ⟨k3, ?_, ?_⟩, ?_⟩
  · rw [k2, show N + 1 - (n + 1) = N - n by omega]; exact t2
  · rw [Nat.add_sub_cancel, o1, Pace.off, zero_add]
  · have e : (s.step (0.045 + (P.at n).1) (P.at n).2.1 (P.at n).2.2).place - s.place =
        0.001 * (s.step (0.045 + (P.at n).1) (P.at n).2.1 (P.at n).2.2).speed := by
      unfold Along.place
      simp only [Along.step]
      unfold Along.place
      ring
    rw [e]
    have e2 : (s.step (0.045 + (P.at n).1) (P.at n).2.1 (P.at n).2.2).v - s.v =
        0.001 / 0.4453 * (1.865 * s.volt (0.045 + (P.at n).1) (P.at n).2.1 (P.at n).2.2 - s.v) := by simp only [Along.step]; norm_num; ring
    have s1 := abs_le.1 k3.slow
    have s2 := abs_le.1 h.lane.slow
    have rv' := abs_le.1 rv
    norm_num at s1 s2 rv' e2
    rw [abs_le]
    norm_num
    constructor <;> linarith

theorem go_last {g : RunGear} : ∀ (n : Nat) {m m1 : Runner}, g.go n m = .ok (true, m1) → g.go (n + 1) m = (do
    let (on, m) ← g.turn m1
    if on then .ok (true, m) else return (false, m))
  | 0, m, m1, h => by
    cases h
    rfl
  | n + 1, m, m1, h => by
    rw [RunGear.go] at h ⊢
    cases e : g.turn m with
    | error => rw [e] at h; cases h
    | ok p =>
      obtain ⟨on, m2⟩ := p
      rw [e] at h
      simp only [bind, Except.bind] at h ⊢
      cases on with
      | false => cases h
      | true =>
        simp only [if_true] at h ⊢
        exact go_last n h

theorem ready_all (hpi : 0 ≤ pi) {P : Pace} {d : ℝ} {N : Nat} (hf : P.Fit d N) (hr : CanFollow P N) (hd : d ≤ 2.8) {f : Nat → Target}
    (hfj : ∀ n, n ≤ N → ∃ j, f n = onLane 0.045 (0.045 + (P.at n).1) (P.at n).2.1 (P.at n).2.2 j) {b : Trial} {m0 : Runner} {s0 : Along}
    (h : Ready P N f b 0 m0 s0) : ∀ n, n ≤ N + 1 → ∃ m s, (runGear .real pi).go n m0 = .ok (true, m) ∧ Ready P N f b n m s ∧
      (n = N + 1 → |s.place - (0.045 + (P.at N).1)| ≤ 0.0037)
  | 0, _ => ⟨m0, s0, rfl, h, by omega⟩
  | n + 1, hn => by
    obtain ⟨m, s, h1, h2, -⟩ := ready_all hpi hf hr hd hfj h n (by omega)
    obtain ⟨-, k1, m', s', k2, k3, k4⟩ := ready_next hpi hf hr hd hfj (by omega : n ≤ N) h2
    refine ⟨m', s', ?_, k3, ?_⟩
    · rw [go_last n h1, k2]
      rfl
    · intro e
      obtain rfl : n = N := by omega
      rw [abs_le] at k1 k4 ⊢
      norm_num at k1 k4 ⊢
      constructor <;> linarith

/-! ## The whole test -/

theorem outputs_shifted (q : Detect.Pose) (n : Nat) : ∀ s, outputs (shiftNext .real q (Traj.next .real)) n (.straight s) = outputs (shiftNext .real q Straight.next) n s := by
  induction n with
  | zero => intro s; rfl
  | succ n ih => intro s; rw [outputs, outputs]; exact congrArg _ (ih _)

theorem issues_shifted {q : Detect.Pose} {l : List Target} : ∀ {traj : Traj}, Produces (shiftNext .real q (Traj.next .real)) traj l → Issues [(q, traj)] l := by
  induction l with
  | nil =>
    intro traj h n
    have e := produces_nil h
    cases n with
    | zero => rfl
    | succ n =>
      have : nextTarget .real [(q, traj)] = .ok (none, []) := by
        unfold nextTarget
        dsimp only
        rw [show shiftNext .real q (Traj.next .real) traj = (none, _) from Prod.ext e rfl]
      rw [runTargets, this]
      simp [bind, Except.bind, pure, Except.pure]
  | cons x l ih =>
    intro traj h n
    obtain ⟨e, h'⟩ := produces_cons h
    cases n with
    | zero => rfl
    | succ n =>
      have : nextTarget .real [(q, traj)] = .ok (some x, [(q, (shiftNext .real q (Traj.next .real) traj).2)]) := by
        unfold nextTarget
        dsimp only
        rw [show shiftNext .real q (Traj.next .real) traj = (some x, _) from Prod.ext e rfl]
      rw [runTargets, this]
      simp [bind, Except.bind, pure, Except.pure, ih h' n]

theorem straight_kind {k : Nat} (h0 : 0 < k) (h1 : k ≤ 31) : Node.trajectoryKind ⟨0, 0, .north⟩ ⟨0, 2 * k, .north⟩ = .ok (some (.straight k)) := by
  interval_cases k <;> rfl

theorem straight_plan {k : Nat} (h0 : 0 < k) (h1 : k ≤ 31) : runPlan runConfig 2 0 0 [⟨0, 0, .north⟩, ⟨0, 2 * k, .north⟩] =
    .ok [(⟨0.045, 0.045, Real.pi / 2⟩, .straight (straightGenerate runGen 0.001 (k * 0.09) 0 0.5).1)] := by
  have hp : Slalom.poseOfNode ⟨0, 0, .north⟩ 0.09 = ⟨0.045, 0.045, Real.pi / 2⟩ := by
    simp only [Slalom.poseOfNode, Slalom.degree]
    congr 1
    · norm_num
    · norm_num
    · ring
  rw [runPlan, straight_kind h0 h1]
  simp only [bind, Except.bind]
  rw [runPlan]
  · simp only [runConfig, hp]
    rfl
  · simp

/-- C119: on every maze with a straight way of `k` squares from the start, and goals at its end or farther on, the robot follows its targets. In the round of every
target it takes itself to be, and is, on the middle line, looking ahead, and what it takes to be its place along the line is within 2 mm, its real place within 2.05 mm, of
the target. At the end it is within 4.3 mm of the centre of the goal square. -/
theorem C119_follows {k : Nat} (hk : 0 < k) (hk1 : k ≤ 31) (hpi : 0 ≤ pi) (maze : Walls.Walls) :
    ∃ trajectories l, runPlan runConfig 2 0 0 [⟨0, 0, .north⟩, ⟨0, 2 * k, .north⟩] = .ok trajectories ∧ Issues trajectories l ∧ l.length = straightRounds k ∧
      (∀ i t, l[i]? = some t → ∃ m, (runGear .real pi).go i (initialRun maze trajectories) = .ok (true, m) ∧
        (believed (runGear .real pi) m).x.x = 0.045 ∧ (believed (runGear .real pi) m).theta.x = Real.pi / 2 ∧ |(believed (runGear .real pi) m).y.x - t.y.x| ≤ 0.002 ∧
        m.simulator.current.x.x = 0.045 ∧ m.simulator.current.theta.x = Real.pi / 2 ∧ |m.simulator.current.y.x - t.y.x| ≤ 0.00205) ∧
      ∃ m, (runGear .real pi).go (straightRounds k) (initialRun maze trajectories) = .ok (true, m) ∧ (∃ tr, nextTarget .real m.trajectories = .ok (none, tr)) ∧
        m.simulator.current.x.x = 0.045 ∧ m.simulator.current.theta.x = Real.pi / 2 ∧ |m.simulator.current.y.x - (0.045 + 0.09 * k)| ≤ 0.0043 := by
  obtain ⟨P, N, hf, hN, hr, h3, h4⟩ := run_all hk hk1
  obtain ⟨f, hfj, hp⟩ := pace_produces hf 0.045 0.045
  have hk' : (k : ℝ) ≤ 31 := by exact_mod_cast hk1
  have hd : (k : ℝ) * 0.09 ≤ 2.8 := by norm_num; linarith
  have hi : Issues [((⟨0.045, 0.045, Real.pi / 2⟩ : Detect.Pose), Traj.straight (straightGenerate runGen 0.001 (k * 0.09) 0 0.5).1)] ((List.range (N + 1)).map f) :=
    issues_shifted fun n => (outputs_shifted _ n _).trans (hp n)
  refine ⟨_, _, straight_plan hk hk1, hi, by simp [hN], ?_⟩
  set m0 := initialRun maze [((⟨0.045, 0.045, Real.pi / 2⟩ : Detect.Pose), Traj.straight (straightGenerate runGen 0.001 (k * 0.09) 0 0.5).1)] with hm0
  have h0 : Ready P N f (Trial.initial maze maze 0) 0 m0 ⟨0.045, 0, 0, 0, 0, 0⟩ := by
    refine ⟨?_, ?_, ?_⟩
    · exact initial_lane maze maze 0
    · rw [Nat.sub_zero, ← List.range_eq_range']
      exact hi
    · have e : P.at 0 = (0, 0, 0) := by
        unfold Pace.at
        rw [if_pos (Nat.zero_le _)]
        simp
      simp [e, Along.off, Pace.off, Off.none]
  have all := ready_all hpi hf hr hd hfj h0
  refine ⟨?_, ?_⟩
  · intro i t ht
    have hil : i < N + 1 := by
      obtain ⟨hl, -⟩ := List.getElem?_eq_some_iff.1 ht
      simpa using hl
    have e : t = f i := by
      rw [List.getElem?_map, List.getElem?_range hil] at ht
      exact (Option.some.inj ht).symm
    obtain ⟨j, hj⟩ := hfj i (by omega)
    obtain ⟨m, s, k1, k2, -⟩ := all i (by omega)
    obtain ⟨b1, b2, -⟩ := ready_next hpi hf hr hd hfj (by omega : i ≤ N) k2
    obtain ⟨t1, t2, t3⟩ := k2.lane.truth
    refine ⟨m, k1, by rw [b1], by rw [b1], ?_, t1, t3, ?_⟩
    · rw [b1, e, hj]
      exact b2
    · rw [e, hj]
      have t2' : |m.simulator.current.y.x - s.place| ≤ 0.00005 := t2
      show |m.simulator.current.y.x - (0.045 + (P.at i).1)| ≤ 0.00205
      rw [abs_le] at b2 t2' ⊢
      norm_num at b2 t2' ⊢
      constructor <;> linarith
  · obtain ⟨m, s, k1, k2, k3⟩ := all (N + 1) le_rfl
    obtain ⟨t1, t2, t3⟩ := k2.lane.truth
    have hiss := k2.issues
    rw [Nat.sub_self] at hiss
    refine ⟨m, by rw [← hN]; exact k1, issues_end hiss, t1, t3, ?_⟩
    have t2' : |m.simulator.current.y.x - s.place| ≤ 0.00005 := t2
    have w1 := way_end hf h4 h3
    have w2 := (way_bounds hf le_rfl).2
    have k3 := k3 rfl
    rw [abs_le] at k3 t2' ⊢
    norm_num at w1 w2 k3 t2' ⊢
    constructor <;> linarith

/-- C119: the whole test of the fast run passes on every maze of every supported size with a straight way from the start, for goals at its end and none nearer, and for
every queue that satisfies the laws of a heap, after exactly `straightRounds k` rounds. -/
theorem C119_passes {W : Nat} (hW : Supported W) {ops : HeapOps} (L : HeapLaws ops Run.QUE_MAX) (hpi : 0 ≤ pi) {text : List Char} {maze : Walls.Walls}
    (ht : Walls.fromStr W text = .ok (.ok maze)) {goals : List Node} (hgoals : ∀ g ∈ goals, Legal W g) {k : Nat} (hk : 0 < k) (hkW : k < W)
    (hopen : ∀ i < k, Walls.wallState W maze ⟨0, 2 * i + 1⟩ = .ok (.checked false)) (hg : ⟨0, 2 * k, .north⟩ ∈ goals) (hfar : ∀ g ∈ goals, 2 * k ≤ g.y) (n : Nat) :
    wholeRun .real pi W ops n text (goals.map fun g => (g.x, g.y, g.posture)) = .ok (if n ≤ straightRounds k then none else some ()) := by
  have hW1 := hW.le
  obtain ⟨tr, l, h1, h2, h3, -, m, h4, ⟨tr', h5⟩, -⟩ := C119_follows (pi := pi) hk (by omega) hpi maze
  obtain ⟨dr, hp⟩ := C118_straight hW L (isWall := shut W maze) hk hkW (fun i hi => by unfold shut; rw [hopen i hi]; simp) hg hfar
  unfold wholeRun
  rw [goals_eq hW hgoals, ht]
  simp only [bind, Except.bind]
  rw [runPath_eq hW ht, hp]
  simp only [bind, Except.bind, unwrap, pure, Except.pure]
  rw [show [(⟨0, 0, .north⟩ : Node), ⟨0, 2 * k, .north⟩].length = 2 from rfl, h1]
  simp only
  rcases run_go (g := runGear .real pi) rfl (m := initialRun maze tr) h2 with hpass | ⟨i, t, e, m', b1, b2, b3, b4, b5⟩
  · obtain ⟨m', h⟩ := hpass n
    rw [h, h3]
    by_cases hn : n ≤ straightRounds k <;> simp [hn]
  · exfalso
    obtain ⟨hl, -⟩ := List.getElem?_eq_some_iff.1 b1
    have := b5 (straightRounds k) (by omega)
    rw [h4] at this
    cases this

/-- C119: the speed matters: at 3 m/s the supervisor would change the input of a robot on the middle line of a straight way that is asked to keep its speed. -/
theorem C119_too_fast (st : State) (i : TrackingInput) (hx : st.x.x = 0.045) (hv : st.x.v = 0) (hy : st.y.x = 0.03) (hw : st.y.v = 3) (h0 : i.ux = 0) (h1 : i.uy = 0) :
    ∃ o, (⟨100, 0.02, 0.09⟩ : Supervisor).supervise .real i st = .ok o ∧ (o.ux, o.uy) ≠ (i.ux, i.uy) := by
  obtain ⟨p, q, hnp, hpq⟩ := C50_pillars ⟨100, 0.02, 0.09⟩ 90 (by norm_num) (by norm_num) st.x.x st.y.x 0 0 (by norm_num) (by norm_num)
    (by rw [hx]; norm_num) (by rw [hx]; norm_num) (by rw [hy]; norm_num) (by rw [hy]; norm_num)
  have far : ∀ a b : Int, pillar ⟨100, 0.02, 0.09⟩ a b ≠ (st.x.x, st.y.x) := by
    intro a b e
    have e := congrArg Prod.fst e
    simp only [pillar, hx] at e
    have : (a : ℝ) * 2 = 1 := by norm_num at e; linarith
    have : a * 2 = 1 := by exact_mod_cast this
    omega
  obtain ⟨o, ho⟩ := C49_total .real ⟨100, 0.02, 0.09⟩ i st _ (by simp) hnp (by
    intro a ha
    simp only [List.mem_cons, List.not_mem_nil, or_false] at ha
    rcases ha with rfl | rfl | rfl | rfl | rfl | rfl
    · exact far _ _
    · exact far _ _
    · exact far _ _
    · exact far _ _
    · rcases hpq with hpq | hpq | hpq | hpq <;> rw [Prod.mk.injEq] at hpq <;> rw [hpq.1] <;> exact far _ _
    · rcases hpq with hpq | hpq | hpq | hpq <;> rw [Prod.mk.injEq] at hpq <;> rw [hpq.2] <;> exact far _ _)
  refine ⟨o, ho, fun e => ?_⟩
  obtain ⟨e1, e2⟩ := Prod.mk.inj e
  obtain ⟨ps, h2, -, h3⟩ := C49_supervise .real _ i st o ho
  rw [hnp] at h2
  cases h2
  have neg : demand ⟨100, 0.02, 0.09⟩ st (pillar ⟨100, 0.02, 0.09⟩ (((0 : Nat) : Int) + 1) (((0 : Nat) : Int) + 1)) i.ux i.uy < 0 := by
    simp only [demand, barrier, barrier', barrier'', pillar, hx, hv, hy, hw, h0, h1]
    norm_num
  obtain ⟨a, ha, h4, h5, -⟩ := h3 ⟨_, by simp, neg⟩
  have := h4 _ (List.mem_cons_self)
  rw [e1, e2] at h5
  linarith

/-- C119: a maze and goals for which the test passes after 406 rounds, with a heap. -/
example : ∃ text maze, Walls.fromStr 16 text = .ok (.ok maze) ∧
    wholeRun .real Real.pi 16 (listHeap Run.QUE_MAX) 406 text [(0, 6, .north), (8, 8, .east)] = .ok none ∧
    wholeRun .real Real.pi 16 (listHeap Run.QUE_MAX) 407 text [(0, 6, .north), (8, 8, .east)] = .ok (some ()) := by
  obtain ⟨maze, e, f, -⟩ := C09_canonical (W := 16) ⟨4, by omega, rfl⟩ (fun c => decide (c.x = 31 ∨ c.y = 31 ∨ c.x = 1))
  have ho : ∀ i < 3, Walls.wallState 16 maze ⟨0, 2 * i + 1⟩ = .ok (.checked false) := by
    intro i hi
    rw [f _ ⟨by simp, by simp only; omega, by simp only; omega⟩]
    have : 2 * i + 1 ≠ 31 := by omega
    simp [this]
  have h := C119_passes (W := 16) (k := 3) ⟨4, by omega, rfl⟩ (listHeapLaws Run.QUE_MAX) Real.pi_pos.le e (goals := [⟨0, 6, .north⟩, ⟨8, 8, .east⟩]) (by decide) (by omega) (by omega) ho
    (by simp) (by simp)
  exact ⟨_, maze, e, h 406, h 407⟩

end Verif.Props
