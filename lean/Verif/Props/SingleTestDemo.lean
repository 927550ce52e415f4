import Verif.Props.SingleTestLost
/-!
# C132: examples
-/
namespace Verif.Props
open Verif Verif.Spec Verif.Convert Verif.Single Verif.Binary32 Verif.Detect Verif.Proof
open Verif.Search (Coord WallState Searcher SearchState)
open Verif.Grid Verif.WallsP

variable {exp : F → F}

/-- Standing in the centre of the first square, nearly facing north. -/
noncomputable def standingStill : Single.State :=
  ⟨⟨.fin (45 / 1000), .fin 0, .fin 0⟩, ⟨.fin (45 / 1000), .fin 0, .fin 0⟩, ⟨.fin (157 / 100), .fin 0, .fin 0⟩⟩

/-- The simulator of `search.rs:241-251`. -/
noncomputable def restingSimulator (maze : Walls.Walls) : Single.Simulator :=
  Simulator.new maze standingStill standingStill (.fin (37 / 10)) (.fin (1 / 1000)) (.fin (1865 / 1000)) (.fin (4443 / 10000)) (.fin (8239 / 100))
    (.fin (2855 / 10000)) (.fin (335 / 10000))

/-- The three sensors of `search.rs:115-131`, up to rounding. -/
noncomputable def threeSensors : List Place :=
  [⟨.fin (23 / 1000), .fin 0, .fin 0⟩, ⟨.fin (13 / 1000), .fin (115 / 10000), .fin (157 / 100)⟩, ⟨.fin (13 / 1000), .fin (-115 / 10000), .fin (-157 / 100)⟩]

theorem resting_senses (pi : ℝ) (maze : Walls.Walls) :
    senses (arith exp) (libOf Control.Trig.real pi) (restingSimulator maze) = ⟨.fin 0, .fin 0, .fin 0, .fin 0⟩ := by
  have z : (arith exp).rnd 0 = .fin 0 := rnd_zero
  have m : ∀ r : ℝ, (arith exp).mul (.fin 0) (.fin r) = .fin 0 := fun r => by show (arith exp).rnd (0 * r) = _; rw [zero_mul, z]
  have a : (arith exp).add (.fin 0) (.fin 0) = .fin 0 := by show (arith exp).rnd (0 + 0) = _; rw [zero_add, z]
  have s : (arith exp).sub (.fin 0) (.fin 0) = .fin 0 := by show (arith exp).rnd (0 + -0) = _; rw [neg_zero, zero_add, z]
  have d : (arith exp).div (.fin 0) (.fin 2) = .fin 0 := by rw [div_rnd (by norm_num), zero_div]; exact z
  have hc : ∀ r : ℝ, (libOf Control.Trig.real pi).cos (.fin r) = .fin (Real.cos r) := fun _ => rfl
  have hs : ∀ r : ℝ, (libOf Control.Trig.real pi).sin (.fin r) = .fin (Real.sin r) := fun _ => rfl
  unfold senses Simulator.distance Simulator.average Simulator.transAcc Simulator.angularVelocity restingSimulator Simulator.new standingStill
  dsimp only
  simp only [hc, hs, m, a, s, d]

/-- The first estimate: the robot takes itself to be where it is, up to rounding. -/
theorem resting_guess (pi : ℝ) (maze : Walls.Walls) (m : Attempt) (hs : m.simulator = restingSimulator maze) (hr : m.robot.state = standingStill)
    (he : m.robot.estimator = Estimator.new (.fin (1 / 1000)) (.fin (4 / 5)) (.fin 100) (.fin 1)) :
    (guessed (arith exp) (libOf Control.Trig.real pi) m).x.x = rnd (45 / 1000) ∧ (guessed (arith exp) (libOf Control.Trig.real pi) m).y.x = rnd (45 / 1000) ∧
    (guessed (arith exp) (libOf Control.Trig.real pi) m).theta.x = rnd (157 / 100) := by
  have z : (arith exp).rnd 0 = .fin 0 := rnd_zero
  have m0 : ∀ r : ℝ, (arith exp).mul (.fin 0) (.fin r) = .fin 0 := fun r => by show (arith exp).rnd (0 * r) = _; rw [zero_mul, z]
  have m1 : ∀ r : ℝ, (arith exp).mul (.fin r) (.fin 0) = .fin 0 := fun r => by show (arith exp).rnd (r * 0) = _; rw [mul_zero, z]
  have a : (arith exp).add (.fin 0) (.fin 0) = .fin 0 := by show (arith exp).rnd (0 + 0) = _; rw [zero_add, z]
  have ar : ∀ r : ℝ, (arith exp).add (.fin r) (.fin 0) = rnd r := fun r => by show (arith exp).rnd (r + 0) = _; rw [add_zero]; rfl
  have d : ∀ r : ℝ, r ≠ 0 → (arith exp).div (.fin 0) (.fin r) = .fin 0 := fun r h => by rw [div_rnd h, zero_div]; exact z
  obtain ⟨al, e1, -⟩ := rnd_rel (z := 1 + -(4 / 5)) (by norm_num [abs_le])
  have e1' : (arith exp).sub (.fin 1) (.fin (4 / 5)) = .fin al := e1
  obtain ⟨rp, e2, -⟩ := rnd_rel (z := 1 / (1 / 1000)) (by norm_num [abs_le])
  have e2' : (arith exp).div (.fin 1) (.fin (1 / 1000)) = .fin rp := by rw [div_rnd (by norm_num)]; exact e2
  have e3 : (arith exp).div (.fin 100) (F.abs (.fin 0)) = .pinf := by
    show (if |(0:ℝ)| = 0 then F.infOf 100 else _) = F.pinf
    rw [if_pos abs_zero]
    unfold F.infOf
    norm_num
  have e4 : (arith exp).add (.fin rp) .pinf = .pinf := rfl
  have e5 : (arith exp).div (.fin 0) .pinf = .fin 0 := rfl
  have hlt : (F.fin 0).abs.lt (.fin 1) := by show |(0:ℝ)| < 1; norm_num
  have hc : ∀ r : ℝ, (libOf Control.Trig.real pi).cos (.fin r) = .fin (Real.cos r) := fun _ => rfl
  have hsn : ∀ r : ℝ, (libOf Control.Trig.real pi).sin (.fin r) = .fin (Real.sin r) := fun _ => rfl
  obtain ⟨θ1, f1, -⟩ := rnd_rel (z := 157 / 100 + -0) (by norm_num [abs_le])
  have f1' : (arith exp).sub (.fin (157 / 100)) (.fin 0) = .fin θ1 := f1
  obtain ⟨θ2, f2⟩ : ∃ θ2, rnd θ1 = .fin θ2 := by
    have hb : |θ1| ≤ 4 := by
      obtain ⟨x, ex, bx⟩ := mag (z := 157 / 100 + -0) (c := 2) (by norm_num [abs_le]) (by norm_num)
      rw [f1] at ex
      cases ex
      exact bx.trans (by norm_num)
    obtain ⟨x, ex, -⟩ := rnd_rel (z := θ1) (hb.trans (by norm_num))
    exact ⟨x, ex⟩
  unfold guessed Estimator.estimate Estimator.nextVel Estimator.nextSlip Estimator.chord
  rw [hs, resting_senses, hr, he]
  unfold Estimator.new standingStill
  dsimp only
  have d1 := d (1 / 1000) (by norm_num)
  have d2 := d 2 (by norm_num)
  have d3 := d (Real.cos 0) (by rw [Real.cos_zero]; norm_num)
  simp only [m0, m1, a, ar, d1, d2, d3, e1', e2', e3, e4, e5, hc, hsn, f1', f2, if_pos hlt, and_self]

/-- The first round of the test, from the centre of the first square, with the three sensors: whatever the maze, the trajectory and the gains are, the sensors are at
places of moderate size, and the map that is recorded in this round is true. -/
example (hacc : GoodExp exp) (hst : Steep exp) (g : Kit) (hW : Supported g.W) (hsort : g.sort = demoSort) (hq : g.poses = threeSensors) (maze : Walls.Walls)
    (truth : Coord → Bool) (hf : ∀ c, Valid g.W c → Walls.wallState g.W maze c = .ok (.checked (truth c))) (m : Attempt)
    (hs : m.simulator = restingSimulator maze) (hr : m.robot.state = standingStill)
    (he : m.robot.estimator = Estimator.new (.fin (1 / 1000)) (.fin (4 / 5)) (.fin 100) (.fin 1)) (hd : m.detector = Detect.new)
    (hw : Reachable g.W m.walls) (ht : Recorded g.W maze m.walls) :
    InView exp (libOf Control.Trig.real 3) 0 g m 1 ∧ Recorded g.W maze (afterRounds (arith exp) (libOf Control.Trig.real 3) g m 1).walls := by
  have hv : InView exp (libOf Control.Trig.real 3) 0 g m 1 := by
    refine C132_view (fun x _ => real_trig 3 x) (by norm_num) ?_ m 1 ?_
    · rw [hq]
      intro q hq
      unfold threeSensors at hq
      simp only [List.mem_cons, List.not_mem_nil, or_false] at hq
      rcases hq with rfl | rfl | rfl
      · exact ⟨⟨_, rfl, by norm_num [abs_le]⟩, ⟨_, rfl, by norm_num [abs_le]⟩, ⟨_, rfl, by norm_num [abs_le]⟩⟩
      · exact ⟨⟨_, rfl, by norm_num [abs_le]⟩, ⟨_, rfl, by norm_num [abs_le]⟩, ⟨_, rfl, by norm_num [abs_le]⟩⟩
      · exact ⟨⟨_, rfl, by norm_num [abs_le]⟩, ⟨_, rfl, by norm_num [abs_le]⟩, ⟨_, rfl, by norm_num [abs_le]⟩⟩
    · intro k hk m' hgo
      obtain rfl : k = 0 := by omega
      cases hgo
      obtain ⟨k1, k2, k3⟩ := resting_guess (exp := exp) 3 maze m hs hr he
      rw [k1, k2, k3]
      obtain ⟨x, ex, bx⟩ := mag (z := 45 / 1000) (c := 1) (by norm_num [abs_le]) (by norm_num)
      obtain ⟨y, ey, b2⟩ := mag (z := 157 / 100) (c := 2) (by norm_num [abs_le]) (by norm_num)
      exact ⟨⟨x, ex, bx.trans (by norm_num)⟩, ⟨x, ex, bx.trans (by norm_num)⟩, ⟨y, ey, b2.trans (by norm_num)⟩⟩
  have h : Aware exp g.W maze truth m := ⟨by rw [hs]; rfl, hw, by rw [hd]; exact (C130_start hW truth).1, ht, by rw [hd]; exact written_new _ _⟩
  exact ⟨hv, (C132_map hacc hst (by norm_num) hW (hsort ▸ demoSort_sorts) hf m h 1 hv).1.true⟩

theorem demo_order : KeepsOrder demoSort := by
  classical
  have h : F.le .pinf .pinf := trivial
  unfold KeepsOrder demoSort
  simp [List.insertionSort, h]

/-- A detector that is new, and a sensor that has no place: the `assert!` panics. -/
example (g : Kit) (hW : Supported g.W) (hsort : g.sort = demoSort) (s : Single.Simulator) (h : Walls.wallState g.W s.walls ⟨1, 0⟩ = .ok (.checked true))
    (w : Walls.Walls) (rest : List Place) (L : Lib) (h1 : L.sin .nan = .nan) (h2 : L.cos .nan = .nan) :
    g.lookAround (arith exp) L s (⟨.nan, .nan, .nan⟩ :: rest) Detect.new w = .error .assert := by
  refine lost_look h1 h2 hW (hsort ▸ demo_order) ⟨_, h⟩ (fun hz => ?_) w rest
  have hE : EPSILON < 1 / 1000 := by unfold EPSILON; norm_num
  rcases hz with hz | hz
  · have hz : |(1 / 2 : ℝ)| < EPSILON := hz
    have := (abs_lt.1 hz).2
    linarith
  · obtain ⟨q, eq, bq⟩ := rnd_rel (z := 1 / 2 + -1) (by norm_num)
    unfold isOne at hz
    have e : (arith exp).sub (.fin (1 / 2)) (.fin 1) = .fin q := eq
    have hn : Detect.new ((⟨1, 0⟩ : Coord).asIndex g.W) = .fin (1 / 2) := rfl
    rw [hn, e] at hz
    have hz : |q| < EPSILON := hz
    have h1 := abs_lt.1 hz
    have b' := abs_le.1 bq
    norm_num at b'
    linarith

/-- The settings of the test fit `C132_assertion`, in a maze of 4 × 4 squares. -/
example (hacc : GoodExp exp) (hst : Steep exp) (searcher : Searcher) (hn : Searcher.new 4 ⟨0, 1⟩ [⟨6, 5⟩] = .ok searcher) (maze : Walls.Walls)
    (hm : Reachable 4 maze) (truth : Coord → Bool) (hf : ∀ c, Valid 4 c → Walls.wallState 4 maze c = .ok (.checked (truth c))) (m : Attempt)
    (h : Aware exp 4 maze truth m) (hl : m.hunt = trialQuest.start (arith exp) (libOf Control.Trig.real 3.14)) (n : Nat)
    (hv : InView exp (libOf Control.Trig.real 3.14) 0 ⟨4, demoSort, trialQuest, threeSensors, searcher⟩ m n) :
    (Kit.mk 4 demoSort trialQuest threeSensors searcher).test (arith exp) (libOf Control.Trig.real 3.14) n m ≠ .error .assert := by
  intro hc
  have hr : Request 4 ⟨0, 1⟩ [⟨6, 5⟩] := ⟨⟨2, by norm_num, rfl⟩, by decide, by decide⟩
  rcases C132_assertion (g := ⟨4, demoSort, trialQuest, threeSensors, searcher⟩) hacc hst (by norm_num) circular_real (rooted_real _ _) trial_hunts
    hr hn demoSort_sorts hm hf m h hl n hv with k | k | k
  all_goals
    rw [k] at hc
    cases hc

end Verif.Props
