import Verif.Props.SingleTestEnds
/-!
# C132: where the sensors are; and a test that has lost its numbers
-/
namespace Verif.Props
open Verif Verif.Spec Verif.Convert Verif.Single Verif.Binary32 Verif.Detect Verif.Proof
open Verif.Search (Coord WallState Searcher SearchState)
open Verif.Grid Verif.WallsP

variable {exp : F → F} {L : Lib} {ε : ℝ} {g : Kit}

/-- The place of one sensor. -/
theorem sensor_fair (hL : ∀ x : ℝ, |x| ≤ 100 → TrigNear L ε x) (hε : ε ≤ 1 / 1000) {st : Single.State} (hx : Upto 10 st.x.x) (hy : Upto 10 st.y.x)
    (hθ : Upto 95 st.theta.x) {q : Place} (h1 : Upto (1 / 10) q.x) (h2 : Upto (1 / 10) q.y) (h3 : Upto 4 q.theta) :
    FairPlace L ε (sensorPlace (arith exp) L st q) := by
  obtain ⟨x, ex, bx⟩ := hx
  obtain ⟨y, ey, byy⟩ := hy
  obtain ⟨t, et, bt⟩ := hθ
  obtain ⟨a, ea, ba⟩ := h1
  obtain ⟨b, eb, bb⟩ := h2
  obtain ⟨c, ec, bc⟩ := h3
  obtain ⟨sn, cs, es, ecs, bs, bcs⟩ := hL t (bt.trans (by norm_num))
  have hs : |sn| ≤ 2 := by
    have h1 := abs_le.1 bs
    have h2 := abs_le.1 (Real.abs_sin_le_one t)
    rw [abs_le]; constructor <;> linarith
  have hc : |cs| ≤ 2 := by
    have h1 := abs_le.1 bcs
    have h2 := abs_le.1 (Real.abs_cos_le_one t)
    rw [abs_le]; constructor <;> linarith
  obtain ⟨x1, e1, b1⟩ := mul_mag (exp := exp) ba hc (by norm_num)
  obtain ⟨x2, e2, b2⟩ := mul_mag (exp := exp) bb hs (by norm_num)
  obtain ⟨y1, f1, d1⟩ := mul_mag (exp := exp) ba hs (by norm_num)
  obtain ⟨y2, f2, d2⟩ := mul_mag (exp := exp) bb hc (by norm_num)
  have k : (1 / 10 * 2 * (1 + 1 / 10000000) + 1 / 10 ^ 40 : ℝ) ≤ 1 / 4 := by norm_num
  obtain ⟨x3, e3, b3⟩ := add_mag (exp := exp) bx (b1.trans k) (by norm_num)
  obtain ⟨y3, f3, d3⟩ := add_mag (exp := exp) byy (d1.trans k) (by norm_num)
  have k' : ((10 + 1 / 4) * (1 + 1 / 10000000) + 1 / 10 ^ 40 : ℝ) ≤ 21 / 2 := by norm_num
  obtain ⟨x4, e4, b4⟩ := sub_mag (exp := exp) (b3.trans k') (b2.trans k) (by norm_num)
  obtain ⟨y4, f4, d4⟩ := add_mag (exp := exp) (d3.trans k') (d2.trans k) (by norm_num)
  obtain ⟨t1, g1, j1⟩ := add_mag (exp := exp) bt bc (by norm_num)
  have j1' : |t1| ≤ 100 := j1.trans (by norm_num)
  refine ⟨⟨x4, y4, t1⟩, ?_, b4.trans (by norm_num), d4.trans (by norm_num), j1', hL t1 j1'⟩
  unfold sensorPlace placeOf
  dsimp only
  rw [ex, ey, et, ea, eb, ec, es, ecs, e1, e2, e3, e4, f1, f2, f3, f4, g1]

/-- **C132, where the sensors are.** Sensors within 10 cm of the centre of the robot: as long as the robot takes itself to be within 10 m and has not turned by
more than 95 rad, their places are of moderate size. -/
theorem C132_view (hL : ∀ x : ℝ, |x| ≤ 100 → TrigNear L ε x) (hε : ε ≤ 1 / 1000)
    (hq : ∀ q ∈ g.poses, Upto (1 / 10) q.x ∧ Upto (1 / 10) q.y ∧ Upto 4 q.theta) (m : Attempt) (n : Nat)
    (h : ∀ k < n, ∀ m', g.go (arith exp) L k m = .ok (true, m') →
      Upto 10 (guessed (arith exp) L m').x.x ∧ Upto 10 (guessed (arith exp) L m').y.x ∧ Upto 95 (guessed (arith exp) L m').theta.x) :
    InView exp L ε g m n := fun k hk m' hgo pose hp =>
  sensor_fair hL hε (h k hk m' hgo).1 (h k hk m' hgo).2.1 (h k hk m' hgo).2.2 (hq pose hp).1 (hq pose hp).2.1 (hq pose hp).2.2

/-! ## Without numbers -/

/-- A sort that leaves equal distances in their order. -/
def KeepsOrder (sort : List (Dir × F) → List (Dir × F)) : Prop :=
  sort [(.right, .pinf), (.right, .pinf), (.bottom, .pinf), (.bottom, .pinf)] = [(.right, .pinf), (.right, .pinf), (.bottom, .pinf), (.bottom, .pinf)]

/-- The converter takes a pose without numbers for the first square, with the wall to its right infinitely far away. -/
theorem lost_convert (hsin : L.sin .nan = .nan) (hcos : L.cos .nan = .nan) {W : Nat} (hW : Supported W)
    {sort : List (Dir × F) → List (Dir × F)} (hs : KeepsOrder sort) :
    (Finder.default (arith exp)).convert (arith exp) L W sort .nan .nan .nan = some ⟨⟨1, 0⟩, .pinf, .pinf⟩ := by
  obtain ⟨s, ir, il, p1, p2, n1, n2, hf, -⟩ := finder_default (exp := exp)
  have hrem : (Finder.default (arith exp)).remquo (arith exp) .nan = (.nan, 0) := by
    unfold Finder.remquo
    have m : ∀ z : F, (arith exp).mul .nan z = .nan := by intro z; cases z <;> rfl
    have s : ∀ z : F, (arith exp).sub .nan z = .nan := by intro z; cases z <;> rfl
    dsimp only
    rw [m, s]
    simp [asI32]
  have erot : rotation (arith exp) .nan = .nan := rfl
  have hn : ¬ (Finder.default (arith exp)).isNearPillar (arith exp) L .nan .nan .nan := by
    unfold Finder.isNearPillar
    dsimp only
    rw [hsin, hcos]
    have e : ∀ q : F × F, (Arith.sub (arith exp) ((arith exp).mul .nan ((arith exp).sub .nan q.1))
        ((arith exp).mul .nan ((arith exp).sub .nan q.2))).abs = .nan := by
      intro q
      have m : ∀ z : F, (arith exp).mul .nan z = .nan := by intro z; cases z <;> rfl
      rw [m, m]; rfl
    rw [e, e]
    have m : ∀ z : F, fmin z .nan = z := by
      intro z
      unfold fmin
      rw [if_pos (show F.isNan .nan from trivial)]
    rw [m, m]
    intro h
    cases hr : (Finder.default (arith exp)).ignoreRadius <;> rw [hr] at h <;> exact h
  have hline : ∀ l : ℝ, lineAt (arith exp) (.fin l) .nan .nan = .pinf := by
    intro l
    unfold lineAt
    dsimp only
    have : ∀ z : F, (arith exp).div z .nan = .nan := by intro z; cases z <;> rfl
    rw [this, if_pos (Or.inr (show F.isNan .nan from trivial))]
  have haxes : (Finder.default (arith exp)).axes (arith exp) (rotation (arith exp) .nan) .nan .nan (L.cos .nan) (L.sin .nan) =
      [(.right, .pinf), (.right, .pinf), (.bottom, .pinf), (.bottom, .pinf)] := by
    rw [hf, hsin, hcos, erot]
    unfold Finder.axes
    dsimp only
    rw [if_neg (show ¬ F.lt .nan (.fin (1 / 4)) from fun h => h), if_neg (show ¬ F.lt .nan (.fin (1 / 2)) from fun h => h),
      if_neg (show ¬ F.lt .nan (.fin (3 / 4)) from fun h => h), hline, hline, hline, hline]
  have hv : Valid W ⟨1, 0⟩ := by
    obtain ⟨k, -, rfl⟩ := hW
    have : 1 ≤ 2 ^ k := Nat.one_le_two_pow
    exact ⟨by simp only; omega, by simp only; omega, by simp only⟩
  have hwall : wallAt W 0 0 .right = some ⟨1, 0⟩ := (wallAt_eq hW (by norm_num) (by norm_num) (by norm_num) (by norm_num)).mpr ⟨hv, rfl⟩
  unfold Finder.convert
  rw [hrem]
  dsimp only
  rw [if_neg hn, haxes, if_neg, hs]
  · dsimp only
    rw [hwall]
    dsimp only
    rw [if_neg]
    rw [hf]
    exact fun h => h
  · rw [hf]
    rintro (h | h | h | h) <;> exact h

/-- A sensor at a place without numbers makes the detector panic, unless that is sure of the wall to the right of the first square. -/
theorem lost_look (hsin : L.sin .nan = .nan) (hcos : L.cos .nan = .nan) (hW : Supported g.W) (hs : KeepsOrder g.sort) {s : Single.Simulator}
    (hw : ∃ st, Walls.wallState g.W s.walls ⟨1, 0⟩ = .ok st) {d : Detector}
    (hd : ¬ (isZero (d ((⟨1, 0⟩ : Coord).asIndex g.W)) ∨ isOne (arith exp) (d ((⟨1, 0⟩ : Coord).asIndex g.W)))) (w : Walls.Walls) (rest : List Place) :
    g.lookAround (arith exp) L s (⟨.nan, .nan, .nan⟩ :: rest) d w = .error .assert := by
  have hc := lost_convert (exp := exp) (L := L) hsin hcos hW hs
  obtain ⟨st, hst⟩ := hw
  obtain ⟨σ, eσ, s0, s1⟩ := deviation
  have hv : Valid g.W ⟨1, 0⟩ := by
    obtain ⟨k, -, e⟩ := hW
    have : 1 ≤ 2 ^ k := Nat.one_le_two_pow
    exact ⟨by simp only; omega, by simp only; omega, by simp only⟩
  have hlt : (⟨1, 0⟩ : Coord).asIndex g.W < LEN := Grid.asIndex_lt_que hW hv
  have ed : s.distanceFromWall (arith exp) L g.W g.sort .nan .nan .nan = .ok (some (.pinf, .fin σ)) := by
    unfold Simulator.distanceFromWall
    rw [hc]
    simp only [hst, bind, Except.bind, pure, Except.pure, ite_self]
    rw [if_neg (show ¬ (if st = WallState.checked true then F.pinf else F.pinf).isNan by split <;> exact fun h => h)]
    show Except.ok (some (F.pinf, rnd (2 / 1000))) = _
    rw [eσ]
  have hsc : (score (arith exp) .pinf .pinf (.fin σ)).isNan := by
    have e : (arith exp).sub .pinf .pinf = .nan := rfl
    unfold score
    rw [e]
    trivial
  rw [Kit.lookAround, ed]
  simp only [bind, Except.bind]
  have g' : detectAndUpdate (arith exp) (fun _ => (Finder.default (arith exp)).convert (arith exp) L g.W g.sort .nan .nan .nan) g.W d .pinf (.fin σ) ⟨0, 0, 0⟩ =
      .error .assert := by
    unfold detectAndUpdate
    rw [hc]
    simp only [arrGet, if_pos hlt, bind, Except.bind, pure, Except.pure]
    rw [if_neg hd]
    unfold posterior
    rw [if_pos hsc]
  rw [g']

/-- **C132, without numbers.** When a voltage of a round is not a number and the test goes on, it does not survive the next round: the `assert!` of the detector
panics there, if the driver neither panics nor leaves the loop; unless the detector is sure of the wall to the right of the first square. -/
theorem C132_nan (hsin : L.sin .nan = .nan) (hcos : L.cos .nan = .nan) (hW : Supported g.W) (hs : KeepsOrder g.sort) (hq : g.poses ≠ []) {m m' : Attempt}
    {t : Single.Target} {lp : Hunt} (h1 : track (arith exp) L m.hunt = .ok (t, lp))
    (hnan : (m.robot.round (arith exp) L (senses (arith exp) L m.simulator) t).2.left = .nan ∨
      (m.robot.round (arith exp) L (senses (arith exp) L m.simulator) t).2.right = .nan)
    (h2 : g.turn (arith exp) L m = .ok (true, m')) (hm : Reachable g.W m'.walls) (hw : ∃ st, Walls.wallState g.W m'.simulator.walls ⟨1, 0⟩ = .ok st)
    (hd : ¬ (isZero (m'.detector ((⟨1, 0⟩ : Coord).asIndex g.W)) ∨ isOne (arith exp) (m'.detector ((⟨1, 0⟩ : Coord).asIndex g.W)))) :
    (∀ x, g.turn (arith exp) L m' ≠ .ok (true, x)) ∧
    ∀ t' lp' lp'', track (arith exp) L m'.hunt = .ok (t', lp') → decideNext (arith exp) L g.quest g.W g.searcher (oracle g.W m'.walls) lp' = .ok (some lp'') →
      g.turn (arith exp) L m' = .error .assert := by
  have hlost : Lost m'.simulator.current := by
    unfold Kit.turn at h2
    rw [h1] at h2
    simp only [bind, Except.bind, pure, Except.pure] at h2
    split at h2
    · cases h2
    · split at h2
      · cases h2
      · split at h2
        · cases h2
        · split at h2
          · cases h2
          · cases h2
            exact C131_nan (arith exp) hsin hcos m.simulator _ _ hnan []
  have hθ : (guessed (arith exp) L m').theta.x = .nan := by
    show (arith exp).add _ ((arith exp).mul (senses (arith exp) L m'.simulator).omega _) = .nan
    have : (senses (arith exp) L m'.simulator).omega = .nan := hlost.2.2.2.2.2
    rw [this, nan_mul, add_nan]
  have hplace : ∀ q, sensorPlace (arith exp) L (guessed (arith exp) L m') q = ⟨.nan, .nan, .nan⟩ := by
    intro q
    unfold sensorPlace
    dsimp only
    rw [hθ, hsin, hcos]
    simp only [mul_nan, nan_add, add_nan, sub_nan]
  have key : ∀ t' lp' lp'', track (arith exp) L m'.hunt = .ok (t', lp') →
      decideNext (arith exp) L g.quest g.W g.searcher (oracle g.W m'.walls) lp' = .ok (some lp'') → g.turn (arith exp) L m' = .error .assert := by
    intro t' lp' lp'' k1 k2
    unfold Kit.turn
    rw [k1]
    simp only [bind, Except.bind, pure, Except.pure]
    rw [asking_eq hW hm]
    dsimp only
    rw [k2]
    dsimp only
    have hst : ((m'.robot.round (arith exp) L (senses (arith exp) L m'.simulator) t').1).state = guessed (arith exp) L m' := rfl
    rw [hst]
    obtain ⟨q, qs, e⟩ := List.exists_cons_of_ne_nil hq
    rw [e, List.map_cons, hplace, lost_look hsin hcos hW hs (s := m'.simulator.apply _ _) hw hd]
  refine ⟨fun x hx => ?_, key⟩
  cases ht : track (arith exp) L m'.hunt with
  | error e => unfold Kit.turn at hx; rw [ht] at hx; cases hx
  | ok y =>
    obtain ⟨t', lp'⟩ := y
    cases hdn : decideNext (arith exp) L g.quest g.W g.searcher (oracle g.W m'.walls) lp' with
    | error e =>
      unfold Kit.turn at hx
      rw [ht] at hx
      simp only [bind, Except.bind, pure, Except.pure] at hx
      rw [asking_eq hW hm] at hx
      dsimp only at hx
      rw [hdn] at hx
      cases hx
    | ok z =>
      cases z with
      | none =>
        unfold Kit.turn at hx
        rw [ht] at hx
        simp only [bind, Except.bind, pure, Except.pure] at hx
        rw [asking_eq hW hm] at hx
        dsimp only at hx
        rw [hdn] at hx
        cases hx
      | some lp'' => rw [key t' lp' lp'' ht hdn] at hx; cases hx

end Verif.Props
