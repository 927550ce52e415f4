import Verif.Props.SingleFind
/-!
# C129: an angle that is not a number; the relation to the converter in real numbers; examples
-/
namespace Verif.Props
open Verif Verif.Spec Verif.Convert Verif.Single Verif.Binary32 Verif.Search Verif.Detect Verif.Proof

variable {exp : F → F}

/-- **C129**, the exception: an angle that is not a number is not noticed. Inside a room (by 10 µm) the wall right of or below the
robot is then returned at infinite distances, if it belongs to the maze. -/
theorem C129_nan {L : Lib} (hsin : L.sin .nan = .nan) (hcos : L.cos .nan = .nan) {px py : ℝ} (hx : |px| ≤ 11) (hy : |py| ≤ 11)
    {W : Nat} (hW : Supported W) {sort : List (Dir × F) → List (Dir × F)} (hs : Sorts sort) {i j : Int} (hi : 0 ≤ i) (hj : 0 ≤ j)
    (hin : ((room (9 / 100) (6 / 1000) i j).grow (-(1 / 100000))).inside (px, py)) :
    ∃ side, (side = .right ∨ side = .bottom) ∧ ∀ c, Valid W c → ((c.x : Int), (c.y : Int)) = sideOf i j side →
      (Finder.default (arith exp)).convert (arith exp) L W sort (.fin px) (.fin py) .nan = some ⟨c, .pinf, .pinf⟩ := by
  obtain ⟨s, ir, il, p1, p2, n1, n2, hf, b1, b2, b3, b4, b5, b6, b7⟩ := finder_default (exp := exp)
  have hf90 : (Finder.default (arith exp)).iSquareWidth = 90 := by rw [hf]
  simp only [Box.inside, Box.grow, room] at hin
  obtain ⟨⟨x0, x1⟩, y0, y1⟩ := hin
  obtain ⟨rx, i', ex, bx, qx, -, zx⟩ := remquo_near (exp := exp) hf90 hx
  obtain ⟨ry, j', ey, by', qy, -, zy⟩ := remquo_near (exp := exp) hf90 hy
  obtain rfl := zx i hi (by linarith) (by linarith)
  obtain rfl := zy j hj (by linarith) (by linarith)
  have bx' := abs_le.1 bx
  have by'' := abs_le.1 by'
  have b4' := abs_le.1 b4
  have b6' := abs_le.1 b6
  have qx' := abs_le.1 qx
  have qy' := abs_le.1 qy
  norm_num at bx' by'' b4' b6'
  have erot : rotation (arith exp) .nan = .nan := rfl
  -- the distances from the pillars are not numbers
  have hn : ¬ (Finder.default (arith exp)).isNearPillar (arith exp) L (.fin rx) (.fin ry) .nan := by
    unfold Finder.isNearPillar
    dsimp only
    rw [hsin, hcos]
    have e : ∀ q : F × F, (Arith.sub (arith exp) ((arith exp).mul .nan ((arith exp).sub (.fin rx) q.1))
        ((arith exp).mul .nan ((arith exp).sub (.fin ry) q.2))).abs = .nan := by
      intro q
      have m : ∀ z : F, (arith exp).mul .nan z = .nan := by intro z; cases z <;> rfl
      rw [m, m]; rfl
    rw [e, e]
    have m : ∀ z : F, fmin z .nan = z := by
      intro z
      unfold fmin
      rw [if_pos (show F.isNan .nan from trivial)]
    rw [m, m]
    intro h
    cases hr : (Finder.default (arith exp)).ignoreRadius <;> rw [hr] at h <;> exact h
  have hline : ∀ l r : ℝ, lineAt (arith exp) (.fin l) (.fin r) .nan = .pinf := by
    intro l r
    unfold lineAt
    dsimp only
    have : ∀ z : F, (arith exp).div z .nan = .nan := by intro z; cases z <;> rfl
    rw [this, if_pos (Or.inr (show F.isNan .nan from trivial))]
  have haxes : (Finder.default (arith exp)).axes (arith exp) (rotation (arith exp) .nan) (.fin rx) (.fin ry) (L.cos .nan) (L.sin .nan) =
      [(.right, .pinf), (.right, .pinf), (.bottom, .pinf), (.bottom, .pinf)] := by
    rw [hf, hsin, hcos, erot]
    unfold Finder.axes
    dsimp only
    rw [if_neg (show ¬ F.lt .nan (.fin (1 / 4)) from fun h => h), if_neg (show ¬ F.lt .nan (.fin (1 / 2)) from fun h => h),
      if_neg (show ¬ F.lt .nan (.fin (3 / 4)) from fun h => h), hline, hline, hline, hline]
  obtain ⟨hp, -⟩ := hs [(.right, .pinf), (.right, .pinf), (.bottom, .pinf), (.bottom, .pinf)] (by
    intro e he
    simp only [List.mem_cons, List.not_mem_nil, or_false] at he
    rcases he with rfl | rfl | rfl | rfl <;> simp)
  obtain ⟨u, v, r, hl, hu⟩ : ∃ u v r, sort [(.right, .pinf), (.right, .pinf), (.bottom, .pinf), (.bottom, .pinf)] =
      (u, F.pinf) :: (v, F.pinf) :: r ∧ (u = .right ∨ u = .bottom) := by
    generalize sort [(.right, .pinf), (.right, .pinf), (.bottom, .pinf), (.bottom, .pinf)] = l at hp
    match l, hp.length_eq with
    | [], h => cases h
    | [_], h => cases h
    | (u, a) :: (v, b) :: r, _ => ?_
    have m1 : (u, a) ∈ [(Dir.right, F.pinf), (.right, .pinf), (.bottom, .pinf), (.bottom, .pinf)] := hp.mem_iff.mp (by simp)
    have m2 : (v, b) ∈ [(Dir.right, F.pinf), (.right, .pinf), (.bottom, .pinf), (.bottom, .pinf)] := hp.mem_iff.mp (by simp)
    simp only [List.mem_cons, Prod.mk.injEq, List.not_mem_nil, or_false] at m1 m2
    have ea : a = .pinf := by tauto
    have eb : b = .pinf := by tauto
    subst ea eb
    exact ⟨u, v, r, rfl, by tauto⟩
  refine ⟨u, hu, fun c hc hcs => ?_⟩
  have hwall := (wallAt_eq hW hi (by omega) hj (by omega)).mpr ⟨hc, hcs⟩
  unfold Finder.convert
  rw [ex, ey]
  dsimp only
  rw [if_neg hn, haxes, if_neg, hl]
  · dsimp only
    rw [hwall]
    dsimp only
    rw [if_neg]
    rw [hf]
    intro h
    exact h
  · rw [hf]
    rintro (h | h | h | h)
    · exact absurd (show rx ≤ n1 from h) (by linarith)
    · exact absurd (show p1 ≤ rx from h) (by linarith)
    · exact absurd (show ry ≤ n1 from h) (by linarith)
    · exact absurd (show p1 ≤ ry from h) (by linarith)

/-! ## Exact arithmetic -/

theorem exact_finder : Finder.default exact = ⟨Converter.default.iSquareWidth, .fin Converter.default.squareWidth,
    .fin Converter.default.ignoreRadius, .fin Converter.default.ignoreLength, .fin Converter.default.p1, .fin Converter.default.p2,
    .fin Converter.default.n1, .fin Converter.default.n2⟩ := by
  unfold Finder.default Finder.new Converter.default Converter.new
  have e : ∀ r, exact.rnd r = .fin r := fun _ => rfl
  simp only [e, exact_div _ 2 (by norm_num), exact_sub, exact_add, exact_mul]
  rfl

theorem exact_remquo (v : ℝ) : (Finder.default exact).remquo exact (.fin v) =
    (.fin (Converter.default.remquo v).1, (Converter.default.remquo v).2) := by
  rw [exact_finder]
  unfold Finder.remquo Converter.remquo
  have e : ∀ r, exact.rnd r = .fin r := fun _ => rfl
  simp only [e, exact_sub, exact_mul, asI32]

theorem exact_rotation (θ : ℝ) : rotation exact (.fin θ) = .fin (revolution θ) := by
  unfold rotation revolution
  have e : exact.rnd (2 * Real.pi) = .fin (2 * Real.pi) := rfl
  rw [e, exact_div _ _ (by positivity), exact_rem _ _ one_pos, div_one, one_mul]
  rfl

theorem exact_line (l r c : ℝ) : lineAt exact (.fin l) (.fin r) (.fin c) = axisDist l r c := by
  unfold lineAt axisDist
  rw [exact_sub]

theorem exact_near (x y θ pi : ℝ) : (Finder.default exact).isNearPillar exact (libOf Control.Trig.real pi) (.fin x) (.fin y) (.fin θ) ↔
    Converter.default.isNearPillar ⟨x, y, θ⟩ := by
  have hp : (Finder.default exact).pillars (.fin (revolution θ)) =
      ((.fin (Converter.default.pillars (revolution θ)).1.1, .fin (Converter.default.pillars (revolution θ)).1.2),
       (.fin (Converter.default.pillars (revolution θ)).2.1, .fin (Converter.default.pillars (revolution θ)).2.2)) := by
    rw [exact_finder]
    unfold Finder.pillars Converter.pillars
    have l1 : ∀ a b : ℝ, (F.fin a).le (.fin b) ↔ a ≤ b := fun _ _ => Iff.rfl
    have l2 : ∀ a b : ℝ, (F.fin a).lt (.fin b) ↔ a < b := fun _ _ => Iff.rfl
    simp only [l1, l2]
    split_ifs <;> rfl
  unfold Finder.isNearPillar Converter.isNearPillar
  dsimp only
  rw [exact_rotation, hp]
  dsimp only
  have es : (libOf Control.Trig.real pi).sin (.fin θ) = .fin (Real.sin θ) := rfl
  have ec : (libOf Control.Trig.real pi).cos (.fin θ) = .fin (Real.cos θ) := rfl
  rw [es, ec]
  simp only [exact_sub, exact_mul, F.abs]
  have m1 : ∀ d : ℝ, fmin .pinf (.fin d) = .fin d := by
    intro d
    unfold fmin
    rw [if_neg (by intro h; exact h), if_neg (by intro h; exact h), if_pos (by trivial)]
  have m2 : ∀ d d' : ℝ, fmin (.fin d) (.fin d') = .fin (min d d') := by
    intro d d'
    unfold fmin
    rw [if_neg (show ¬ (F.fin d').isNan from fun h => h), if_neg (show ¬ (F.fin d).isNan from fun h => h)]
    by_cases h : d' < d
    · rw [if_pos (show (F.fin d').lt (.fin d) from h), min_eq_right h.le]
    · rw [if_neg (show ¬ (F.fin d').lt (.fin d) from h), min_eq_left (not_lt.1 h)]
  rw [m1, m2, exact_finder]
  rfl

/-- **C129.** In exact arithmetic this is the converter of C34 and C35. -/
theorem C129_model (W : Nat) (sort : List (Dir × F) → List (Dir × F)) (pose : Pose) (pi : ℝ) :
    (Finder.default exact).convert exact (libOf Control.Trig.real pi) W sort (.fin pose.x) (.fin pose.y) (.fin pose.theta) =
      Converter.default.convert W sort pose := by
  have haxes : ∀ rot x y c s : ℝ, (Finder.default exact).axes exact (.fin rot) (.fin x) (.fin y) (.fin c) (.fin s) =
      Converter.default.axes rot x y c s := by
    intro rot x y c s
    rw [exact_finder]
    unfold Finder.axes Converter.axes
    have l2 : ∀ a b : ℝ, (F.fin a).lt (.fin b) ↔ a < b := fun _ _ => Iff.rfl
    simp only [l2, exact_line]
  have es : (libOf Control.Trig.real pi).sin (.fin pose.theta) = .fin (Real.sin pose.theta) := rfl
  have ec : (libOf Control.Trig.real pi).cos (.fin pose.theta) = .fin (Real.cos pose.theta) := rfl
  unfold Finder.convert Converter.convert
  rw [exact_remquo, exact_remquo]
  dsimp only
  rw [exact_rotation, es, ec, haxes]
  congr 1
  · exact propext (exact_near _ _ _ _)
  · rw [exact_finder]
    rfl

/-! ## A robot looking to the right from the centre of a cell -/

theorem real_trig (pi θ : ℝ) : TrigNear (libOf Control.Trig.real pi) 0 θ :=
  ⟨Real.sin θ, Real.cos θ, rfl, rfl, by simp, by simp⟩

/-- In the centre of the cell `(3, 0)` of a maze of width 16, looking to the right, the wall `(7, 0)` is seen, 42 mm away. -/
theorem centre_found : ∃ e b, (Finder.default (arith exp)).convert (arith exp) (libOf Control.Trig.real 3) 16 demoSort
    (.fin (centre 3).x) (.fin (centre 3).y) (.fin 0) = some ⟨⟨7, 0⟩, .fin e, .fin b⟩ ∧ |e - 42 / 1000| ≤ 2 / 10000 := by
  obtain ⟨e, b, h1, h2⟩ := C129_complete (exp := exp) (ε := 0) (θ := 0) (px := (centre 3).x) (py := (centre 3).y)
    (by simp only [centre]; rw [abs_le]; norm_num)
    (by simp only [centre]; rw [abs_le]; norm_num) (by norm_num) (real_trig 3 0) (by norm_num) (W := 16) ⟨4, by decide⟩ demoSort_sorts (i := 3) (j := 0)
    (by norm_num) (by norm_num) (by simp only [Box.inside, Box.grow, room, centre]; norm_num)
    (fun q hq => le_trans (by norm_num) (centre_far 3 q hq)) (centre_leaves 3) (centre_side 3) (by norm_num) ⟨7, 0⟩
    ⟨by decide, by decide, by decide⟩ rfl
  refine ⟨e, b, h1, ?_⟩
  norm_num at h2 ⊢
  exact h2

/-- The hypotheses of `C129_wall` are met by it. -/
example : ∃ info, (Finder.default (arith exp)).convert (arith exp) (libOf Control.Trig.real 3) 16 demoSort
    (.fin (centre 3).x) (.fin (centre 3).y) (.fin 0) = some info ∧
    ∃ i j side a b, 0 ≤ i ∧ 0 ≤ j ∧ ((room (9 / 100) (6 / 1000) i j).grow (4 / 10 ^ 6)).inside ((centre 3).x, (centre 3).y) ∧
      ((info.coord.x : Int), (info.coord.y : Int)) = sideOf i j side ∧ info.existing = .fin a ∧ info.notExisting = .fin b ∧ a ≤ b := by
  obtain ⟨e, b, h, -⟩ := centre_found (exp := exp)
  refine ⟨_, h, ?_⟩
  obtain ⟨i, j, side, a, b, h1, h2, h3, -, h4, h5, h6, -, -, h7, -⟩ := C129_wall (exp := exp) (ε := 0)
    (by simp only [centre]; rw [abs_le]; norm_num) (by simp only [centre]; rw [abs_le]; norm_num) (by norm_num) (real_trig 3 0) (by norm_num)
    ⟨4, by decide⟩ demoSort_sorts _ h
  exact ⟨i, j, side, a, b, h1, h2, h3, h4, h5, h6, h7⟩

/-- And those of `C129_pillars`. -/
example : LooksWell (centre 3) .right ∧ ((room (9 / 100) (6 / 1000) 3 0).grow (4 / 10 ^ 6)).inside ((centre 3).x, (centre 3).y) := by
  constructor
  · simp only [LooksWell, centre, Real.sin_zero, Real.cos_zero]; norm_num
  · simp only [Box.inside, Box.grow, room, centre]; norm_num

/-- With an angle that is not a number, one of two walls is seen from there, infinitely far away. -/
example : ∃ c, (Finder.default (arith exp)).convert (arith exp) (libOf Control.Trig.real 3) 16 demoSort
    (.fin (centre 3).x) (.fin (9 / 100 + 45 / 1000)) .nan = some ⟨c, .pinf, .pinf⟩ := by
  obtain ⟨side, hs, h⟩ := C129_nan (exp := exp) (L := libOf Control.Trig.real 3) rfl rfl (px := (centre 3).x) (py := 9 / 100 + 45 / 1000)
    (by simp only [centre]; rw [abs_le]; norm_num) (by rw [abs_le]; norm_num) (W := 16) ⟨4, by decide⟩ demoSort_sorts (i := 3) (j := 1)
    (by norm_num) (by norm_num) (by simp only [Box.inside, Box.grow, room, centre]; norm_num)
  rcases hs with rfl | rfl
  · exact ⟨⟨7, 2⟩, h _ ⟨by decide, by decide, by decide⟩ rfl⟩
  · exact ⟨⟨6, 1⟩, h _ ⟨by decide, by decide, by decide⟩ rfl⟩

end Verif.Props
