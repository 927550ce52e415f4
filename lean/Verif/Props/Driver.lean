import Verif.Spec.Driver
import Verif.Props.Drive
import Verif.Props.Jump
import Verif.Props.Geometry
/-!
# C77: the fast run as a whole
-/
namespace Verif.Props
open Verif Verif.Control Verif.Straight Verif.Slalom Verif.Spec Verif.StraightP Verif.Driver
open Verif.Run (Node SlalomKind SlalomDirection TrajectoryKind EdgeKind)

variable {c : RunConfig}

/-! ## One move -/

/-- The trajectories of planned moves. -/
def FastKind : TrajectoryKind → Prop
  | .straight n => 1 ≤ n
  | .straightDiagonal n => 1 ≤ n
  | .slalom k _ => k ≠ .search90

theorem leads_fast {n m : Node} {k : EdgeKind} {t : TrajectoryKind} (h : Leads n k m t) : FastKind t := by
  obtain ⟨f, s, fin, head, cr, -, q2, -, -, -, q6⟩ := h
  unfold Shape at q2
  by_cases hc : n.x % 2 = 0 ∧ n.y % 2 = 0
  · rw [if_pos hc] at q2
    cases q2 <;> simp only [trajOf, if_pos hc, Option.some.injEq] at q6 <;> subst q6 <;> simp_all [FastKind]
  · rw [if_neg hc] at q2
    cases q2 <;> simp only [trajOf, if_neg hc, Option.some.injEq] at q6 <;> subst q6 <;> simp_all [FastKind]

/-- The straights of the slaloms of the fast run are long enough, and their reference speed is large enough. -/
theorem fast_table {sw : ℝ} (hsw : 0 < sw) (kind : SlalomKind) (d : SlalomDirection) (hk : kind ≠ .search90) :
    0.1564 * sw ≤ (parameters sw 0 kind d).lStart ∧ 0.1564 * sw ≤ (parameters sw 0 kind d).lEnd ∧ 3.22 * sw ≤ (parameters sw 0 kind d).vRef ∧
      3 / 2 * (tableError kind * sw) ≤ 0.0048 * sw := by
  cases kind <;> first | exact absurd rfl hk | (cases d <;> simp only [parameters, createParams, tableError] <;> refine ⟨?_, ?_, ?_, ?_⟩ <;> linarith)

theorem outputs_straight (T : Trig) (n : Nat) : ∀ s, outputs (Traj.next T) n (.straight s) = outputs Straight.next n s := by
  induction n with
  | zero => intro s; rfl
  | succ n ih => intro s; rw [outputs, outputs]; exact congrArg _ (ih _)

theorem outputs_slalom (T : Trig) (q : Detect.Pose) (n : Nat) : ∀ s, outputs (Traj.next T) n (.slalom q s) = outputs (slalomNext T q) n s := by
  induction n with
  | zero => intro s; rfl
  | succ n ih => intro s; rw [outputs, outputs]; exact congrArg _ (ih _)

/-- What is known about the end speed of a move. -/
theorem straight_terminal {g : Gen} {vs ve period dist : ℝ} (h : Spec.Request g vs ve) (hd : 0 ≤ dist) (hst : Starts g vs dist) :
    (straightGenerate g period dist vs ve).2 ≤ max vs ve ∧ min vs ve ≤ (straightGenerate g period dist vs ve).2 ∧
      (0 < ve → 0 < (straightGenerate g period dist vs ve).2) :=
  ⟨(terminal_between h 0 dist).2, (terminal_between h 0 dist).1, fun he => terminal_pos h 0 hd hst he⟩

/-- What the straights may be too short, at most. -/
theorem jump_le {g : Gen} {vs ve : ℝ} (h : Spec.Request g vs ve) (hve : ve = 0 ∨ vs / 2 ≤ ve) {period dist : ℝ} (hd : 0 ≤ dist) :
    rampDist g vs (straightGenerate g period dist vs ve).2 ≤ dist + g.vMax * rampTime g.aMax g.jMax (resolution g.vMax) := by
  have k := C43_small_jump h hve 0 dist
  rw [abs_of_nonneg hd] at k
  refine k.trans (add_le_add le_rfl (mul_le_mul h.start1 ?_ (rampTime_nonneg h.a h.j (resolution_nonneg h.start0)) h.v.le))
  refine rampTime_mono h.a h.j ?_
  unfold resolution
  exact div_le_div_of_nonneg_right h.start1 (by positivity)

/-- A straight of the fast run. -/
theorem straight_leg (hc : RunOk c) {vs vm ve : ℝ} (hs0 : 0 ≤ vs) (hs1 : vs ≤ c.gen.vMax) (he0 : 0 ≤ ve) (he1 : ve ≤ c.gen.vMax)
    (hve : ve = 0 ∨ vs / 2 ≤ ve ∧ vm / 2 ≤ ve) (hpos : 0 < vs ∨ 0 < ve) (dist : ℝ) (hd : 0.1564 * c.squareWidth ≤ dist) :
    (∃ l, Produces Straight.next (straightGenerate c.gen c.period dist vs ve).1 l ∧
      Drive c.gen.vMax c.gen.aMax c.period origin vs ⟨dist, 0, 0⟩ (straightGenerate c.gen c.period dist vs ve).2 l ∧
      Steps (runStep c) (c.gen.aMax * c.period) l) ∧
    (0 < ve → 0 < (straightGenerate c.gen c.period dist vs ve).2) ∧ (straightGenerate c.gen c.period dist vs ve).2 ≤ max (max vs vm) ve ∧
    (vs = vm → vm = ve → (straightGenerate c.gen c.period dist vs ve).2 = ve) := by
  have hw := hc.width
  have hJ : 0 ≤ c.gen.vMax * rampTime c.gen.aMax c.gen.jMax (resolution c.gen.vMax) :=
    mul_nonneg hc.v.le (rampTime_nonneg hc.a hc.j (resolution_nonneg hc.v.le))
  have vp : 0 < c.gen.vMax * c.period := mul_pos hc.v hc.period
  have hd0 : 0 ≤ dist := le_trans (by positivity) hd
  have hst := lt_of_lt_of_le hc.start hd
  have R : Spec.Request c.gen vs ve := ⟨hc.v, hc.a, hc.j, hs0, hs1, he0, he1⟩
  obtain ⟨b1, b2, b3⟩ := straight_terminal (period := c.period) R hd0 (.inr hst)
  obtain ⟨r, hr⟩ := (C45_ends_iff R 0 dist).2 (by
    rw [abs_of_nonneg hd0]
    rcases hpos with h | h
    · exact .inl h
    · exact .inr (.inl ⟨h, hst⟩))
  obtain ⟨l, k1, k2, k3⟩ := straight_drive R hc.period hd0 hr
  refine ⟨⟨l, k1, k2, Steps.mono (k3 _ hJ (jump_le R (hve.imp_right And.left) hd0)) ?_ le_rfl⟩, b3, ?_, ?_⟩
  · unfold runStep; nlinarith
  · exact b1.trans (max_le ((le_max_left _ _).trans (le_max_left _ _)) (le_max_right _ _))
  · rintro rfl rfl
    rw [max_self] at b1
    rw [min_self] at b2
    exact le_antisymm b1 b2

/-- A move of the fast run. -/
theorem leg_drive (hc : RunOk c) {t : TrajectoryKind} (ht : FastKind t) {vs vm ve : ℝ} (hs0 : 0 ≤ vs) (hs1 : vs ≤ c.gen.vMax) (hm0 : 0 < vm)
    (hm1 : vm ≤ c.gen.vMax) (he0 : 0 ≤ ve) (he1 : ve ≤ c.gen.vMax) (hsm : vs / 2 ≤ vm) (hve : ve = 0 ∨ vs / 2 ≤ ve ∧ vm / 2 ≤ ve) (hpos : 0 < vs ∨ 0 < ve) :
    (∃ l, Produces (Traj.next .real) (runLeg c t (vs, vm, ve)).1 l ∧
      Drive c.gen.vMax c.gen.aMax c.period origin vs (runMove c.squareWidth 0 t) (runLeg c t (vs, vm, ve)).2 l ∧
      Steps (runStep c) (c.gen.aMax * c.period) l) ∧
    (0 < ve → 0 < (runLeg c t (vs, vm, ve)).2) ∧ (runLeg c t (vs, vm, ve)).2 ≤ max (max vs vm) ve ∧
    (vs = vm → vm = ve → (runLeg c t (vs, vm, ve)).2 = ve) := by
  have hw := hc.width
  have hJ : 0 ≤ c.gen.vMax * rampTime c.gen.aMax c.gen.jMax (resolution c.gen.vMax) :=
    mul_nonneg hc.v.le (rampTime_nonneg hc.a hc.j (resolution_nonneg hc.v.le))
  have vp : 0 < c.gen.vMax * c.period := mul_pos hc.v hc.period
  have str := straight_leg hc hs0 hs1 he0 he1 hve hpos
  cases t with
  | straight n =>
    have hn : (1:ℝ) ≤ n := by exact_mod_cast ht
    obtain ⟨⟨l, k1, k2, k3⟩, rest⟩ := str (n * c.squareWidth) (by nlinarith)
    exact ⟨⟨l, fun k => (outputs_straight .real k _).trans (k1 k), k2, k3⟩, rest⟩
  | straightDiagonal n =>
    have hn : (1:ℝ) ≤ n := by exact_mod_cast ht
    have h2 : Real.sqrt 2 ≤ 2 := by rw [Real.sqrt_le_left] <;> norm_num
    have h0 : 0 < Real.sqrt 2 := by positivity
    obtain ⟨⟨l, k1, k2, k3⟩, rest⟩ := str (n * c.squareWidth / Real.sqrt 2) (by
      rw [le_div_iff₀ h0]
      nlinarith)
    exact ⟨⟨l, fun k => (outputs_straight .real k _).trans (k1 k), k2, k3⟩, rest⟩
  | slalom kind d =>
    obtain ⟨t1, t2, t3, t4⟩ := fast_table hw kind d ht
    have hl1 : 0 ≤ (parameters c.squareWidth 0 kind d).lStart := le_trans (by positivity) t1
    have hl2 : 0 ≤ (parameters c.squareWidth 0 kind d).lEnd := le_trans (by positivity) t2
    have R : Spec.Request c.gen vs vm := ⟨hc.v, hc.a, hc.j, hs0, hs1, hm0.le, hm1⟩
    have st1 : Starts c.gen vs (parameters c.squareWidth 0 kind d).lStart := .inr (lt_of_lt_of_le hc.start t1)
    obtain ⟨b1, b2, b3⟩ := straight_terminal (period := c.period) R hl1 st1
    generalize hm : (straightGenerate c.gen c.period (parameters c.squareWidth 0 kind d).lStart vs vm).2 = m at *
    have hmp := b3 hm0
    have R2 : Spec.Request c.gen m ve := ⟨hc.v, hc.a, hc.j, hmp.le, b1.trans (max_le hs1 hm1), he0, he1⟩
    have et : (slalomWithTerminal c.gen c.period (parameters c.squareWidth 0 kind d) vs vm ve).2 =
        (straightGenerate c.gen c.period (parameters c.squareWidth 0 kind d).lEnd m ve).2 := by rw [← hm]; rfl
    obtain ⟨d1, d2, d3⟩ := straight_terminal (period := c.period) R2 hl2 (.inl hmp)
    obtain ⟨l, k1, k2, k3⟩ := C76_table (J := c.gen.vMax * rampTime c.gen.aMax c.gen.jMax (resolution c.gen.vMax)) hw R hm0 (by linarith) hc.period
      hl1 hl2 he0 he1 st1 (by have := hc.step; linarith) hJ (jump_le R (.inr hsm) hl1)
      (by
        rw [hm, et]
        refine jump_le R2 (hve.imp_right fun h => ?_) hl2
        have := b1.trans (max_le (show vs ≤ 2 * ve by linarith [h.1]) (show vm ≤ 2 * ve by linarith [h.2]))
        linarith)
    have el : (runLeg c (.slalom kind d) (vs, vm, ve)).2 = (straightGenerate c.gen c.period (parameters c.squareWidth 0 kind d).lEnd m ve).2 := et
    rw [el]
    refine ⟨⟨l, fun k => (outputs_slalom .real _ k _).trans (k1 k), by rw [← et]; exact k2, Steps.mono k3 ?_ le_rfl⟩, d3, ?_, ?_⟩
    · unfold runStep; linarith
    · exact d1.trans (max_le (b1.trans (le_max_left _ _)) (le_max_right _ _))
    · rintro rfl rfl
      rw [max_self] at b1
      rw [min_self] at b2
      have : m = vs := le_antisymm b1 b2
      rw [this, max_self] at d1
      rw [this, min_self] at d2
      rw [this]
      exact le_antisymm d1 d2

/-- A straight at the end stops when there is room. -/
theorem straight_stop (hc : RunOk c) (w dist : ℝ) (hw0 : 0 ≤ w) (hd : 0.1564 * c.squareWidth ≤ dist) (u : ℝ) (hu : w ≤ u) (hu1 : u ≤ c.gen.vMax)
    (hr : Roomy c.gen u 0 (0.1564 * c.squareWidth)) : (straightGenerate c.gen c.period dist w 0).2 = 0 := by
  have hw := hc.width
  have R : Spec.Request c.gen w 0 := ⟨hc.v, hc.a, hc.j, hw0, hu.trans hu1, le_rfl, hc.v.le⟩
  have Ru : Spec.Request c.gen u 0 := ⟨hc.v, hc.a, hc.j, hw0.trans hu, hu1, le_rfl, hc.v.le⟩
  have hr' : Roomy c.gen w 0 dist := roomy_mono Ru hu (hr.imp_right fun h => lt_of_lt_of_le h hd)
  refine le_antisymm (roomy_le R 0 (le_trans (by positivity) hd) hr') ?_
  have := (terminal_between R 0 dist).1
  rwa [min_eq_right hw0] at this

/-- A straight from rest reaches its speed when there is room. -/
theorem straight_up (hc : RunOk c) (dist : ℝ) (hd : 0.1564 * c.squareWidth ≤ dist) (w : ℝ) (hw0 : 0 < w) (hw1 : w ≤ c.gen.vMax) (h1 : w + resolution c.gen.vMax ≤ c.gen.vMax)
    (h2 : rampDist c.gen 0 (w + resolution c.gen.vMax) < 0.1564 * c.squareWidth) : (straightGenerate c.gen c.period dist 0 w).2 = w := by
  have hw := hc.width
  have R : Spec.Request c.gen 0 w := ⟨hc.v, hc.a, hc.j, le_rfl, hc.v.le, hw0.le, hw1⟩
  refine C42_exact_up R hw0 0 dist (by rwa [sub_zero]) ?_
  rw [sub_zero, abs_of_nonneg (le_trans (by positivity) hd)]
  exact lt_of_lt_of_le h2 hd

/-- A move at the end stops when there is room, and a move from rest reaches its speed when there is room. -/
theorem leg_exact (hc : RunOk c) {t : TrajectoryKind} (ht : FastKind t) {vs vm ve : ℝ} (hs0 : 0 ≤ vs) (hs1 : vs ≤ c.gen.vMax) (hm0 : 0 < vm)
    (hm1 : vm ≤ c.gen.vMax) (he0 : 0 ≤ ve) (he1 : ve ≤ c.gen.vMax) :
    (∀ u, vs ≤ u → vm ≤ u → u ≤ c.gen.vMax → Roomy c.gen u 0 (0.1564 * c.squareWidth) → ve = 0 → (runLeg c t (vs, vm, ve)).2 = 0) ∧
    (vs = 0 → vm = ve → ve + resolution c.gen.vMax ≤ c.gen.vMax → rampDist c.gen 0 (ve + resolution c.gen.vMax) < 0.1564 * c.squareWidth →
      (runLeg c t (vs, vm, ve)).2 = ve) := by
  have hw := hc.width
  have stop := straight_stop hc
  have up := straight_up hc
  cases t with
  | straight n =>
    have hn : (1:ℝ) ≤ n := by exact_mod_cast ht
    have hd : 0.1564 * c.squareWidth ≤ n * c.squareWidth := by nlinarith
    exact ⟨fun u h1 _ h3 h4 h5 => by subst h5; exact stop vs _ hs0 hd u h1 h3 h4, fun h1 h2 h3 h4 => by subst h1 h2; exact up _ hd vm hm0 hm1 h3 h4⟩
  | straightDiagonal n =>
    have hn : (1:ℝ) ≤ n := by exact_mod_cast ht
    have h2 : Real.sqrt 2 ≤ 2 := by rw [Real.sqrt_le_left] <;> norm_num
    have h0 : 0 < Real.sqrt 2 := by positivity
    have hd : 0.1564 * c.squareWidth ≤ n * c.squareWidth / Real.sqrt 2 := by rw [le_div_iff₀ h0]; nlinarith
    exact ⟨fun u h1 _ h3 h4 h5 => by subst h5; exact stop vs _ hs0 hd u h1 h3 h4, fun h1 h2 h3 h4 => by subst h1 h2; exact up _ hd vm hm0 hm1 h3 h4⟩
  | slalom kind d =>
    obtain ⟨t1, t2, -, -⟩ := fast_table hw kind d ht
    have hl1 : 0 ≤ (parameters c.squareWidth 0 kind d).lStart := le_trans (by positivity) t1
    have R : Spec.Request c.gen vs vm := ⟨hc.v, hc.a, hc.j, hs0, hs1, hm0.le, hm1⟩
    have el : (runLeg c (.slalom kind d) (vs, vm, ve)).2 = (straightGenerate c.gen c.period (parameters c.squareWidth 0 kind d).lEnd
      (straightGenerate c.gen c.period (parameters c.squareWidth 0 kind d).lStart vs vm).2 ve).2 := rfl
    rw [el]
    obtain ⟨b1, b2⟩ := terminal_between R 0 (parameters c.squareWidth 0 kind d).lStart
    refine ⟨fun u h1 h2 h3 h4 h5 => ?_, fun h1 h2 h3 h4 => ?_⟩
    · subst h5
      exact stop _ _ ((le_min hs0 hm0.le).trans b1) t2 u (b2.trans (max_le h1 h2)) h3 h4
    · subst h1 h2
      rw [up _ t1 vm hm0 hm1 h3 h4]
      have := terminal_between (⟨hc.v, hc.a, hc.j, hm0.le, hm1, hm0.le, hm1⟩ : Spec.Request c.gen vm vm) 0 (parameters c.squareWidth 0 kind d).lEnd
      rw [max_self, min_self] at this
      exact le_antisymm this.2 this.1

/-- A move of the planner has a trajectory, which leads to its end. -/
theorem leg_exists {W : Nat} (hW : Supported W) {isWall : Search.Coord → Bool} {n m : Node} {k : EdgeKind} (hn : Legal W n) (h : Drivable W isWall n k m)
    {sw : ℝ} (hsw : 0 < sw) :
    ∃ t, n.trajectoryKind m = .ok (some t) ∧ FastKind t ∧ Near (3e-7 * sw) (compose (poseOfNode n sw) (runMove sw 0 t)) (poseOfNode m sw) ∧ Legal W m := by
  obtain ⟨l, h1, -, h3, h4⟩ := C27_successors W hW isWall n hn
  have hk := (h3 m k).2 h
  obtain ⟨t, ht, hL⟩ := C28_move_has_trajectory W hW isWall n m k l hn h1 hk
  obtain ⟨t', ht', hN⟩ := C32_planned_move W hW isWall n m k l hn h1 hk sw 0 hsw.le
  rw [ht] at ht'
  cases ht'
  exact ⟨t, ht, leads_fast hL, hN, h4 m k hk⟩

/-! ## The main loop -/

theorem issues_single {q : Detect.Pose} {l : List Target} : ∀ {traj : Traj}, Produces (Traj.next .real) traj l →
    Issues [(q, traj)] (l.map (shift .real q)) := by
  induction l with
  | nil =>
    intro traj h n
    have e := produces_nil h
    cases n with
    | zero => rfl
    | succ n =>
      have : nextTarget .real [(q, traj)] = .ok (none, []) := by
        unfold nextTarget shiftNext
        dsimp only
        rw [e]
        rfl
      rw [runTargets, this]
      simp [bind, Except.bind, pure, Except.pure]
  | cons x l ih =>
    intro traj h n
    obtain ⟨e, h'⟩ := produces_cons h
    cases n with
    | zero => rfl
    | succ n =>
      have : nextTarget .real [(q, traj)] = .ok (some (shift .real q x), [(q, (Traj.next .real traj).2)]) := by
        unfold nextTarget shiftNext
        dsimp only
        rw [e]
        rfl
      rw [runTargets, this]
      simp [bind, Except.bind, pure, Except.pure, ih h' n]

theorem issues_cons {q q2 : Detect.Pose} {t2 : Traj} {rest : List (Detect.Pose × Traj)} {l l' : List Target} (h2 : ((Traj.next .real t2).1).isSome)
    (hi : Issues ((q2, t2) :: rest) l') : ∀ {traj : Traj}, Produces (Traj.next .real) traj l →
    Issues ((q, traj) :: (q2, t2) :: rest) (l.map (shift .real q) ++ l') := by
  induction l with
  | nil =>
    intro traj h n
    have e := produces_nil h
    cases n with
    | zero => rfl
    | succ n =>
      have : nextTarget .real ((q, traj) :: (q2, t2) :: rest) = nextTarget .real ((q2, t2) :: rest) := by
        obtain ⟨y, hy⟩ := Option.isSome_iff_exists.1 h2
        unfold nextTarget shiftNext
        dsimp only
        rw [e, hy]
        rfl
      rw [runTargets, this]
      exact hi (n + 1)
  | cons x l ih =>
    intro traj h n
    obtain ⟨e, h'⟩ := produces_cons h
    cases n with
    | zero => rfl
    | succ n =>
      have : nextTarget .real ((q, traj) :: (q2, t2) :: rest) = .ok (some (shift .real q x), (q, (Traj.next .real traj).2) :: (q2, t2) :: rest) := by
        unfold nextTarget shiftNext
        dsimp only
        rw [e]
        rfl
      rw [runTargets, this]
      simp [bind, Except.bind, pure, Except.pure, ih h' n]

/-! ## The whole path -/

/-- The run along a path from its move number `i` on, reached with speed `v` and started with speed `s`: the trajectories are generated and issue the
targets `l`, which lead from the first to the last pose, past all others. -/
def Ride (c : RunConfig) (len i : Nat) (v s : ℝ) (path : List Node) (l : List Target) (v' : ℝ) : Prop :=
  ∃ q traj rest, runPlan c len i v path = .ok ((q, traj) :: rest) ∧ ((Traj.next .real traj).1).isSome ∧ Issues ((q, traj) :: rest) l ∧
    (∃ start goal q', path.head? = some start ∧ path.getLast? = some goal ∧ Near (3e-7 * c.squareWidth) q' (poseOfNode goal c.squareWidth) ∧
      Drive c.gen.vMax c.gen.aMax c.period (poseOfNode start c.squareWidth) s q' v' l) ∧
    Visits c.squareWidth l path.dropLast

/-- The speeds of a move are admissible. -/
structure Admissible (c : RunConfig) (v : ℝ × ℝ × ℝ) : Prop where
  s0 : 0 ≤ v.1
  s1 : v.1 ≤ c.gen.vMax
  m0 : 0 < v.2.1
  m1 : v.2.1 ≤ c.gen.vMax
  e0 : 0 ≤ v.2.2
  e1 : v.2.2 ≤ c.gen.vMax
  sm : v.1 / 2 ≤ v.2.1
  ve : v.2.2 = 0 ∨ v.1 / 2 ≤ v.2.2 ∧ v.2.1 / 2 ≤ v.2.2
  pos : 0 < v.1 ∨ 0 < v.2.2

theorem produces_some {σ α : Type} {next : σ → Option α × σ} {s : σ} {l : List α} (h : Produces next s l) {x : α} (hx : l.head? = some x) : (next s).1.isSome := by
  cases l with
  | nil => cases hx
  | cons y l => rw [(produces_cons h).1]; rfl

theorem drive_at {vMax aMax period v v' : ℝ} {q q' : Detect.Pose} {l : List Target} (D : Drive vMax aMax period q v q' v' l) (z : Detect.Pose) :
    Drive vMax aMax period (compose z q) v (compose z q') v' (l.map (Straight.shift .real z)) := Drive.shift D z

/-- The last move. -/
theorem ride_last (hc : RunOk c) {W len i : Nat} (hW : Supported W) {isWall : Search.Coord → Bool} {n m : Node} {k : EdgeKind} (hn : Legal W n)
    (h : Drivable W isWall n k m) {v : ℝ} (A : Admissible c (runVelocities i len v c.slalomVelocity)) :
    ∃ l t, FastKind t ∧ Ride c len i v (runVelocities i len v c.slalomVelocity).1 [n, m] l (runLeg c t (runVelocities i len v c.slalomVelocity)).2 ∧
      Steps (runStep c) (c.gen.aMax * c.period) l := by
  obtain ⟨t, e, hF, hN, -⟩ := leg_exists hW hn h hc.width
  obtain ⟨⟨l, k1, k2, k3⟩, -⟩ := leg_drive hc hF A.s0 A.s1 A.m0 A.m1 A.e0 A.e1 A.sm A.ve A.pos
  obtain ⟨x, hx, -⟩ := k2.first
  have D := drive_at k2 (poseOfNode n c.squareWidth)
  rw [compose_origin] at D
  obtain ⟨y, hy, ya, -⟩ := D.first
  refine ⟨l.map (shift .real (poseOfNode n c.squareWidth)), t, hF, ⟨poseOfNode n c.squareWidth, _, [], ?_, produces_some k1 hx, issues_single k1,
    ⟨n, m, _, rfl, rfl, hN, D⟩, [y], ?_, ?_⟩, Steps.shift k3 _⟩
  · rw [runPlan, e]
    rfl
  · rw [List.singleton_sublist]
    exact List.mem_of_mem_head? hy
  · exact .cons ya .nil

/-- A move before others. -/
theorem ride_cons (hc : RunOk c) {W len i : Nat} (hW : Supported W) {isWall : Search.Coord → Bool} {n m : Node} {k : EdgeKind} {path : List Node} (hn : Legal W n)
    (h : Drivable W isWall n k m) {v : ℝ} (A : Admissible c (runVelocities i len v c.slalomVelocity))
    {P : ℝ → ℝ → List Target → ℝ → Prop}
    (hr : ∀ t, FastKind t → ∃ l s v', Ride c len (i + 1) (runLeg c t (runVelocities i len v c.slalomVelocity)).2 s (m :: path) l v' ∧
      P (runLeg c t (runVelocities i len v c.slalomVelocity)).2 s l v') :
    ∃ l l' t s v', FastKind t ∧ Ride c len i v (runVelocities i len v c.slalomVelocity).1 (n :: m :: path) (l ++ l') v' ∧
      P (runLeg c t (runVelocities i len v c.slalomVelocity)).2 s l' v' ∧
      Steps (runStep c) (c.gen.aMax * c.period) l ∧ l ≠ [] ∧
      (∀ x ∈ l.getLast?, ∀ x' ∈ l'.head?, gap x x' ≤ runStep c ∧
        |(body x').1 - (body x).1| ≤ c.gen.aMax * c.period + |s - (runLeg c t (runVelocities i len v c.slalomVelocity)).2|) := by
  obtain ⟨t, e, hF, hN, -⟩ := leg_exists hW hn h hc.width
  obtain ⟨⟨l, k1, k2, k3⟩, -⟩ := leg_drive hc hF A.s0 A.s1 A.m0 A.m1 A.e0 A.e1 A.sm A.ve A.pos
  obtain ⟨l', s, v', ⟨q2, t2, rest, r1, r2, r3, ⟨st, goal, q', g1, g2, g3, g4⟩, ts, u1, u2⟩, hP⟩ := hr t hF
  obtain ⟨x, hx, -⟩ := k2.first
  have D := drive_at k2 (poseOfNode n c.squareWidth)
  rw [compose_origin] at D
  obtain ⟨y, hy, ya, -⟩ := D.first
  have D2 := Drive.append (m := []) D g4 (by simp)
  rw [List.append_nil] at D2
  cases g1
  refine ⟨l.map (shift .real (poseOfNode n c.squareWidth)), l', t, s, v', hF, ⟨poseOfNode n c.squareWidth, _, (q2, t2) :: rest, ?_, produces_some k1 hx,
    issues_cons r2 r3 k1, ⟨n, goal, _, rfl, ?_, g3, D2⟩, y :: ts, ?_, ?_⟩, hP, Steps.shift k3 _, ?_, ?_⟩
  · have hk : runPlan c len i v (n :: m :: path) = (do
        let trajectories ← runPlan c len (i + 1) (runLeg c t (runVelocities i len v c.slalomVelocity)).2 (m :: path)
        return (poseOfNode n c.squareWidth, (runLeg c t (runVelocities i len v c.slalomVelocity)).1) :: trajectories) := by
      conv_lhs => rw [runPlan]
      rw [e]
      rfl
    rw [hk, r1]
    rfl
  · rw [List.getLast?_cons_cons]; exact g2
  · have := List.Sublist.append (List.singleton_sublist.2 (List.mem_of_mem_head? hy)) u1
    simpa using this
  · rw [List.dropLast_cons_of_ne_nil (by simp)]
    exact .cons ya u2
  · rintro e
    rw [e] at hy
    cases hy
  · intro a ha b hb
    obtain ⟨z, hz, ⟨z1, z2, -⟩, zb⟩ := g4.first
    rw [hz] at hb
    cases hb
    obtain ⟨t0, s0, u, h1, h2, h3, h4, h5, h6, h7⟩ := D.last
    obtain ⟨n1, n2, -⟩ := hN
    constructor
    · have hw := hc.width
      have vp : 0 < c.gen.vMax * c.period := mul_pos hc.v hc.period
      have hJ : 0 ≤ c.gen.vMax * rampTime c.gen.aMax c.gen.jMax (resolution c.gen.vMax) :=
        mul_nonneg hc.v.le (rampTime_nonneg hc.a hc.j (resolution_nonneg hc.v.le))
      refine (Drive.last_gap' D ha (3 / 2 * (3e-7 * c.squareWidth)) ?_).trans ?_
      · rw [z1, z2]
        refine hypot_le ?_ ?_
        · rw [abs_sub_comm]; exact n1
        · rw [abs_sub_comm]; exact n2
      · unfold runStep
        linarith
    · rw [h1] at ha
      cases ha
      rw [zb, h6]
      dsimp only
      calc |s - u| = |(s - (runLeg c t (runVelocities i len v c.slalomVelocity)).2) + ((runLeg c t (runVelocities i len v c.slalomVelocity)).2 - u)| := by ring_nf
        _ ≤ |s - (runLeg c t (runVelocities i len v c.slalomVelocity)).2| + |(runLeg c t (runVelocities i len v c.slalomVelocity)).2 - u| := abs_add_le _ _
        _ ≤ _ := by rw [abs_sub_comm _ u]; linarith

/-- From the third move on. -/
theorem tail_run (hc : RunOk c) {W len : Nat} (hW : Supported W) {isWall : Search.Coord → Bool} {cost : EdgeKind → Nat} : ∀ (path : List Node) (n m : Node)
    (i k : Nat) (v : ℝ), FastPath W isWall cost (n :: m :: path) k → Legal W n → 2 ≤ i → i + path.length + 2 = len → 0 < v → v ≤ c.slalomVelocity →
    ∃ l v', Ride c len i v (if i + 3 < len then c.slalomVelocity else v) (n :: m :: path) l v' ∧ Steps (runStep c) (c.gen.aMax * c.period) l ∧
      (Roomy c.gen c.slalomVelocity 0 (0.1564 * c.squareWidth) → v' = 0) := by
  have hr0 := hc.run0
  have hr1 := hc.run1
  intro path
  induction path with
  | nil =>
    intro n m i k v hp hn hi hlen hv0 hv1
    obtain _ | ⟨_, _, kind, _, k', hd, hp'⟩ := hp
    have e : runVelocities i len v c.slalomVelocity = (v, v * 0.6666667, 0) := by
      unfold runVelocities
      rw [if_neg (by omega), if_pos (by simpa using hlen)]
    have A : Admissible c (runVelocities i len v c.slalomVelocity) := by
      rw [e]; constructor <;> dsimp only <;> first | exact .inl rfl | exact .inl hv0 | linarith
    obtain ⟨l, t, hF, hR, hS⟩ := ride_last hc hW hn hd A
    rw [e] at hR
    refine ⟨l, _, by rw [if_neg (by simp at hlen; omega)]; exact hR, hS, fun hro => ?_⟩
    exact (leg_exact hc hF hv0.le (hv1.trans hr1) (by linarith) (by linarith) le_rfl hc.v.le).1 _ hv1 (by linarith) hr1 hro rfl
  | cons x path ih =>
    intro n m i k v hp hn hi hlen hv0 hv1
    obtain _ | ⟨_, _, kind, _, k', hd, hp'⟩ := hp
    rw [List.length_cons] at hlen
    obtain ⟨-, -, -, -, hm⟩ := leg_exists hW hn hd hc.width
    by_cases h3 : i + 3 < len
    · have e : runVelocities i len v c.slalomVelocity = (c.slalomVelocity, c.slalomVelocity, c.slalomVelocity) := by
        unfold runVelocities
        rw [if_neg (by omega), if_neg (by omega), if_neg (by omega)]
      have A : Admissible c (runVelocities i len v c.slalomVelocity) := by
        rw [e]; constructor <;> dsimp only <;> first | exact .inr ⟨by linarith, by linarith⟩ | exact .inl hr0 | linarith
      obtain ⟨l, l', t, s, v', hF, hR, ⟨e1, hS', hro⟩, hS, -, hJ⟩ := ride_cons hc hW hn hd A
        (P := fun u s l v' => s = u ∧ Steps (runStep c) (c.gen.aMax * c.period) l ∧ (Roomy c.gen c.slalomVelocity 0 (0.1564 * c.squareWidth) → v' = 0))
        (fun t hF => by
          have hT := (leg_drive hc hF A.s0 A.s1 A.m0 A.m1 A.e0 A.e1 A.sm A.ve A.pos).2.2.2 (by rw [e]) (by rw [e])
          simp only [e] at hT ⊢
          rw [hT]
          obtain ⟨l, v', r1, r2, r3⟩ := ih m x (i + 1) k' c.slalomVelocity hp' hm (by omega) (by omega) hr0 le_rfl
          rw [ite_self] at r1
          exact ⟨l, _, v', r1, rfl, r2, r3⟩)
      rw [e] at hR
      refine ⟨l ++ l', v', by rw [if_pos h3]; exact hR, Steps.append hS hS' fun x hx y hy => ?_, hro⟩
      have := hJ x hx y hy
      rw [e1, sub_self, abs_zero, add_zero] at this
      exact this
    · have e : runVelocities i len v c.slalomVelocity = (v, v * 0.5, v * 0.5) := by
        unfold runVelocities
        rw [if_neg (by omega), if_neg (by omega), if_pos (by omega)]
      have A : Admissible c (runVelocities i len v c.slalomVelocity) := by
        rw [e]; constructor <;> dsimp only <;> first | exact .inr ⟨by linarith, by linarith⟩ | exact .inl hv0 | linarith
      obtain ⟨l, l', t, s, v', hF, hR, ⟨e1, hS', hro⟩, hS, -, hJ⟩ := ride_cons hc hW hn hd A
        (P := fun u s l v' => s = u ∧ Steps (runStep c) (c.gen.aMax * c.period) l ∧ (Roomy c.gen c.slalomVelocity 0 (0.1564 * c.squareWidth) → v' = 0))
        (fun t hF => by
          obtain ⟨-, hT0, hT1, -⟩ := leg_drive hc hF A.s0 A.s1 A.m0 A.m1 A.e0 A.e1 A.sm A.ve A.pos
          simp only [e] at hT0 hT1 ⊢
          obtain ⟨l, v', r1, r2, r3⟩ := ih m x (i + 1) k' _ hp' hm (by omega) (by omega) (hT0 (by linarith))
            (hT1.trans (max_le (max_le hv1 (by linarith)) (by linarith)))
          rw [if_neg (by omega)] at r1
          exact ⟨l, _, v', r1, rfl, r2, r3⟩)
      rw [e] at hR
      refine ⟨l ++ l', v', by rw [if_neg h3]; exact hR, Steps.append hS hS' fun x hx y hy => ?_, hro⟩
      have := hJ x hx y hy
      rw [e1, sub_self, abs_zero, add_zero] at this
      exact this

/-- Successive targets are close, and so are their speeds, with at most one exception: the speed may change by up to `β` at one place. -/
def Ragged (c : RunConfig) (β : ℝ) (l : List Target) : Prop :=
  Steps (runStep c) (c.gen.aMax * c.period + β) l ∧
    ∃ l1 l2, l = l1 ++ l2 ∧ l1 ≠ [] ∧ Steps (runStep c) (c.gen.aMax * c.period) l1 ∧ Steps (runStep c) (c.gen.aMax * c.period) l2

theorem ragged_steps {β : ℝ} {l : List Target} (hβ : 0 ≤ β) (hl : l ≠ []) (h : Steps (runStep c) (c.gen.aMax * c.period) l) : Ragged c β l :=
  ⟨Steps.mono h le_rfl (by linarith), l, [], by simp, hl, h, List.isChain_nil⟩

theorem ride_ne {len i : Nat} {v s v' : ℝ} {path : List Node} {l : List Target} (h : Ride c len i v s path l v') : l ≠ [] := by
  obtain ⟨_, _, _, _, _, _, ⟨_, _, _, _, _, _, D⟩, _⟩ := h
  obtain ⟨t, ht, -⟩ := D.first
  rintro rfl
  cases ht

/-- From the second move on. -/
theorem second_run (hc : RunOk c) {W len : Nat} (hW : Supported W) {isWall : Search.Coord → Bool} {cost : EdgeKind → Nat} (path : List Node) (n m : Node)
    (k : Nat) (v : ℝ) (hp : FastPath W isWall cost (n :: m :: path) k) (hn : Legal W n) (hlen : path.length + 3 = len) (hv0 : 0 < v) (hv1 : v ≤ c.slalomVelocity) :
    ∃ l v', Ride c len 1 v v (n :: m :: path) l v' ∧ Ragged c c.slalomVelocity l ∧
      (len ≤ 5 ∨ v = c.slalomVelocity → Steps (runStep c) (c.gen.aMax * c.period) l) ∧
      (4 ≤ len → Roomy c.gen c.slalomVelocity 0 (0.1564 * c.squareWidth) → v' = 0) ∧ (len ≤ 3 → 0 < v') := by
  have hr0 := hc.run0
  have hr1 := hc.run1
  obtain _ | ⟨_, _, kind, _, k', hd, hp'⟩ := hp
  have e : runVelocities 1 len v c.slalomVelocity = (v, c.slalomVelocity, c.slalomVelocity) := by
    unfold runVelocities
    rw [if_pos le_rfl]
  have A : Admissible c (runVelocities 1 len v c.slalomVelocity) := by
    rw [e]; constructor <;> dsimp only <;> first | exact .inr ⟨by linarith, by linarith⟩ | exact .inl hv0 | linarith
  obtain ⟨-, -, -, -, hm⟩ := leg_exists hW hn hd hc.width
  cases path with
  | nil =>
    obtain ⟨l, t, hF, hR, hS⟩ := ride_last hc hW hn hd A
    obtain ⟨-, hT0, -⟩ := leg_drive hc hF A.s0 A.s1 A.m0 A.m1 A.e0 A.e1 A.sm A.ve A.pos
    rw [e] at hR hT0
    exact ⟨l, _, hR, ragged_steps hr0.le (ride_ne hR) hS, fun _ => hS, fun h => by simp at hlen; omega, fun _ => hT0 hr0⟩
  | cons x path =>
    rw [List.length_cons] at hlen
    obtain ⟨l, l', t, s, v', hF, hR, ⟨e1, e2, e3, hS', hro⟩, hS, hne, hJ⟩ := ride_cons hc hW hn hd A
      (P := fun u s l v' => 0 < u ∧ u ≤ c.slalomVelocity ∧ (s = u ∨ s = c.slalomVelocity ∧ ¬ (len ≤ 5 ∨ v = c.slalomVelocity)) ∧
        Steps (runStep c) (c.gen.aMax * c.period) l ∧ (Roomy c.gen c.slalomVelocity 0 (0.1564 * c.squareWidth) → v' = 0))
      (fun t hF => by
        obtain ⟨-, hT0, hT1, hT2⟩ := leg_drive hc hF A.s0 A.s1 A.m0 A.m1 A.e0 A.e1 A.sm A.ve A.pos
        simp only [e] at hT0 hT1 hT2 ⊢
        have hT1' := hT1.trans (max_le (max_le hv1 le_rfl) le_rfl)
        obtain ⟨l, v', r1, r2, r3⟩ := tail_run (len := len) hc hW path m x (1 + 1) k' _ hp' hm le_rfl (by omega) (hT0 hr0) hT1'
        refine ⟨l, _, v', r1, hT0 hr0, hT1', ?_, r2, r3⟩
        split
        · rename_i h5
          by_cases hv : v = c.slalomVelocity
          · exact .inl (hT2 hv trivial).symm
          · refine .inr ⟨rfl, ?_⟩
            rintro (h | h)
            · omega
            · exact hv h
        · exact .inl rfl)
    rw [e] at hR
    refine ⟨l ++ l', v', hR, ⟨Steps.append (Steps.mono hS le_rfl (by linarith)) (Steps.mono hS' le_rfl (by linarith)) fun x hx y hy => ?_, l, l', rfl, hne, hS, hS'⟩,
      fun hh => Steps.append hS hS' fun x hx y hy => ?_, fun _ => hro, fun h => by omega⟩
    · obtain ⟨j1, j2⟩ := hJ x hx y hy
      refine ⟨j1, j2.trans (add_le_add le_rfl ?_)⟩
      rcases e3 with e3 | ⟨e3, -⟩
      · rw [e3, sub_self, abs_zero]; exact hr0.le
      · rw [e3, abs_of_nonneg (by linarith)]; linarith
    · rcases e3 with e3 | ⟨-, e3⟩
      · have := hJ x hx y hy
        rw [e3, sub_self, abs_zero, add_zero] at this
        exact this
      · exact absurd hh e3

theorem runPlan_length {len : Nat} : ∀ (path : List Node) (i : Nat) (v : ℝ) (plan : List (Detect.Pose × Traj)), runPlan c len i v path = .ok plan →
    path ≠ [] → plan.length + 1 = path.length := by
  intro path
  induction path with
  | nil => intro _ _ _ _ h; exact absurd rfl h
  | cons n path ih =>
    intro i v plan h _
    cases path with
    | nil => rw [runPlan] at h; cases h; rfl; simp
    | cons m path =>
      rw [runPlan] at h
      cases ht : n.trajectoryKind m with
      | error e => rw [ht] at h; cases h
      | ok o =>
        rw [ht] at h
        cases o with
        | none => cases h
        | some t =>
          cases hq : runPlan c len (i + 1) (runLeg c t (runVelocities i len v c.slalomVelocity)).2 (m :: path) with
          | error e =>
            have h' : (do
              let trajectories ← runPlan c len (i + 1) (runLeg c t (runVelocities i len v c.slalomVelocity)).2 (m :: path)
              return (poseOfNode n c.squareWidth, (runLeg c t (runVelocities i len v c.slalomVelocity)).1) :: trajectories) = Except.ok plan := h
            rw [hq] at h'
            cases h'
          | ok rest =>
            have h' : (do
              let trajectories ← runPlan c len (i + 1) (runLeg c t (runVelocities i len v c.slalomVelocity)).2 (m :: path)
              return (poseOfNode n c.squareWidth, (runLeg c t (runVelocities i len v c.slalomVelocity)).1) :: trajectories) = Except.ok plan := h
            rw [hq] at h'
            cases h'
            rw [List.length_cons, ih _ _ _ hq (by simp)]
            rfl

/-- C77: for every path of at least two poses that the planner can return, the driver of the fast run generates a trajectory for every move and
issues their targets one after the other, without panic and without gap, and then ends. The targets start at the first pose at rest, pass exactly at
every pose but the last, and end less than a step before a pose within 3e-7 square widths of the last. Successive targets are close. Their speeds differ
by no more than the acceleration allows, except perhaps at one place; there is no exception when the path has at most five poses or when the shortest
straight of the slalom table is enough for reaching the speed of the run. With four poses or more the mouse stops, when that straight is enough for stopping; with two or three it
never does. -/
theorem C77_run (hc : RunOk c) {W : Nat} (hW : Supported W) {isWall : Search.Coord → Bool} {cost : EdgeKind → Nat} {path : List Node} {k : Nat}
    (hp : FastPath W isWall cost path k) {start goal : Node} (hs : path.head? = some start) (hg : path.getLast? = some goal) (hn : Legal W start)
    (h2 : 2 ≤ path.length) :
    ∃ trajectories l q' v', runPlan c path.length 0 0 path = .ok trajectories ∧ trajectories.length + 1 = path.length ∧ Issues trajectories l ∧
      Drive c.gen.vMax c.gen.aMax c.period (poseOfNode start c.squareWidth) 0 q' v' l ∧
      Near (3e-7 * c.squareWidth) q' (poseOfNode goal c.squareWidth) ∧
      Visits c.squareWidth l path.dropLast ∧
      Steps (runStep c) (c.gen.aMax * c.period + c.slalomVelocity) l ∧
      (∃ l1 l2, l = l1 ++ l2 ∧ Steps (runStep c) (c.gen.aMax * c.period) l1 ∧ Steps (runStep c) (c.gen.aMax * c.period) l2) ∧
      (path.length ≤ 5 ∨ c.slalomVelocity + resolution c.gen.vMax ≤ c.gen.vMax ∧
          rampDist c.gen 0 (c.slalomVelocity + resolution c.gen.vMax) < 0.1564 * c.squareWidth →
        Steps (runStep c) (c.gen.aMax * c.period) l) ∧
      (4 ≤ path.length → Roomy c.gen c.slalomVelocity 0 (0.1564 * c.squareWidth) → v' = 0) ∧
      (path.length ≤ 3 → 0 < v') := by
  have hr0 := hc.run0
  have hr1 := hc.run1
  -- it is enough to have a ride
  suffices hh : ∃ l v', Ride c path.length 0 0 0 path l v' ∧ Ragged c c.slalomVelocity l ∧
      (path.length ≤ 5 ∨ c.slalomVelocity + resolution c.gen.vMax ≤ c.gen.vMax ∧
          rampDist c.gen 0 (c.slalomVelocity + resolution c.gen.vMax) < 0.1564 * c.squareWidth →
        Steps (runStep c) (c.gen.aMax * c.period) l) ∧
      (4 ≤ path.length → Roomy c.gen c.slalomVelocity 0 (0.1564 * c.squareWidth) → v' = 0) ∧ (path.length ≤ 3 → 0 < v') by
    obtain ⟨l, v', ⟨q, traj, rest, r1, -, r3, ⟨st, gl, q', g1, g2, g3, g4⟩, r5⟩, ⟨s1, l1, l2, s2, -, s3, s4⟩, h3, h4, h5⟩ := hh
    rw [hs] at g1
    rw [hg] at g2
    cases g1
    cases g2
    refine ⟨_, l, q', v', r1, runPlan_length _ _ _ _ r1 (by rintro rfl; simp at h2), r3, g4, g3, r5, s1, ⟨l1, l2, s2, s3, s4⟩, h3, h4, h5⟩
  obtain _ | ⟨n, m, kind, rest, k', hd, hp'⟩ := hp
  · simp at h2
  cases hs
  have e : runVelocities 0 (start :: m :: rest).length 0 c.slalomVelocity = (0, c.slalomVelocity, c.slalomVelocity) := rfl
  have A : Admissible c (runVelocities 0 (start :: m :: rest).length 0 c.slalomVelocity) := by
    rw [e]; constructor <;> dsimp only <;> first | exact .inr ⟨by linarith, by linarith⟩ | exact .inr hr0 | linarith [hc.v]
  obtain ⟨-, -, -, -, hm⟩ := leg_exists hW hn hd hc.width
  cases rest with
  | nil =>
    obtain ⟨l, t, hF, hR, hS⟩ := ride_last hc hW hn hd A
    exact ⟨l, _, hR, ragged_steps hr0.le (ride_ne hR) hS, fun _ => hS, fun h => by simp at h,
      fun _ => (leg_drive hc hF A.s0 A.s1 A.m0 A.m1 A.e0 A.e1 A.sm A.ve A.pos).2.1 hr0⟩
  | cons x rest =>
    obtain ⟨l, l', t, s, v', hF, hR, ⟨e1, ⟨s1, l1, l2, s2, s3, s4, s5⟩, e3, hro⟩, hS, hne, hJ⟩ := ride_cons hc hW hn hd A
      (P := fun u s l v' => s = u ∧ Ragged c c.slalomVelocity l ∧
        ((start :: m :: x :: rest).length ≤ 5 ∨ u = c.slalomVelocity → Steps (runStep c) (c.gen.aMax * c.period) l) ∧
        (4 ≤ (start :: m :: x :: rest).length → Roomy c.gen c.slalomVelocity 0 (0.1564 * c.squareWidth) → v' = 0) ∧ ((start :: m :: x :: rest).length ≤ 3 → 0 < v'))
      (fun t hF => by
        obtain ⟨-, hT0, hT1, -⟩ := leg_drive hc hF A.s0 A.s1 A.m0 A.m1 A.e0 A.e1 A.sm A.ve A.pos
        simp only [e] at hT0 hT1 ⊢
        have hT1' := hT1.trans (max_le (max_le hr0.le le_rfl) le_rfl)
        obtain ⟨l, v', r1, r2, r3, r4⟩ := second_run (len := (start :: m :: x :: rest).length) hc hW rest m x k' _ hp' hm (by simp) (hT0 hr0) hT1'
        exact ⟨l, _, v', r1, rfl, r2, r3, r4⟩)
    have joint (α : ℝ) (l'' : List Target) (hα : c.gen.aMax * c.period ≤ α) (hh : l''.head? = l'.head?) (h'' : Steps (runStep c) α l'') :
        Steps (runStep c) α (l ++ l'') := by
      refine Steps.append (Steps.mono hS le_rfl hα) h'' fun x hx y hy => ?_
      have := hJ x hx y (by rwa [← hh])
      rw [e1, sub_self, abs_zero, add_zero] at this
      exact ⟨this.1, this.2.trans hα⟩
    refine ⟨l ++ l', v', hR, ⟨joint _ l' (by linarith) rfl s1, l ++ l1, l2, by rw [s2, List.append_assoc], by simp [hne], ?_, s5⟩, fun hh => ?_, hro⟩
    · refine joint _ l1 le_rfl ?_ s4
      rw [s2]
      cases l1 with
      | nil => exact absurd rfl s3
      | cons => rfl
    · refine joint _ l' le_rfl rfl (e3 ?_)
      rcases hh with hh | ⟨h1, h2⟩
      · exact .inl hh
      · exact .inr ((leg_exact hc hF le_rfl hc.v.le hr0 hr1 hr0.le hr1).2 rfl rfl h1 h2)

/-- C77: in particular for the path that the planner returns, when the start is not a goal. -/
theorem C77_planned (hc : RunOk c) {W MAX : Nat} {ops : Run.HeapOps} (L : HeapLaws ops Run.QUE_MAX) (hW : Supported W) {start : Node} {isGoal : Node → Bool}
    {isWall : Search.Coord → Bool} {cost : EdgeKind → Nat} (hn : Legal W start) (hM : 0 < MAX) (hng : isGoal start = false) {path : List Node} {k : Nat}
    {dropped : Bool} (h : Run.shortestPath W MAX ops start isGoal isWall cost = .ok (some (path, k), dropped)) :
    ∃ goal trajectories l q' v', isGoal goal = true ∧ runPlan c path.length 0 0 path = .ok trajectories ∧ Issues trajectories l ∧
      Drive c.gen.vMax c.gen.aMax c.period (poseOfNode start c.squareWidth) 0 q' v' l ∧
      Near (3e-7 * c.squareWidth) q' (poseOfNode goal c.squareWidth) ∧
      Visits c.squareWidth l path.dropLast ∧
      Steps (runStep c) (c.gen.aMax * c.period + c.slalomVelocity) l := by
  obtain ⟨hs, ⟨goal, hg, hgg⟩, hp, -⟩ := C29_path_valid W MAX ops L start isGoal isWall cost hW hn hM path k dropped h
  have h2 : 2 ≤ path.length := by
    rcases path with _ | ⟨a, _ | ⟨b, path⟩⟩
    · cases hs
    · cases hs
      cases hg
      exact absurd (hng.symm.trans hgg) (by simp)
    · simp
  obtain ⟨tr, l, q', v', a1, -, a3, a4, a5, a6, a7, -⟩ := C77_run hc hW hp hs hg hn h2
  exact ⟨goal, tr, l, q', v', hgg, a1, a3, a4, a5, a6, a7⟩

/-- C77: when the start is a goal, there is nothing to drive, and the main loop panics in its first round. -/
theorem C77_at_goal (n : Node) : runPlan c 1 0 0 [n] = .ok [] ∧ ∀ k, runTargets .real (k + 1) [] = .error .unreachable := by
  refine ⟨?_, fun k => rfl⟩
  rw [runPlan]
  simp

/-- The settings of the project's test. -/
theorem test_settings : RunOk ⟨⟨1, 10, 100⟩, 0.001, 0.09, 0.5⟩ where
  v := by norm_num
  a := by norm_num
  j := by norm_num
  period := by norm_num
  width := by norm_num
  run0 := by norm_num
  run1 := by norm_num
  step := by norm_num
  start := by
    have : Real.sqrt (1 / 2 ^ 25 / 100) ≤ 1 := Real.sqrt_le_one.2 (by norm_num)
    norm_num [rampDist, rampTime, resolution] at this ⊢
    linarith

/-- A run through a maze of sixteen squares with two walls in the way. -/
example : ∃ trajectories l q' v',
    runPlan ⟨⟨1, 10, 100⟩, 0.001, 0.09, 0.5⟩ 6 0 0 [⟨0, 0, .north⟩, ⟨0, 4, .north⟩, ⟨2, 4, .south⟩, ⟨2, 2, .south⟩, ⟨4, 0, .east⟩, ⟨6, 0, .east⟩] = .ok trajectories ∧
    Issues trajectories l ∧ Drive 1 10 0.001 (poseOfNode ⟨0, 0, .north⟩ 0.09) 0 q' v' l ∧ Near (3e-7 * 0.09) q' (poseOfNode ⟨6, 0, .east⟩ 0.09) := by
  have h : (Run.shortestPath 4 255 (listHeap Run.QUE_MAX) ⟨0, 0, .north⟩ (fun n => n.x == 6 && n.y == 0)
      (fun c => c.x == 1 && decide (c.y ≤ 4) || c.x == 3 && decide (2 ≤ c.y)) demoCost).toOption
      = some (some ([⟨0, 0, .north⟩, ⟨0, 4, .north⟩, ⟨2, 4, .south⟩, ⟨2, 2, .south⟩, ⟨4, 0, .east⟩, ⟨6, 0, .east⟩], 13), false) := by decide +kernel
  have h' : Run.shortestPath 4 255 (listHeap Run.QUE_MAX) ⟨0, 0, .north⟩ (fun n => n.x == 6 && n.y == 0)
      (fun c => c.x == 1 && decide (c.y ≤ 4) || c.x == 3 && decide (2 ≤ c.y)) demoCost
      = .ok (some ([⟨0, 0, .north⟩, ⟨0, 4, .north⟩, ⟨2, 4, .south⟩, ⟨2, 2, .south⟩, ⟨4, 0, .east⟩, ⟨6, 0, .east⟩], 13), false) := by
    revert h
    generalize Run.shortestPath 4 255 (listHeap Run.QUE_MAX) ⟨0, 0, .north⟩ (fun n => n.x == 6 && n.y == 0)
      (fun c => c.x == 1 && decide (c.y ≤ 4) || c.x == 3 && decide (2 ≤ c.y)) demoCost = r
    intro h
    cases r with
    | error e => cases h
    | ok o => exact congrArg Except.ok (Option.some.inj h)
  obtain ⟨-, -, hp, -⟩ := C29_path_valid 4 255 _ (listHeapLaws _) _ _ _ _ ⟨2, by norm_num, rfl⟩ (by decide) (by norm_num) _ _ _ h'
  obtain ⟨tr, l, q', v', a1, -, a3, a4, a5, -⟩ := C77_run test_settings ⟨2, by norm_num, rfl⟩ hp rfl rfl (by decide) (by decide)
  exact ⟨tr, l, q', v', a1, a3, a4, a5⟩

end Verif.Props
