import Verif.Spec.OldTargets
import Verif.Props.Driver
import Verif.Props.OldRun
import Verif.Proof.OldEmergency
/-!
# Proofs about the targets of the former fast runs
-/
namespace Verif.Proof.OldG
open Verif Verif.Control Verif.Straight Verif.Slalom Verif.Spec Verif.StraightP Verif.Driver Verif.Props Verif.Old.Targets
open Verif.Spec.Traject (Outputs Gives)
open Verif.Old.FastRun (RunState RunCommand runState)
open Verif.Run (Node SlalomKind SlalomDirection TrajectoryKind EdgeKind)

variable {c : Config}

/-! ## One move -/

/-- The poses of the converter are those of the planner. -/
theorem poseOf_eq {W : Nat} {n : Node} (hn : Legal W n) (sw fo : ℝ) : poseOf (sw / 2) fo n = poseOfNode n sw := by
  obtain ⟨x, y, p⟩ := n
  obtain ⟨-, -, ⟨h1, h2, hp⟩ | ⟨h1, hp⟩⟩ := hn
  · have : ¬ (x + y) % 2 = 1 := by simp only at *; omega
    simp only [List.mem_cons, List.not_mem_nil, or_false] at hp
    rcases hp with rfl | rfl | rfl | rfl <;> simp only [poseOf, poseOfNode, if_neg this] <;> push_cast <;> congr 1 <;> ring
  · have : (x + y) % 2 = 1 := by simp only at *; omega
    simp only [List.mem_cons, List.not_mem_nil, or_false] at hp
    rcases hp with rfl | rfl | rfl | rfl <;> simp only [poseOf, poseOfNode, if_pos this] <;> push_cast <;> congr 1 <;> ring

theorem leg_straight (n : Nat) (v : ℝ × ℝ × ℝ) : leg c (.straight n) v = runLeg c.toRunConfig (.straight n) v := rfl

theorem leg_slalom {kind : SlalomKind} (d : SlalomDirection) (hk : kind ≠ .search90) (v : ℝ × ℝ × ℝ) :
    leg c (.slalom kind d) v = runLeg c.toRunConfig (.slalom kind d) v := by
  have : parameters c.squareWidth c.frontOffset kind d = parameters c.squareWidth 0 kind d := by
    cases kind <;> first | exact absurd rfl hk | rfl
  unfold leg runLeg
  simp only [this]

/-- Where the trajectory of a move ends. -/
noncomputable def endOf (sw : ℝ) : TrajectoryKind → Detect.Pose
  | .straightDiagonal n => ⟨n * (sw * HALF_DIAGONAL), 0, 0⟩
  | t => runMove sw 0 t

theorem half_lo {n : Nat} {sw : ℝ} (hn : 1 ≤ n) (hw : 0 < sw) : 0.1564 * sw ≤ n * (sw * HALF_DIAGONAL) := by
  have : (1 : ℝ) ≤ n := by exact_mod_cast hn
  unfold HALF_DIAGONAL
  nlinarith

theorem half_near : |HALF_DIAGONAL - 1 / Real.sqrt 2| ≤ 1.2e-8 := by
  have h0 : 0 < Real.sqrt 2 := by positivity
  have e : 1 / Real.sqrt 2 = Real.sqrt 2 / 2 := by
    rw [div_eq_div_iff h0.ne' (by norm_num), one_mul, Real.mul_self_sqrt (by norm_num)]
  have h1 : (1.41421356 : ℝ) ≤ Real.sqrt 2 := by rw [Real.le_sqrt (by norm_num) (by norm_num)]; norm_num
  have h2 : Real.sqrt 2 ≤ 1.414213563 := by rw [Real.sqrt_le_left (by norm_num)]; norm_num
  rw [e, abs_le]
  unfold HALF_DIAGONAL
  constructor <;> linarith

theorem drive_leg (hc : RunOk c.toRunConfig) {t : TrajectoryKind} (ht : FastKind t) {vs vm ve : ℝ} (hs0 : 0 ≤ vs) (hs1 : vs ≤ c.gen.vMax) (hm0 : 0 < vm)
    (hm1 : vm ≤ c.gen.vMax) (he0 : 0 ≤ ve) (he1 : ve ≤ c.gen.vMax) (hsm : vs / 2 ≤ vm) (hve : ve = 0 ∨ vs / 2 ≤ ve ∧ vm / 2 ≤ ve) (hpos : 0 < vs ∨ 0 < ve) :
    (∃ l, Produces (Traj.next .real) (leg c t (vs, vm, ve)).1 l ∧
      Drive c.gen.vMax c.gen.aMax c.period origin vs (endOf c.squareWidth t) (leg c t (vs, vm, ve)).2 l ∧
      Steps (runStep c.toRunConfig) (c.gen.aMax * c.period) l) ∧
    (0 < ve → 0 < (leg c t (vs, vm, ve)).2) ∧ (leg c t (vs, vm, ve)).2 ≤ max (max vs vm) ve ∧
    (vs = vm → vm = ve → (leg c t (vs, vm, ve)).2 = ve) := by
  cases t with
  | straight n => exact leg_drive hc ht hs0 hs1 hm0 hm1 he0 he1 hsm hve hpos
  | slalom kind d => rw [leg_slalom d ht]; exact leg_drive hc ht hs0 hs1 hm0 hm1 he0 he1 hsm hve hpos
  | straightDiagonal n =>
    obtain ⟨⟨l, k1, k2, k3⟩, rest⟩ := straight_leg (vm := vm) hc hs0 hs1 he0 he1 hve hpos (n * (c.squareWidth * HALF_DIAGONAL)) (half_lo ht hc.width)
    exact ⟨⟨l, fun k => (outputs_straight .real k _).trans (k1 k), k2, k3⟩, rest⟩

theorem exact_leg (hc : RunOk c.toRunConfig) {t : TrajectoryKind} (ht : FastKind t) {vs vm ve : ℝ} (hs0 : 0 ≤ vs) (hs1 : vs ≤ c.gen.vMax) (hm0 : 0 < vm)
    (hm1 : vm ≤ c.gen.vMax) (he0 : 0 ≤ ve) (he1 : ve ≤ c.gen.vMax) :
    (∀ u, vs ≤ u → vm ≤ u → u ≤ c.gen.vMax → Roomy c.gen u 0 (0.1564 * c.squareWidth) → ve = 0 → (leg c t (vs, vm, ve)).2 = 0) ∧
    (vs = 0 → vm = ve → ve + resolution c.gen.vMax ≤ c.gen.vMax → rampDist c.gen 0 (ve + resolution c.gen.vMax) < 0.1564 * c.squareWidth →
      (leg c t (vs, vm, ve)).2 = ve) := by
  cases t with
  | straight n => exact leg_exact hc ht hs0 hs1 hm0 hm1 he0 he1
  | slalom kind d => rw [leg_slalom d ht]; exact leg_exact hc ht hs0 hs1 hm0 hm1 he0 he1
  | straightDiagonal n =>
    have hd := half_lo (sw := c.squareWidth) ht hc.width
    exact ⟨fun u h1 _ h3 h4 h5 => by subst h5; exact straight_stop hc vs _ hs0 hd u h1 h3 h4,
      fun h1 h2 h3 h4 => by subst h1 h2; exact straight_up hc _ hd vm hm0 hm1 h3 h4⟩

theorem diagonal_short {W : Nat} {n m : Node} {k : EdgeKind} {j : Nat} (hn : Legal W n) (hm : Legal W m) (hL : Leads n k m (.straightDiagonal j)) :
    (j : Int) < 2 * W := by
  obtain ⟨f, s, fin, head, cr, hF, hS, hx, hy, -, ht⟩ := hL
  obtain ⟨x, y, p⟩ := n
  obtain ⟨h1, h2, hp⟩ := hn
  obtain ⟨m1, m2, -⟩ := hm
  unfold Shape at hS
  unfold Frame at hF
  simp only at *
  by_cases hc : x % 2 = 0 ∧ y % 2 = 0
  · rw [if_pos hc] at hS
    cases hS <;> simp [trajOf] at ht
  · rw [if_neg hc] at hS hF
    have hp' : p = .northEast ∨ p = .southEast ∨ p = .southWest ∨ p = .northWest := by
      rcases hp with ⟨a, b, -⟩ | ⟨-, hp⟩
      · exact absurd ⟨a, b⟩ hc
      · simpa using hp
    cases hS with
    | straightDiagonal n hn =>
      simp only [trajOf, Option.some.injEq, TrajectoryKind.straightDiagonal.injEq] at ht
      subst ht
      split at hF <;> obtain ⟨rfl, rfl⟩ := hF <;> rcases hp' with rfl | rfl | rfl | rfl <;> simp [inFrame, heading] at hx hy <;> omega
    | _ => simp [trajOf] at ht

/-- A move of the planner ends at its end. -/
theorem leg_ends {W : Nat} (hW : Supported W) {n m : Node} {k : EdgeKind} {t : TrajectoryKind} (hn : Legal W n) (hm : Legal W m) (hL : Leads n k m t)
    {sw : ℝ} (hsw : 0 < sw) : Near (1e-6 * sw) (compose (poseOfNode n sw) (endOf sw t)) (poseOfNode m sw) := by
  have hk : n.trajectoryKind m = .ok (some t) := by
    obtain ⟨o, ho, hiff⟩ := C28_trajectory_exact W (by have := hW.le; omega) n m hn hm
    rw [ho, (hiff t).2 ⟨k, hL⟩]
  obtain ⟨a, b, cc⟩ := C32_trajectory_ends_at_node W (by have := hW.le; omega) n m hn hm t hk sw 0 hsw.le
  have hms : moveSlack sw t ≤ 1e-6 * sw := by cases t <;> simp only [moveSlack] <;> linarith
  cases t with
  | straight j => exact ⟨a.trans hms, b.trans hms, cc⟩
  | slalom kind d => exact ⟨a.trans hms, b.trans hms, cc⟩
  | straightDiagonal j =>
    have hj := diagonal_short hn hm hL
    have hj' : (j : ℝ) ≤ 64 := by have := hW.le; exact_mod_cast (by omega : j ≤ 64)
    have hj0 : (0 : ℝ) ≤ j := by positivity
    have hd : |(j : ℝ) * (sw * HALF_DIAGONAL) - j * sw / Real.sqrt 2| ≤ 1e-6 * sw := by
      have e : (j : ℝ) * (sw * HALF_DIAGONAL) - j * sw / Real.sqrt 2 = (j * sw) * (HALF_DIAGONAL - 1 / Real.sqrt 2) := by ring
      rw [e, abs_mul, abs_of_nonneg (by positivity)]
      have := mul_le_mul_of_nonneg_left half_near (by positivity : 0 ≤ (j : ℝ) * sw)
      nlinarith
    simp only [moveSlack] at a b
    have a0 := abs_nonpos_iff.1 a
    have b0 := abs_nonpos_iff.1 b
    have h1 := Real.abs_cos_le_one (poseOfNode n sw).theta
    have h2 := Real.abs_sin_le_one (poseOfNode n sw).theta
    simp only [compose, place, rotate, runMove, endOf] at a0 b0 cc ⊢
    refine ⟨?_, ?_, cc⟩
    · have e : (j : ℝ) * (sw * HALF_DIAGONAL) * Real.cos (poseOfNode n sw).theta - 0 * Real.sin (poseOfNode n sw).theta + (poseOfNode n sw).x - (poseOfNode m sw).x =
          (j * (sw * HALF_DIAGONAL) - j * sw / Real.sqrt 2) * Real.cos (poseOfNode n sw).theta := by linarith
      rw [e, abs_mul]
      nlinarith [abs_nonneg ((j : ℝ) * (sw * HALF_DIAGONAL) - j * sw / Real.sqrt 2)]
    · have e : (j : ℝ) * (sw * HALF_DIAGONAL) * Real.sin (poseOfNode n sw).theta + 0 * Real.cos (poseOfNode n sw).theta + (poseOfNode n sw).y - (poseOfNode m sw).y =
          (j * (sw * HALF_DIAGONAL) - j * sw / Real.sqrt 2) * Real.sin (poseOfNode n sw).theta := by linarith
      rw [e, abs_mul]
      nlinarith [abs_nonneg ((j : ℝ) * (sw * HALF_DIAGONAL) - j * sw / Real.sqrt 2)]

/-! ## The targets of one trajectory and of all -/

theorem outputs_of {q : Detect.Pose} {l : List Target} : ∀ {traj : Traj}, Produces (Traj.next .real) traj l →
    Outputs (step .real) (q, traj) (l.map (shift .real q)) none := by
  induction l with
  | nil =>
    intro traj h
    refine .over _ ?_
    unfold step shiftNext
    dsimp only
    rw [produces_nil h]
    rfl
  | cons x l ih =>
    intro traj h
    obtain ⟨e, h'⟩ := produces_cons h
    refine .more _ _ (q, (Traj.next .real traj).2) _ _ ?_ (ih h')
    unfold step shiftNext
    dsimp only
    rw [e]
    rfl

/-- The commands for a path from its move number `i` on. -/
inductive Moves (W : Nat) (isWall : Search.Coord → Bool) (len : Nat) : Nat → List Node → List RunCommand → Prop
  | last (i : Nat) (n : Node) : Moves W isWall len i [n] []
  | cons (i : Nat) (n m : Node) (path : List Node) (k : EdgeKind) (t : TrajectoryKind) (cs : List RunCommand) : Drivable W isWall n k m →
    Leads n k m t → Moves W isWall len (i + 1) (m :: path) cs → Moves W isWall len i (n :: m :: path) (⟨n, t, runState i len⟩ :: cs)

/-- The run from move number `i` on, reached with speed `v` and started with speed `s`. -/
def Ride (c : Config) (v s : ℝ) (path : List Node) (cs : List RunCommand) (l : List Target) (v' : ℝ) : Prop :=
  Gives (step .real) (trajectories c v cs) l [] ∧ (∀ t ∈ trajectories c v cs, ∃ y l', Outputs (step .real) t (y :: l') none) ∧
    (∃ start goal q', path.head? = some start ∧ path.getLast? = some goal ∧ Near (1e-6 * c.squareWidth) q' (poseOfNode goal c.squareWidth) ∧
      Drive c.gen.vMax c.gen.aMax c.period (poseOfNode start c.squareWidth) s q' v' l) ∧
    Visits c.squareWidth l path.dropLast

/-- The speeds of a command. -/
noncomputable abbrev speeds (c : Config) (i len : Nat) (v : ℝ) : ℝ × ℝ × ℝ := velocities (runState i len) v c.slalomVelocity

theorem speeds_eq (i len : Nat) (v : ℝ) : speeds c i len v = runVelocities i len v c.slalomVelocity := by
  unfold speeds runVelocities runState
  split
  · rfl
  split
  · rfl
  split
  · rfl
  · rfl

theorem trajectories_cons {W : Nat} {n : Node} (hn : Legal W n) (v : ℝ) (t : TrajectoryKind) (st : RunState) (cs : List RunCommand) :
    trajectories c v (⟨n, t, st⟩ :: cs) = (poseOfNode n c.squareWidth, (leg c t (velocities st v c.slalomVelocity)).1) ::
      trajectories c (leg c t (velocities st v c.slalomVelocity)).2 cs := by
  rw [trajectories]
  simp only [generate, convert, poseOf_eq hn]

/-- The last move. -/
theorem ride_last (hc : RunOk c.toRunConfig) {W len i : Nat} (hW : Supported W) {n m : Node} {k : EdgeKind} {t : TrajectoryKind} (hn : Legal W n)
    (hm : Legal W m) (hL : Leads n k m t) {v : ℝ} (A : Admissible c.toRunConfig (speeds c i len v)) :
    ∃ l, Ride c v (speeds c i len v).1 [n, m] [⟨n, t, runState i len⟩] l (leg c t (speeds c i len v)).2 ∧
      Steps (runStep c.toRunConfig) (c.gen.aMax * c.period) l := by
  obtain ⟨⟨l, k1, k2, k3⟩, -⟩ := drive_leg hc (leads_fast hL) A.s0 A.s1 A.m0 A.m1 A.e0 A.e1 A.sm A.ve A.pos
  have hN := leg_ends hW hn hm hL hc.width
  obtain ⟨x, hx, -⟩ := k2.first
  have D := drive_at k2 (poseOfNode n c.squareWidth)
  rw [compose_origin] at D
  obtain ⟨y, hy, ya, -⟩ := D.first
  have o := outputs_of (q := poseOfNode n c.squareWidth) k1
  refine ⟨l.map (shift .real (poseOfNode n c.squareWidth)), ⟨?_, ?_, ⟨n, m, _, rfl, rfl, hN, D⟩, [y], ?_, ?_⟩, Steps.shift k3 _⟩
  · rw [trajectories_cons hn]
    have := Gives.over _ _ _ _ _ o Gives.nil
    rwa [List.append_nil] at this
  · rw [trajectories_cons hn]
    intro t ht
    rw [trajectories, List.mem_singleton] at ht
    rw [ht]
    cases l with
    | nil => cases hx
    | cons z l => exact ⟨_, _, o⟩
  · rw [List.singleton_sublist]
    exact List.mem_of_mem_head? hy
  · exact .cons ya .nil

/-- A move before others. -/
theorem ride_cons (hc : RunOk c.toRunConfig) {W len i : Nat} (hW : Supported W) {n m : Node} {k : EdgeKind} {t : TrajectoryKind} {path : List Node}
    {cs : List RunCommand} (hn : Legal W n) (hm : Legal W m) (hL : Leads n k m t) {v : ℝ} (A : Admissible c.toRunConfig (speeds c i len v)) {l' : List Target} {s v' : ℝ}
    (hr : Ride c (leg c t (speeds c i len v)).2 s (m :: path) cs l' v') :
    ∃ l, Ride c v (speeds c i len v).1 (n :: m :: path) (⟨n, t, runState i len⟩ :: cs) (l ++ l') v' ∧
      Steps (runStep c.toRunConfig) (c.gen.aMax * c.period) l ∧ l ≠ [] ∧
      (∀ x ∈ l.getLast?, ∀ x' ∈ l'.head?, gap x x' ≤ runStep c.toRunConfig ∧
        |(body x').1 - (body x).1| ≤ c.gen.aMax * c.period + |s - (leg c t (speeds c i len v)).2|) := by
  obtain ⟨⟨l, k1, k2, k3⟩, -⟩ := drive_leg hc (leads_fast hL) A.s0 A.s1 A.m0 A.m1 A.e0 A.e1 A.sm A.ve A.pos
  have hN := leg_ends hW hn hm hL hc.width
  obtain ⟨r1, r2, ⟨st, goal, q', g1, g2, g3, g4⟩, ts, u1, u2⟩ := hr
  obtain ⟨x, hx, -⟩ := k2.first
  have D := drive_at k2 (poseOfNode n c.squareWidth)
  rw [compose_origin] at D
  obtain ⟨y, hy, ya, -⟩ := D.first
  have o := outputs_of (q := poseOfNode n c.squareWidth) k1
  have D2 := Drive.append (m := []) D g4 (by simp)
  rw [List.append_nil] at D2
  cases g1
  refine ⟨l.map (shift .real (poseOfNode n c.squareWidth)), ⟨?_, ?_, ⟨n, goal, _, rfl, ?_, g3, D2⟩, y :: ts, ?_, ?_⟩, Steps.shift k3 _, ?_, ?_⟩
  · rw [trajectories_cons hn]
    exact Gives.over _ _ _ _ _ o r1
  · rw [trajectories_cons hn]
    intro t ht
    rcases List.mem_cons.1 ht with rfl | ht
    · cases l with
      | nil => cases hx
      | cons z l => exact ⟨_, _, o⟩
    · exact r2 t ht
  · rw [List.getLast?_cons_cons]; exact g2
  · have := List.Sublist.append (List.singleton_sublist.2 (List.mem_of_mem_head? hy)) u1
    simpa using this
  · rw [List.dropLast_cons_of_ne_nil (by simp)]
    exact .cons ya u2
  · rintro e
    rw [e] at hy
    cases hy
  · intro a ha b hb
    obtain ⟨z, hz, ⟨z1, z2, -⟩, zb⟩ := g4.first
    rw [hz] at hb
    cases hb
    obtain ⟨t0, s0, u, h1, h2, h3, h4, h5, h6, h7⟩ := D.last
    obtain ⟨n1, n2, -⟩ := hN
    constructor
    · have hw := hc.width
      have vp : 0 < c.gen.vMax * c.period := mul_pos hc.v hc.period
      have hJ : 0 ≤ c.gen.vMax * rampTime c.gen.aMax c.gen.jMax (resolution c.gen.vMax) :=
        mul_nonneg hc.v.le (rampTime_nonneg hc.a hc.j (resolution_nonneg hc.v.le))
      refine (Drive.last_gap' D ha (3 / 2 * (1e-6 * c.squareWidth)) ?_).trans ?_
      · rw [z1, z2]
        refine hypot_le ?_ ?_
        · rw [abs_sub_comm]; exact n1
        · rw [abs_sub_comm]; exact n2
      · unfold runStep
        linarith
    · rw [h1] at ha
      cases ha
      rw [zb, h6]
      dsimp only
      calc |s - u| = |(s - (leg c t (speeds c i len v)).2) + ((leg c t (speeds c i len v)).2 - u)| := by ring_nf
        _ ≤ |s - (leg c t (speeds c i len v)).2| + |(leg c t (speeds c i len v)).2 - u| := abs_add_le _ _
        _ ≤ _ := by rw [abs_sub_comm _ u]; linarith

/-- From the third move on. -/
theorem tail_run (hc : RunOk c.toRunConfig) {W len : Nat} (hW : Supported W) {isWall : Search.Coord → Bool} : ∀ (path : List Node) (n m : Node)
    (cs : List RunCommand) (i : Nat) (v : ℝ), Moves W isWall len i (n :: m :: path) cs → Legal W n → 2 ≤ i → i + path.length + 2 = len → 0 < v → v ≤ c.slalomVelocity →
    ∃ l v', Ride c v (if i + 3 < len then c.slalomVelocity else v) (n :: m :: path) cs l v' ∧ Steps (runStep c.toRunConfig) (c.gen.aMax * c.period) l ∧
      (Roomy c.gen c.slalomVelocity 0 (0.1564 * c.squareWidth) → v' = 0) := by
  have hr0 := hc.run0
  have hr1 := hc.run1
  intro path
  induction path with
  | nil =>
    intro n m cs i v hp hn hi hlen hv0 hv1
    obtain _ | ⟨_, _, _, _, kind, t, cs, hd, hL, hp'⟩ := hp
    obtain _ | _ := hp'
    have hm := drivable_legal hn kind m hd
    have e : speeds c i len v = (v, v * 0.6666667, 0) := by
      rw [speeds_eq]
      unfold runVelocities
      rw [if_neg (by omega), if_pos (by simpa using hlen)]
    have A : Admissible c.toRunConfig (speeds c i len v) := by
      rw [e]; constructor <;> dsimp only <;> first | exact .inl rfl | exact .inl hv0 | linarith
    obtain ⟨l, hR, hS⟩ := ride_last hc hW hn hm hL A
    rw [e] at hR
    refine ⟨l, _, by rw [if_neg (by simp at hlen; omega)]; exact hR, hS, fun hro => ?_⟩
    exact (exact_leg hc (leads_fast hL) hv0.le (hv1.trans hr1) (by linarith) (by linarith) le_rfl hc.v.le).1 _ hv1 (by linarith) hr1 hro rfl
  | cons x path ih =>
    intro n m cs i v hp hn hi hlen hv0 hv1
    obtain _ | ⟨_, _, _, _, kind, t, cs, hd, hL, hp'⟩ := hp
    rw [List.length_cons] at hlen
    have hm := drivable_legal hn kind m hd
    have hF := leads_fast hL
    by_cases h3 : i + 3 < len
    · have e : speeds c i len v = (c.slalomVelocity, c.slalomVelocity, c.slalomVelocity) := by
        rw [speeds_eq]
        unfold runVelocities
        rw [if_neg (by omega), if_neg (by omega), if_neg (by omega)]
      have A : Admissible c.toRunConfig (speeds c i len v) := by
        rw [e]; constructor <;> dsimp only <;> first | exact .inr ⟨by linarith, by linarith⟩ | exact .inl hr0 | linarith
      have hT := (drive_leg hc hF A.s0 A.s1 A.m0 A.m1 A.e0 A.e1 A.sm A.ve A.pos).2.2.2 (by rw [e]) (by rw [e])
      have hT' : (leg c t (speeds c i len v)).2 = c.slalomVelocity := by rw [e] at hT ⊢; exact hT
      obtain ⟨l', v', r1, r2, r3⟩ := ih m x cs (i + 1) c.slalomVelocity hp' hm (by omega) (by omega) hr0 le_rfl
      rw [ite_self] at r1
      obtain ⟨l, hR, hS, -, hJ⟩ := ride_cons hc hW hn hm hL A (by rw [hT']; exact r1)
      rw [hT'] at hJ
      refine ⟨l ++ l', v', by rw [if_pos h3]; rw [e] at hR; exact hR, Steps.append hS r2 fun x hx y hy => ?_, r3⟩
      have := hJ x hx y hy
      rw [sub_self, abs_zero, add_zero] at this
      exact this
    · have e : speeds c i len v = (v, v * 0.5, v * 0.5) := by
        rw [speeds_eq]
        unfold runVelocities
        rw [if_neg (by omega), if_neg (by omega), if_pos (by omega)]
      have A : Admissible c.toRunConfig (speeds c i len v) := by
        rw [e]; constructor <;> dsimp only <;> first | exact .inr ⟨by linarith, by linarith⟩ | exact .inl hv0 | linarith
      obtain ⟨-, hT0, hT1, -⟩ := drive_leg hc hF A.s0 A.s1 A.m0 A.m1 A.e0 A.e1 A.sm A.ve A.pos
      have hT0' : 0 < (leg c t (speeds c i len v)).2 := hT0 (by rw [e]; dsimp only; linarith)
      have hT1' : (leg c t (speeds c i len v)).2 ≤ c.slalomVelocity := by
        refine le_trans hT1 ?_
        rw [e]
        exact max_le (max_le hv1 (by linarith)) (by linarith)
      obtain ⟨l', v', r1, r2, r3⟩ := ih m x cs (i + 1) _ hp' hm (by omega) (by omega) hT0' hT1'
      rw [if_neg (by omega)] at r1
      obtain ⟨l, hR, hS, -, hJ⟩ := ride_cons hc hW hn hm hL A r1
      refine ⟨l ++ l', v', by rw [if_neg h3]; rw [e] at hR; exact hR, Steps.append hS r2 fun x hx y hy => ?_, r3⟩
      have := hJ x hx y hy
      rw [sub_self, abs_zero, add_zero] at this
      exact this

theorem ride_ne {v s v' : ℝ} {path : List Node} {cs : List RunCommand} {l : List Target} (h : Ride c v s path cs l v') : l ≠ [] := by
  obtain ⟨_, _, ⟨_, _, _, _, _, _, D⟩, _⟩ := h
  obtain ⟨t, ht, -⟩ := D.first
  rintro rfl
  cases ht

/-- From the second move on. -/
theorem second_run (hc : RunOk c.toRunConfig) {W len : Nat} (hW : Supported W) {isWall : Search.Coord → Bool} (path : List Node) (n m : Node)
    (cs : List RunCommand) (v : ℝ) (hp : Moves W isWall len 1 (n :: m :: path) cs) (hn : Legal W n) (hlen : path.length + 3 = len) (hv0 : 0 < v) (hv1 : v ≤ c.slalomVelocity) :
    ∃ l v', Ride c v v (n :: m :: path) cs l v' ∧ Ragged c.toRunConfig c.slalomVelocity l ∧
      (len ≤ 5 ∨ v = c.slalomVelocity → Steps (runStep c.toRunConfig) (c.gen.aMax * c.period) l) ∧
      (4 ≤ len → Roomy c.gen c.slalomVelocity 0 (0.1564 * c.squareWidth) → v' = 0) ∧ (len ≤ 3 → 0 < v') := by
  have hr0 := hc.run0
  have hr1 := hc.run1
  obtain _ | ⟨_, _, _, _, kind, t, cs, hd, hL, hp'⟩ := hp
  have hm := drivable_legal hn kind m hd
  have hF := leads_fast hL
  have e : speeds c 1 len v = (v, c.slalomVelocity, c.slalomVelocity) := by
    rw [speeds_eq]
    unfold runVelocities
    rw [if_pos le_rfl]
  have A : Admissible c.toRunConfig (speeds c 1 len v) := by
    rw [e]; constructor <;> dsimp only <;> first | exact .inr ⟨by linarith, by linarith⟩ | exact .inl hv0 | linarith
  obtain ⟨-, hT0, hT1, hT2⟩ := drive_leg hc hF A.s0 A.s1 A.m0 A.m1 A.e0 A.e1 A.sm A.ve A.pos
  have hT0' : 0 < (leg c t (speeds c 1 len v)).2 := hT0 (by rw [e]; exact hr0)
  have hT1' : (leg c t (speeds c 1 len v)).2 ≤ c.slalomVelocity := by
    refine le_trans hT1 ?_
    rw [e]
    exact max_le (max_le hv1 le_rfl) le_rfl
  have hT2' : v = c.slalomVelocity → (leg c t (speeds c 1 len v)).2 = c.slalomVelocity := fun h => by
    have := hT2 (by rw [e]; exact h) (by rw [e])
    refine this.trans ?_
    rw [e]
  cases path with
  | nil =>
    obtain _ | _ := hp'
    obtain ⟨l, hR, hS⟩ := ride_last hc hW hn hm hL A
    refine ⟨l, _, by rw [e] at hR; exact hR, ragged_steps hr0.le (ride_ne hR) hS, fun _ => hS, fun h => by simp at hlen; omega, fun _ => by rw [e] at hT0'; exact hT0'⟩
  | cons x path =>
    rw [List.length_cons] at hlen
    obtain ⟨l', v', r1, r2, r3⟩ := tail_run (len := len) hc hW path m x cs (1 + 1) _ hp' hm le_rfl (by omega) hT0' hT1'
    obtain ⟨l, hR, hS, hne, hJ⟩ := ride_cons hc hW hn hm hL A r1
    have hs : (len ≤ 5 ∨ v = c.slalomVelocity) → (if 1 + 1 + 3 < len then c.slalomVelocity else (leg c t (speeds c 1 len v)).2) = (leg c t (speeds c 1 len v)).2 := by
      rintro (h | h)
      · rw [if_neg (by omega)]
      · rw [hT2' h, ite_self]
    refine ⟨l ++ l', v', by rw [e] at hR; exact hR, ⟨Steps.append (Steps.mono hS le_rfl (by linarith)) (Steps.mono r2 le_rfl (by linarith)) fun x hx y hy => ?_,
      l, l', rfl, hne, hS, r2⟩, fun hh => Steps.append hS r2 fun x hx y hy => ?_, fun _ => r3, fun h => by omega⟩
    · obtain ⟨j1, j2⟩ := hJ x hx y hy
      refine ⟨j1, j2.trans (add_le_add le_rfl ?_)⟩
      split
      · rw [abs_of_nonneg (by linarith)]; linarith
      · rw [sub_self, abs_zero]; exact hr0.le
    · have := hJ x hx y hy
      rw [hs hh, sub_self, abs_zero, add_zero] at this
      exact this

/-- The whole run. -/
theorem whole_run (hc : RunOk c.toRunConfig) {W : Nat} (hW : Supported W) {isWall : Search.Coord → Bool} {path : List Node} {cs : List RunCommand}
    (hp : Moves W isWall path.length 0 path cs) {start : Node} (hs : path.head? = some start) (hn : Legal W start) (h2 : 2 ≤ path.length) :
    ∃ l v', Ride c 0 0 path cs l v' ∧ Ragged c.toRunConfig c.slalomVelocity l ∧
      (path.length ≤ 5 ∨ c.slalomVelocity + resolution c.gen.vMax ≤ c.gen.vMax ∧
          rampDist c.gen 0 (c.slalomVelocity + resolution c.gen.vMax) < 0.1564 * c.squareWidth →
        Steps (runStep c.toRunConfig) (c.gen.aMax * c.period) l) ∧
      (4 ≤ path.length → Roomy c.gen c.slalomVelocity 0 (0.1564 * c.squareWidth) → v' = 0) ∧ (path.length ≤ 3 → 0 < v') := by
  have hr0 := hc.run0
  have hr1 := hc.run1
  generalize hlen : path.length = len at *
  obtain _ | ⟨_, n, m, rest, kind, t, cs, hd, hL, hp'⟩ := hp
  · simp at hlen; omega
  cases hs
  have hm := drivable_legal hn kind m hd
  have hF := leads_fast hL
  have e : speeds c 0 len 0 = (0, c.slalomVelocity, c.slalomVelocity) := rfl
  have A : Admissible c.toRunConfig (speeds c 0 len 0) := by
    rw [e]; constructor <;> dsimp only <;> first | exact .inr ⟨by linarith, by linarith⟩ | exact .inr hr0 | linarith [hc.v]
  obtain ⟨-, hT0, hT1, -⟩ := drive_leg hc hF A.s0 A.s1 A.m0 A.m1 A.e0 A.e1 A.sm A.ve A.pos
  have hT0' : 0 < (leg c t (speeds c 0 len 0)).2 := hT0 hr0
  have hT1' : (leg c t (speeds c 0 len 0)).2 ≤ c.slalomVelocity := le_trans hT1 (max_le (max_le hr0.le le_rfl) le_rfl)
  cases rest with
  | nil =>
    obtain _ | _ := hp'
    obtain ⟨l, hR, hS⟩ := ride_last (i := 0) (len := len) hc hW hn hm hL A
    exact ⟨l, _, hR, ragged_steps hr0.le (ride_ne hR) hS, fun _ => hS, fun h => by simp at hlen; omega, fun _ => hT0'⟩
  | cons x rest =>
    simp only [List.length_cons] at hlen
    obtain ⟨l', v', r1, ⟨s1, l1, l2, s2, s3, s4, s5⟩, e3, hro⟩ := second_run (len := len) hc hW rest m x cs _ hp' hm (by omega) hT0' hT1'
    obtain ⟨l, hR, hS, hne, hJ⟩ := ride_cons hc hW hn hm hL A r1
    have joint (α : ℝ) (l'' : List Target) (hα : c.gen.aMax * c.period ≤ α) (hh : l''.head? = l'.head?) (h'' : Steps (runStep c.toRunConfig) α l'') :
        Steps (runStep c.toRunConfig) α (l ++ l'') := by
      refine Steps.append (Steps.mono hS le_rfl hα) h'' fun x hx y hy => ?_
      have := hJ x hx y (by rwa [← hh])
      rw [sub_self, abs_zero, add_zero] at this
      exact ⟨this.1, this.2.trans hα⟩
    refine ⟨l ++ l', v', hR, ⟨joint _ l' (by linarith) rfl s1, l ++ l1, l2, by rw [s2, List.append_assoc], by simp [hne], ?_, s5⟩, fun hh => ?_, hro⟩
    · refine joint _ l1 le_rfl ?_ s4
      rw [s2]
      cases l1 with
      | nil => exact absurd rfl s3
      | cons => rfl
    · refine joint _ l' le_rfl rfl (e3 ?_)
      rcases hh with hh | ⟨h1, h2⟩
      · exact .inl hh
      · exact .inr ((exact_leg hc hF le_rfl hc.v.le hr0 hr1 hr0.le hr1).2 rfl rfl h1 h2)

end Verif.Proof.OldG
