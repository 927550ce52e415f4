import Verif.Spec.OldHunt
import Verif.Props.SearchDriver
import Verif.Proof.OldSearchNode
import Verif.Proof.OldTargets
/-!
# Proofs about the targets of the former search runs
-/
namespace Verif.Proof.OldH
open Verif Verif.Control Verif.Straight Verif.Slalom Verif.Spec Verif.StraightP Verif.SlalomP Verif.Props Verif.Old Verif.Old.Hunt Verif.SearchDriver
open Verif.Spec.Traject (Outputs Gives)
open Verif.Run (Node Posture SlalomDirection)

variable {c : Hunt.Config} {W : Nat} {isWall : Search.Coord → Bool} {n m : Node}

/-! ## Poses -/

theorem cell_axis (h : CellPose W n) : n.posture ∈ [Posture.north, .east, .south, .west] := by
  obtain ⟨⟨-, -, ⟨-, -, h⟩ | ⟨h, -⟩⟩, h1, h2⟩ := h
  · simp only [List.mem_cons, List.not_mem_nil, or_false] at h ⊢
    tauto
  · omega

/-- The converter gives the pose of a node in a cell or at a wall. -/
theorem poseOf_standing (h : CellPose W n ∨ SearchLegal W n) (sw fo : ℝ) : Targets.poseOf (sw / 2) fo n = standing sw fo n := by
  have ha : n.posture ∈ [Posture.north, .east, .south, .west] := h.elim cell_axis OldS.axis
  have hp : ((n.x + n.y) % 2 = 1 ∧ ¬ (n.x % 2 = 0 ∧ n.y % 2 = 0)) ∨ (¬ (n.x + n.y) % 2 = 1 ∧ (n.x % 2 = 0 ∧ n.y % 2 = 0)) := by
    rcases h with ⟨-, h1, h2⟩ | ⟨-, -, h⟩
    · omega
    · omega
  obtain ⟨x, y, p⟩ := n
  simp only [List.mem_cons, List.not_mem_nil, or_false] at ha hp
  rcases hp with ⟨h1, h2⟩ | ⟨h1, h2⟩ <;> rcases ha with rfl | rfl | rfl | rfl <;>
    simp [Targets.poseOf, standing, h1, h2, toward, deg0, deg90, deg180, degN]

/-- Where the trajectory of a command ends, seen from its start. -/
noncomputable def endOf (c : Hunt.Config) : SearchKind → Detect.Pose
  | .init => ⟨c.squareWidth / 2 + c.frontOffset, 0, 0⟩
  | .final => ⟨c.squareWidth / 2 - c.frontOffset, 0, 0⟩
  | .front => searchMove c.squareWidth c.frontOffset .front
  | .right => searchMove c.squareWidth c.frontOffset .right
  | .left => searchMove c.squareWidth c.frontOffset .left
  | .back => searchMove c.squareWidth c.frontOffset .back

/-- The node of a command is where it can begin. -/
def Begins (W : Nat) (n : Node) (k : SearchKind) : Prop := if k = .init then CellPose W n else SearchLegal W n

theorem open_parity (h : OpenPose W isWall m) : m.x < 2 * W ∧ m.y < 2 * W ∧ (m.x + m.y) % 2 = 1 := by
  obtain ⟨⟨cx, cy⟩, h1, h2, h3, -⟩ := h
  unfold Valid at h3
  simp only [Int.add_zero] at h1 h2 h3
  omega

/-- A command leads to a search pose, or, the last, into a cell. -/
theorem leads_legal {k : SearchKind} (hb : Begins W n k) (h : CommandLeads W isWall n k m) :
    if k = .final then CellPose W m else SearchLegal W m := by
  unfold Begins at hb
  cases k with
  | init =>
    obtain ⟨⟨h1, h2, h3⟩, h4⟩ := h
    obtain ⟨a1, a2, a3⟩ := open_parity h4
    have ha := cell_axis hb
    obtain ⟨-, b1, b2⟩ := hb
    obtain ⟨x, y, p⟩ := n
    obtain ⟨x', y', p'⟩ := m
    simp only [List.mem_cons, List.not_mem_nil, or_false] at ha
    simp only at *
    subst h3
    refine ⟨a1, a2, ?_⟩
    rcases ha with rfl | rfl | rfl | rfl <;> simp [heading] at h1 h2 ⊢ <;> omega
  | final => exact h.2
  | front => exact OldS.turns_legal hb h.1 (open_parity h.2).1 (open_parity h.2).2.1
  | right => exact OldS.turns_legal hb h.1 (open_parity h.2).1 (open_parity h.2).2.1
  | left => exact OldS.turns_legal hb h.1 (open_parity h.2).1 (open_parity h.2).2.1
  | back => exact OldS.turns_legal hb h.1 (open_parity h.2).1 (open_parity h.2).2.1

/-- By how much a command changes the position. -/
def delta (p : Posture) : SearchKind → V
  | .init | .final => heading p
  | .front => (2 * (heading p).1, 2 * (heading p).2)
  | .right => ((heading p).1 + (rightOf (heading p)).1, (heading p).2 + (rightOf (heading p)).2)
  | .left => ((heading p).1 - (rightOf (heading p)).1, (heading p).2 - (rightOf (heading p)).2)
  | .back => (0, 0)

/-- The heading after a command. -/
def after (p : Posture) : SearchKind → V
  | .init | .final | .front => heading p
  | .right => rightOf (heading p)
  | .left => (-(rightOf (heading p)).1, -(rightOf (heading p)).2)
  | .back => (-(heading p).1, -(heading p).2)

theorem leads_delta {k : SearchKind} (h : CommandLeads W isWall n k m) :
    (m.x : ℤ) = n.x + (delta n.posture k).1 ∧ (m.y : ℤ) = n.y + (delta n.posture k).2 ∧ heading m.posture = after n.posture k := by
  cases k with
  | init => exact ⟨h.1.1, h.1.2.1, congrArg heading h.1.2.2⟩
  | final => exact ⟨h.1.1, h.1.2.1, congrArg heading h.1.2.2⟩
  | front => exact h.1
  | right => obtain ⟨⟨h1, h2, h3⟩, -⟩ := h; refine ⟨?_, ?_, h3⟩ <;> simp only [delta] <;> linarith
  | left => obtain ⟨⟨h1, h2, h3⟩, -⟩ := h; refine ⟨?_, ?_, h3⟩ <;> simp only [delta] <;> linarith
  | back => obtain ⟨⟨h1, h2, h3⟩, -⟩ := h; refine ⟨?_, ?_, h3⟩ <;> simp only [delta] <;> linarith

set_option maxHeartbeats 1600000 in
/-- A command ends at the pose it leads to. -/
theorem leads_near {k : SearchKind} (hsw : 0 ≤ c.squareWidth) (hnom : c.squareWidth = 0.09 ∨ c.frontOffset = 0) (hb : Begins W n k)
    (h : CommandLeads W isWall n k m) :
    Near (6e-9 * c.squareWidth) (compose (standing c.squareWidth c.frontOffset n) (endOf c k)) (standing c.squareWidth c.frontOffset m) := by
  have hl := leads_legal hb h
  have hn : ¬ k = .init → ¬ (n.x % 2 = 0 ∧ n.y % 2 = 0) := by
    intro hk
    rw [Begins, if_neg hk] at hb
    obtain ⟨-, -, hb⟩ := hb
    omega
  have hm : ¬ k = .final → ¬ (m.x % 2 = 0 ∧ m.y % 2 = 0) := by
    intro hk
    rw [if_neg hk] at hl
    obtain ⟨-, -, hl⟩ := hl
    omega
  have ha : n.posture ∈ [Posture.north, .east, .south, .west] := by
    unfold Begins at hb
    split at hb
    · exact cell_axis hb
    · exact OldS.axis hb
  have ha' : m.posture ∈ [Posture.north, .east, .south, .west] := by
    split at hl
    · exact cell_axis hl
    · exact OldS.axis hl
  obtain ⟨lx, ly, lt⟩ := search_end c.squareWidth c.frontOffset hsw .left
  obtain ⟨rx, ry, rt⟩ := search_end c.squareWidth c.frontOffset hsw .right
  have hfo : c.frontOffset * (c.squareWidth / 0.09) = c.frontOffset := by
    rcases hnom with h | h <;> rw [h] <;> norm_num
  rw [hfo] at lx ly rx ry
  simp only [sd, abs_le] at ly ry lt rt
  have small : 0 ≤ 6e-9 * c.squareWidth := by positivity
  have hcell : k = .init → (n.x % 2 = 0 ∧ n.y % 2 = 0) := by
    rintro rfl
    exact hb.2
  have hcell' : k = .final → (m.x % 2 = 0 ∧ m.y % 2 = 0) := by
    rintro rfl
    exact hl.2
  have hA : (if n.x % 2 = 0 ∧ n.y % 2 = 0 then 0 else c.frontOffset) = if k = .init then 0 else c.frontOffset := by
    by_cases hk : k = .init
    · rw [if_pos hk, if_pos (hcell hk)]
    · rw [if_neg hk, if_neg (hn hk)]
  have hB : (if m.x % 2 = 0 ∧ m.y % 2 = 0 then 0 else c.frontOffset) = if k = .final then 0 else c.frontOffset := by
    by_cases hk : k = .final
    · rw [if_pos hk, if_pos (hcell' hk)]
    · rw [if_neg hk, if_neg (hm hk)]
  obtain ⟨e1, e2, e3⟩ := leads_delta h
  unfold standing
  rw [hA, hB]
  clear hl hb h hA hB hn hm hcell hcell'
  obtain ⟨x, y, p⟩ := n
  obtain ⟨x', y', p'⟩ := m
  simp only at *
  have f1 : (x' : ℝ) = x + (((delta p k).1 : ℤ) : ℝ) := by exact_mod_cast e1
  have f2 : (y' : ℝ) = y + (((delta p k).2 : ℤ) : ℝ) := by exact_mod_cast e2
  clear e1 e2
  simp only [List.mem_cons, List.not_mem_nil, or_false] at ha ha'
  cases k <;> rcases ha with rfl | rfl | rfl | rfl <;> rcases ha' with rfl | rfl | rfl | rfl <;> simp [after, heading, rightOf] at e3 <;>
    simp [delta, heading, rightOf, -Nat.cast_inj] at f1 f2 <;>
    (simp only [Near, compose, place, Spec.rotate, endOf, searchMove, toward, Real.cos_zero, Real.sin_zero, reduceCtorEq, if_false, if_true,
        Real.cos_pi, Real.sin_pi, Real.cos_neg, Real.sin_neg, Real.cos_pi_div_two, Real.sin_pi_div_two, lx, rx, lt, rt, f1, f2]
     refine ⟨?_, ?_, ?_⟩
     · rw [abs_le]; constructor <;> linarith
     · rw [abs_le]; constructor <;> linarith
     · first
         | exact ⟨0, by push_cast; ring1⟩
         | exact ⟨1, by push_cast; ring1⟩
         | exact ⟨-1, by push_cast; ring1⟩)

/-! ## The targets of one command -/

theorem traj_straight (T : Trig) (n : Nat) : ∀ s, outputs (Traj.next T) n (.straight s) = outputs Straight.next n s := by
  induction n with
  | zero => intro s; rfl
  | succ n ih => intro s; rw [outputs, outputs]; exact congrArg _ (ih _)

theorem traj_slalom (T : Trig) (q : Detect.Pose) (n : Nat) : ∀ s, outputs (Traj.next T) n (.slalom q s) = outputs (slalomNext T q) n s := by
  induction n with
  | zero => intro s; rfl
  | succ n ih => intro s; rw [outputs, outputs]; exact congrArg _ (ih _)

theorem traj_back (T : Trig) (q r : Detect.Pose) (n : Nat) : ∀ s, outputs (Traj.next T) n (.back q r s) = outputs (backNext T q r) n s := by
  induction n with
  | zero => intro s; rfl
  | succ n ih => intro s; rw [outputs, outputs]; exact congrArg _ (ih _)

theorem traj_slow (T : Trig) (n : Nat) : ∀ s, outputs (Traj.next T) n (.slowDown s) = outputs (chainNext Straight.next Stop.next) n s := by
  induction n with
  | zero => intro s; rfl
  | succ n ih => intro s; rw [outputs, outputs]; exact congrArg _ (ih _)

/-- A stop, and how long it lasts. -/
theorem stop_lasts (q : Detect.Pose) {period r : ℝ} (hp : 0 < period) (hr : 0 < r) :
    ∃ l, Produces Stop.next ⟨0, q, period, r⟩ l ∧ Rests q l ∧ Lasts period r l := by
  refine ⟨_, produces_of (fun n => C44_stop q hp n), ?_, ?_⟩
  · intro t ht
    obtain ⟨k, -, rfl⟩ := List.mem_map.1 ht
    exact ⟨⟨rfl, rfl, rfl⟩, rfl, rfl, rfl⟩
  · unfold Lasts
    rw [List.length_map, List.length_range]
    have h1 := Nat.le_ceil (r / period)
    have h2 := Nat.ceil_lt_add_one (div_pos hr hp).le
    rw [div_le_iff₀ hp] at h1
    refine ⟨?_, h1⟩
    rw [← sub_lt_iff_lt_add, lt_div_iff₀ hp] at h2
    exact h2

theorem lasts_ne {period r : ℝ} {l : List Target} (hr : 0 < r) (h : Lasts period r l) : l ≠ [] := by
  rintro rfl
  have := h.2
  simp at this
  linarith

theorem lasts_shift {period r : ℝ} {l : List Target} (h : Lasts period r l) (q : Detect.Pose) : Lasts period r (l.map (shift .real q)) := by
  unfold Lasts at *
  rwa [List.length_map]

/-- A leg seen from a pose. -/
theorem leg_shift {k : SearchKind} {q q' : Detect.Pose} {l : List Target} (h : HuntLeg c q k q' l) (z : Detect.Pose) :
    HuntLeg c (compose z q) k (compose z q') (l.map (shift .real z)) := by
  unfold HuntLeg at *
  cases k with
  | init => obtain ⟨v', h1, h2⟩ := h; exact ⟨v', h1, Drive.shift h2 z⟩
  | final =>
    obtain ⟨l1, l2, rfl, h1, h2, h3⟩ := h
    exact ⟨_, _, List.map_append, Drive.shift h1 z, Rests.shift h2 z, lasts_shift h3 z⟩
  | front => exact Drive.shift h z
  | right => exact Drive.shift h z
  | left => exact Drive.shift h z
  | back =>
    obtain ⟨l1, l2, l3, l4, l5, v', rfl, hv, h1, h2, h2', h3, h4, h4', h5⟩ := h
    refine ⟨l1.map (shift .real z), l2.map (shift .real z), l3.map (shift .real z), l4.map (shift .real z), l5.map (shift .real z), v',
      by simp only [List.map_append], hv, ?_⟩
    rw [compose_assoc]
    have e : (⟨(compose z (compose q ⟨c.squareWidth / 2 - c.frontOffset, 0, 0⟩)).x, (compose z (compose q ⟨c.squareWidth / 2 - c.frontOffset, 0, 0⟩)).y,
        (compose z (compose q ⟨c.squareWidth / 2 - c.frontOffset, 0, 0⟩)).theta + Real.pi⟩ : Detect.Pose) =
        compose z ⟨(compose q ⟨c.squareWidth / 2 - c.frontOffset, 0, 0⟩).x, (compose q ⟨c.squareWidth / 2 - c.frontOffset, 0, 0⟩).y,
          (compose q ⟨c.squareWidth / 2 - c.frontOffset, 0, 0⟩).theta + Real.pi⟩ := by
      simp only [compose, add_assoc]
    have h3' := Turns.shift h3 z
    dsimp only at h3' ⊢
    rw [← add_assoc] at h3'
    rw [e]
    exact ⟨Drive.shift h1 z, Rests.shift h2 z, lasts_shift h2' z, h3', Rests.shift h4 z, lasts_shift h4' z, Drive.shift h5 z⟩

/-- The straight to the centre of the next cell. -/
theorem down_drive (hc : SearchOk (huntSettings c)) :
    ∃ l, Produces Straight.next (straightGenerate c.gen c.period (c.squareWidth / 2 - c.frontOffset) c.gen.vMax 0).1 l ∧
      Drive c.gen.vMax c.gen.aMax c.period origin c.gen.vMax ⟨c.squareWidth / 2 - c.frontOffset, 0, 0⟩ 0 l ∧
      Steps (c.gen.vMax * c.period) (c.gen.aMax * c.period) l := by
  have hv : 0 < c.gen.vMax := hc.v
  have hm : 0 < c.squareWidth / 2 - c.frontOffset := room_pos hc
  have R1 : Spec.Request c.gen c.gen.vMax 0 := ⟨hv, hc.a, hc.j, hv.le, le_rfl, le_rfl, hv.le⟩
  obtain ⟨r, hr⟩ := (C45_ends_iff R1 0 (c.squareWidth / 2 - c.frontOffset)).2 (.inl hv)
  obtain ⟨l1, a1, a2, a3⟩ := straight_drive R1 hc.period hm.le hr
  have e : (straightGenerate c.gen c.period (c.squareWidth / 2 - c.frontOffset) c.gen.vMax 0).2 = 0 :=
    C42_roomy R1 hv.le 0 _ (by rw [abs_of_pos hm, sub_zero]; exact hc.room)
  have fits := roomy_fits R1 0 hm.le (.inr (by rw [sub_zero]; exact hc.room))
  have a3' := a3 0 le_rfl (by rw [add_zero]; exact fits)
  rw [add_zero] at a3'
  have a2' : Drive c.gen.vMax c.gen.aMax c.period origin c.gen.vMax ⟨c.squareWidth / 2 - c.frontOffset, 0, 0⟩
      (straightGenerate c.gen c.period (c.squareWidth / 2 - c.frontOffset) c.gen.vMax 0).2 l1 := a2
  rw [e] at a2'
  exact ⟨l1, a1, a2', a3'⟩

set_option maxHeartbeats 800000 in
/-- What the trajectories yield. -/
theorem leg_ok (hc : SearchOk (huntSettings c)) (k : SearchKind) :
    ∃ l, Produces (Traj.next .real) (c.trajectory k) l ∧ HuntLeg c origin k (endOf c k) l ∧
      Steps (searchStep (huntSettings c)) (searchGain (huntSettings c)) l := by
  have hw : 0 < c.squareWidth := hc.width
  have hv : 0 < c.gen.vMax := hc.v
  have ha : 0 < c.gen.aMax := hc.a
  have hp : 0 < c.period := hc.period
  obtain ⟨p1, p2⟩ := searchStep_pos hc
  obtain ⟨g1, g2⟩ := searchGain_pos hc
  have p1' : c.gen.vMax * c.period ≤ searchStep (huntSettings c) := p1
  have g1' : c.gen.aMax * c.period ≤ searchGain (huntSettings c) := g1
  obtain ⟨la, a1, a2, a3⟩ := down_drive hc
  -- a rest at the centre after the straight to it
  have join {l2 : List Target} (h : ∀ t ∈ l2, t.x.x = c.squareWidth / 2 - c.frontOffset ∧ t.y.x = 0 ∧ body t = (0, 0)) :
      Steps (searchStep (huntSettings c)) (searchGain (huntSettings c)) (la ++ l2) := by
    refine Steps.append (Steps.mono a3 p1' g1') (Steps.mono (spot_steps h) p2.le g2.le) ?_
    intro t ht t' ht'
    obtain ⟨x1, x2, x3⟩ := h t' (List.mem_of_mem_head? ht')
    have := Drive.last_gap a2 ht 0 (by rw [x1, x2]; simp) x3
    exact ⟨by linarith, this.2.trans g1'⟩
  have still {q : Detect.Pose} {l2 : List Target} (h : Rests q l2) : ∀ t ∈ l2, t.x.x = q.x ∧ t.y.x = q.y ∧ body t = (0, 0) := by
    intro t ht
    obtain ⟨⟨x1, x2, -⟩, x3, x4, -⟩ := h t ht
    exact ⟨x1, x2, body_still x3 x4⟩
  have slalom (d : SlalomDirection) : ∃ l, Produces (slalomNext .real (parameters c.squareWidth c.frontOffset .search90 d).curveEnd)
        (constantSlalom c.period (parameters c.squareWidth c.frontOffset .search90 d) c.gen.vMax) l ∧
      Drive c.gen.vMax c.gen.aMax c.period origin c.gen.vMax (slalomEnd (parameters c.squareWidth c.frontOffset .search90 d)) c.gen.vMax l ∧
      Steps (searchStep (huntSettings c)) (searchGain (huntSettings c)) l := by
    obtain ⟨t1, t2, t3, t4⟩ := search_table hc d
    obtain ⟨l, k1, k2, k3⟩ := constant_slalom (a := c.gen.aMax) hw hv ha.le t3 hp t1 t2 t4
    refine ⟨l, k1, k2, Steps.mono k3 ?_ g2.le⟩
    simp only [tableError, searchStep, huntSettings]
    linarith
  cases k with
  | init =>
    obtain ⟨l, k1, ⟨v, k2, k3⟩, k4⟩ := up_drive hc
    exact ⟨l, fun n => (traj_straight .real n _).trans (k1 n), ⟨v, k2, k3⟩, Steps.mono k4 p1 g1⟩
  | final =>
    obtain ⟨l2, b1, b2, b3⟩ := stop_lasts ⟨c.squareWidth / 2 - c.frontOffset, 0, 0⟩ hp (r := 0.5) (by norm_num)
    exact ⟨la ++ l2, fun n => (traj_slow .real n _).trans (produces_chain b1 _ _ a1 n), ⟨la, l2, rfl, a2, b2, b3⟩, join (still b2)⟩
  | front =>
    obtain ⟨k1, k2⟩ := constant_straight (a := c.gen.aMax) hv hp ha.le hw.le
    refine ⟨_, fun n => (traj_straight .real n _).trans (produces_of (fun n => C44_constant hw.le hv hp n) n), k1, Steps.mono k2 p1' g2.le⟩
  | right =>
    obtain ⟨l, k1, k2, k3⟩ := slalom .right
    exact ⟨l, fun n => (traj_slalom .real _ n _).trans (k1 n), k2, k3⟩
  | left =>
    obtain ⟨l, k1, k2, k3⟩ := slalom .left
    exact ⟨l, fun n => (traj_slalom .real _ n _).trans (k1 n), k2, k3⟩
  | back =>
    obtain ⟨l2, b1, b2, b3⟩ := stop_lasts ⟨c.squareWidth / 2 - c.frontOffset, 0, 0⟩ hp (r := 0.1) (by norm_num)
    have d180 : degree 180 = Real.pi := by unfold degree; ring
    obtain ⟨l3, c1, c2⟩ := spin_turns (g := c.spin) (angle := Real.pi) ⟨hc.sv, hc.sa, hc.sj, le_rfl, hc.sv.le, le_rfl, hc.sv.le⟩ hp Real.pi_pos.le hc.turn
    have c2' := Turns.shift c2 ⟨c.squareWidth / 2 - c.frontOffset, 0, 0⟩
    rw [compose_origin] at c2'
    obtain ⟨l5, e1, ⟨v', e2, e3⟩, e4⟩ := up_drive hc
    have e1' : Produces Straight.next (straightGenerate c.gen c.period (c.squareWidth / 2 - c.frontOffset + 2 * c.frontOffset) 0 c.gen.vMax).1 l5 := by
      have : c.squareWidth / 2 - c.frontOffset + 2 * c.frontOffset = c.squareWidth / 2 + c.frontOffset := by ring
      rw [this]
      exact e1
    have e3' := Drive.shift e3 ⟨c.squareWidth / 2 - c.frontOffset, 0, degree 180⟩
    rw [compose_origin] at e3'
    have e4' := Steps.shift e4 ⟨c.squareWidth / 2 - c.frontOffset, 0, degree 180⟩
    have em : compose ⟨c.squareWidth / 2 - c.frontOffset, 0, degree 180⟩ ⟨c.squareWidth / 2 + c.frontOffset, 0, 0⟩ =
        searchMove c.squareWidth c.frontOffset .back := by
      simp only [searchMove, d180, compose, place, Spec.rotate]
      simp
    have e3'' : Drive c.gen.vMax c.gen.aMax c.period ⟨c.squareWidth / 2 - c.frontOffset, 0, degree 180⟩ 0 (searchMove c.squareWidth c.frontOffset .back) v'
        (l5.map (shift .real ⟨c.squareWidth / 2 - c.frontOffset, 0, degree 180⟩)) := by rw [← em]; exact e3'
    have mem : ∀ t ∈ l2 ++ l3.map (shift .real ⟨c.squareWidth / 2 - c.frontOffset, 0, 0⟩) ++ l2,
        t.x.x = c.squareWidth / 2 - c.frontOffset ∧ t.y.x = 0 ∧ body t = (0, 0) := by
      intro t ht
      rw [List.mem_append, List.mem_append] at ht
      rcases ht with (ht | ht) | ht
      · exact still b2 t ht
      · obtain ⟨x1, x2, x3, x4, -⟩ := c2'.spot t ht
        exact ⟨x1, x2, body_still x3 x4⟩
      · exact still b2 t ht
    have hne := lasts_ne (by norm_num) b3
    have st : Steps (searchStep (huntSettings c)) (searchGain (huntSettings c))
        (la ++ (l2 ++ l3.map (shift .real ⟨c.squareWidth / 2 - c.frontOffset, 0, 0⟩) ++ l2) ++
          l5.map (shift .real ⟨c.squareWidth / 2 - c.frontOffset, 0, degree 180⟩)) := by
      refine Steps.append (join mem) (Steps.mono e4' p1 g1) ?_
      intro t ht t' ht'
      obtain ⟨t0, f1, f2, f3⟩ := e3''.first
      rw [f1] at ht'
      cases ht'
      have ht2 : t ∈ l2 := by
        rw [← List.append_assoc, List.getLast?_append_of_ne_nil _ hne] at ht
        exact List.mem_of_mem_getLast? ht
      obtain ⟨x1, x2, x3⟩ := still b2 t ht2
      rw [f3, x3, gap, x1, x2, f2.1, f2.2.1]
      constructor
      · simp; exact p2.le
      · simp; exact g2.le
    have el : la ++ (l2 ++ l3.map (shift .real ⟨c.squareWidth / 2 - c.frontOffset, 0, 0⟩) ++ l2) ++
          l5.map (shift .real ⟨c.squareWidth / 2 - c.frontOffset, 0, degree 180⟩) =
        la ++ l2 ++ l3.map (shift .real ⟨c.squareWidth / 2 - c.frontOffset, 0, 0⟩) ++ l2 ++
          l5.map (shift .real ⟨c.squareWidth / 2 - c.frontOffset, 0, degree 180⟩) := by simp only [List.append_assoc]
    rw [el] at st
    refine ⟨_, fun n => (traj_back .real _ _ n _).trans
      (produces_chain (produces_shift e1' _) _ _ (produces_chain b1 _ _ (produces_chain (produces_shift (by rw [d180]; exact c1) _) _ _ (produces_chain b1 _ _ a1))) n),
      ?_, st⟩
    refine ⟨la, l2, _, l2, _, v', rfl, e2, ?_⟩
    rw [origin_compose]
    rw [d180] at e3''
    refine ⟨a2, b2, b3, c2', b2, b3, ?_⟩
    simp only [zero_add]
    rw [d180]
    exact e3''

/-! ## The targets of all commands -/

theorem outputs_of {q : Detect.Pose} {l : List Target} : ∀ {traj : Traj}, Produces (Traj.next .real) traj l →
    Outputs huntStepper (q, traj) (l.map (shift .real q)) none := by
  induction l with
  | nil =>
    intro traj h
    refine .over _ ?_
    unfold huntStepper step shiftNext
    dsimp only
    rw [produces_nil h]
    rfl
  | cons x l ih =>
    intro traj h
    obtain ⟨e, h'⟩ := produces_cons h
    refine .more _ _ (q, (Traj.next .real traj).2) _ _ ?_ (ih h')
    unfold huntStepper step shiftNext
    dsimp only
    rw [e]
    rfl

/-- One trajectory at a pose. -/
theorem at_ok (hc : SearchOk (huntSettings c)) (q : Detect.Pose) (k : SearchKind) :
    ∃ l, Outputs huntStepper (c.at q k) l none ∧ HuntLeg c q k (compose q (endOf c k)) l ∧
      Steps (searchStep (huntSettings c)) (searchGain (huntSettings c)) l := by
  obtain ⟨l, h1, h2, h3⟩ := leg_ok hc k
  have h2' := leg_shift h2 q
  rw [compose_origin] at h2'
  exact ⟨_, outputs_of h1, h2', Steps.shift h3 q⟩

/-- The first target of a leg. -/
theorem leg_first {k : SearchKind} {q q' : Detect.Pose} {l : List Target} (h : HuntLeg c q k q' l) :
    ∃ t, l.head? = some t ∧ At t q ∧ body t = (if k = .init then 0 else c.gen.vMax, 0) := by
  have key {l1 l2 : List Target} {m : Detect.Pose} {v v' : ℝ} (D : Drive c.gen.vMax c.gen.aMax c.period q v m v' l1) :
      ∃ t, (l1 ++ l2).head? = some t ∧ At t q ∧ body t = (v, 0) := by
    obtain ⟨t, h1, h2⟩ := D.first
    refine ⟨t, ?_, h2⟩
    cases l1 with
    | nil => cases h1
    | cons => exact h1
  cases k with
  | init => obtain ⟨v', -, D⟩ := h; simpa using D.first
  | final =>
    obtain ⟨l1, l2, rfl, D, -⟩ := h
    simpa using key (l2 := l2) D
  | front => simpa using Drive.first h
  | right => simpa using Drive.first h
  | left => simpa using Drive.first h
  | back =>
    obtain ⟨l1, l2, l3, l4, l5, v', rfl, -, D, -⟩ := h
    have := key (l2 := l2 ++ l3 ++ l4 ++ l5) D
    simpa using this

/-- The last target of a leg is less than a step from its end, and has almost full speed. -/
theorem leg_last (hc : SearchOk (huntSettings c)) {k : SearchKind} (hk : k ≠ .final) {q q' : Detect.Pose} {l : List Target} (h : HuntLeg c q k q' l) :
    ∃ t, l.getLast? = some t ∧ (∀ t' e, Real.sqrt ((t'.x.x - q'.x) ^ 2 + (t'.y.x - q'.y) ^ 2) ≤ e → gap t t' ≤ c.gen.vMax * c.period + e) ∧
      |c.gen.vMax - (body t).1| ≤ searchGain (huntSettings c) := by
  have key {l : List Target} {q : Detect.Pose} {v v' : ℝ} (hv : Cruise (huntSettings c) v') (D : Drive c.gen.vMax c.gen.aMax c.period q v q' v' l) :
      ∃ t, l.getLast? = some t ∧ (∀ t' e, Real.sqrt ((t'.x.x - q'.x) ^ 2 + (t'.y.x - q'.y) ^ 2) ≤ e → gap t t' ≤ c.gen.vMax * c.period + e) ∧
        |c.gen.vMax - (body t).1| ≤ searchGain (huntSettings c) := by
    obtain ⟨t, s, u, h1, -, -, -, -, h6, h7⟩ := D.last
    refine ⟨t, h1, fun t' e he => Drive.last_gap' D h1 e he, ?_⟩
    rw [h6]
    unfold searchGain
    obtain ⟨c1, c2⟩ := hv
    simp only [huntSettings] at *
    rw [abs_le] at h7 ⊢
    constructor <;> linarith
  have full : Cruise (huntSettings c) c.gen.vMax := ⟨by have := resolution_nonneg hc.v.le; simp only [huntSettings] at *; linarith, le_rfl⟩
  cases k with
  | init => obtain ⟨v', h1, D⟩ := h; exact key h1 D
  | final => exact absurd rfl hk
  | front => exact key full h
  | right => exact key full h
  | left => exact key full h
  | back =>
    obtain ⟨l1, l2, l3, l4, l5, v', rfl, hv, -, -, -, -, -, -, D⟩ := h
    obtain ⟨t, h1, h2⟩ := key hv D
    exact ⟨t, by rw [List.getLast?_append, h1]; rfl, h2⟩

theorem gives_snoc {S T : Type} {step : S → Option (T × S)} {ss : List S} {s : S} {l l' : List T} (h : Gives step ss l []) (h' : Outputs step s l' none) :
    Gives step (ss ++ [s]) (l ++ l') [] := by
  generalize hr : ([] : List S) = left at h
  induction h with
  | nil => have := Gives.over (step := step) s [] l' [] [] h' .nil; simpa using this
  | partway => cases hr
  | over s0 ss l0 ts left h0 _ ih =>
    rw [List.append_assoc]
    exact .over _ _ _ _ _ h0 (ih hr)

theorem order_snoc {start : Node} {l : List (Node × SearchKind)} {k : SearchKind} (h : InOrder start (l ++ [(n, k)])) :
    InOrder start l ∧ (∀ e ∈ l, e.2 ≠ .final) ∧ (k = .init ↔ l = []) := by
  rcases h with h | ⟨ks, h1, h⟩
  · exact absurd h (by simp)
  have hk : ∀ e ∈ ks, e.2 ≠ .final ∧ e.2 ≠ .init := by
    intro e he
    have := h1 e he
    simp only [List.mem_cons, List.not_mem_nil, or_false] at this
    rcases this with h | h | h | h <;> rw [h] <;> decide
  have mine (ks' : List (Node × SearchKind)) (hs : ∀ e ∈ ks', e ∈ ks) (hl : l = (start, .init) :: ks') :
      InOrder start l ∧ (∀ e ∈ l, e.2 ≠ .final) := by
    refine ⟨.inr ⟨ks', fun e he => h1 e (hs e he), .inl hl⟩, ?_⟩
    intro e he
    rw [hl, List.mem_cons] at he
    rcases he with rfl | he
    · simp
    · exact (hk e (hs e he)).1
  rcases h with h | ⟨m, h⟩
  · cases l with
    | nil =>
      simp only [List.nil_append, List.cons.injEq, Prod.mk.injEq] at h
      exact ⟨.inl rfl, by simp, by simp [h.1.2]⟩
    | cons x l =>
      simp only [List.cons_append, List.cons.injEq] at h
      obtain ⟨rfl, h⟩ := h
      have hm := mine l (fun e he => by rw [← h]; exact List.mem_append_left _ he) rfl
      refine ⟨hm.1, hm.2, ?_⟩
      have := (hk (n, k) (by rw [← h]; simp)).2
      simpa using this
  · cases l with
    | nil =>
      have := congrArg List.length h
      simp at this
    | cons x l =>
      simp only [List.cons_append, List.cons.injEq] at h
      obtain ⟨rfl, h⟩ := h
      obtain ⟨h2, h3⟩ := List.append_inj' h rfl
      subst h2
      have hm := mine l (fun e he => he) rfl
      refine ⟨hm.1, hm.2, ?_⟩
      cases h3
      simp

/-- The targets of a tour. -/
theorem tour_ok (hc : SearchOk (huntSettings c)) {start cur : Node} (hs : CellPose W start) {l : List (Node × SearchKind)}
    (h : CommandTour W isWall start l cur) (ho : InOrder start l) :
    ∃ ts, Gives huntStepper (l.map c.generate) ts [] ∧ Hunt c W isWall start l cur ts ∧
      Steps (searchStep (huntSettings c)) (searchGain (huntSettings c)) ts ∧ (∀ s ∈ l.map c.generate, ∃ y l', Outputs huntStepper s (y :: l') none) ∧
      (l = [] → cur = start ∧ ts = []) ∧
      (l ≠ [] → (∀ e ∈ l, e.2 ≠ .final) → SearchLegal W cur ∧ ∃ t, ts.getLast? = some t ∧
        (∀ t', At t' (standing c.squareWidth c.frontOffset cur) → gap t t' ≤ searchStep (huntSettings c)) ∧
        |c.gen.vMax - (body t).1| ≤ searchGain (huntSettings c)) := by
  have hw : 0 < c.squareWidth := hc.width
  induction h with
  | nil => exact ⟨[], .nil, .nil, List.isChain_nil, by simp, fun _ => ⟨rfl, rfl⟩, fun h => absurd rfl h⟩
  | snoc l n m k h1 h2 ih =>
    obtain ⟨o1, o2, o3⟩ := order_snoc ho
    obtain ⟨ts, i1, i2, i3, i4, i5, i6⟩ := ih o1
    have hb : Begins W n k := by
      unfold Begins
      split
      · rename_i hk
        rw [(i5 (o3.1 hk)).1]
        exact hs
      · rename_i hk
        exact (i6 (fun h => hk (o3.2 h)) o2).1
    obtain ⟨l', a1, a2, a3⟩ := at_ok hc (standing c.squareWidth c.frontOffset n) k
    have hnear := leads_near (c := c) hw.le hc.nominal hb h2
    have hgen : c.generate (n, k) = c.at (standing c.squareWidth c.frontOffset n) k := by
      unfold Config.generate
      rw [poseOf_standing (W := W)]
      unfold Begins at hb
      split at hb
      · exact .inl hb
      · exact .inr hb
    have ha1 : Outputs huntStepper (c.generate (n, k)) l' none := by rw [hgen]; exact a1
    obtain ⟨t1, f1, f2, f3⟩ := leg_first a2
    refine ⟨ts ++ l', ?_, .snoc l n m k _ ts l' i2 h2 a2 hnear, ?_, ?_, by simp, ?_⟩
    · rw [List.map_append]
      exact gives_snoc i1 ha1
    · refine Steps.append i3 a3 ?_
      intro t ht t' ht'
      rw [f1] at ht'
      cases ht'
      by_cases hl : l = []
      · rw [(i5 hl).2] at ht
        cases ht
      · obtain ⟨-, t0, j1, j2, j3⟩ := i6 hl o2
        rw [j1] at ht
        cases ht
        refine ⟨j2 _ f2, ?_⟩
        rw [f3, if_neg (fun hk => hl (o3.1 hk))]
        exact j3
    · intro s hs'
      rw [List.map_append, List.mem_append] at hs'
      rcases hs' with hs' | hs'
      · exact i4 s hs'
      · simp only [List.map_cons, List.map_nil, List.mem_cons, List.not_mem_nil, or_false] at hs'
        subst hs'
        cases l' with
        | nil => cases f1
        | cons y l' => exact ⟨y, l', ha1⟩
    · intro _ hf
      have hk : k ≠ .final := hf (n, k) (by simp)
      have hl := leads_legal hb h2
      rw [if_neg hk] at hl
      obtain ⟨t, g1, g2, g3⟩ := leg_last hc hk a2
      refine ⟨hl, t, by rw [List.getLast?_append, g1]; rfl, fun t' ht' => ?_, g3⟩
      obtain ⟨n1, n2, -⟩ := hnear
      have hp := mul_pos hc.v hc.period
      simp only [huntSettings] at hp
      refine (g2 t' (12e-9 * c.squareWidth) ?_).trans ?_
      · rw [ht'.1, ht'.2.1]
        rw [abs_sub_comm] at n1 n2
        rw [abs_le] at n1 n2
        refine Real.sqrt_le_iff.2 ⟨by positivity, ?_⟩
        nlinarith
      · simp only [searchStep, huntSettings]
        linarith

end Verif.Proof.OldH
