import Verif.Spec.OldTurn
import Verif.Proof.OldHunt
import Verif.Props.OldTargets
import Verif.Props.OldLife
/-!
# Proofs about the targets of a whole life of the former robot
-/
namespace Verif.Proof.OldU
open Verif Verif.Control Verif.Straight Verif.Slalom Verif.Spec Verif.StraightP Verif.SlalomP Verif.Props Verif.Old Verif.Old.Turn
open Verif.Spec.Traject (Outputs Gives)
open Verif.Old.FastRun (RotationKind RunCommand)
open Verif.Run (Node Posture)

/-! ## Spins -/

/-- The mirrored target of a spin. -/
def mirror (t : Target) : Target := ⟨t.x, t.y, ⟨-t.theta.x, -t.theta.v, -t.theta.a, -t.theta.j⟩⟩

theorem generate_neg (g : Gen) {a : ℝ} (ha : 0 < a) :
    g.generate 0 (-a) 0 0 = ({ (g.generate 0 a 0 0).1 with sign := -(g.generate 0 a 0 0).1.sign }, (g.generate 0 a 0 0).2) ∧
    (g.generate 0 a 0 0).1.xStart = 0 := by
  unfold Gen.generate
  rw [if_pos (by linarith), if_neg (not_lt.2 ha.le), neg_neg]
  exact ⟨rfl, rfl⟩

theorem spin_mirror (n : Nat) : ∀ (c : Overall) (t : ℝ) (tEnd : F) (period : ℝ), c.xStart = 0 →
    outputs Spin.next n ⟨{ c with sign := -c.sign }, t, tEnd, period⟩ = (outputs Spin.next n ⟨c, t, tEnd, period⟩).map (Option.map mirror) := by
  induction n with
  | zero => intros; rfl
  | succ n ih =>
    intro c t tEnd period hx
    rw [outputs, outputs]
    by_cases h : tEnd.lt (.fin t)
    · have e (c : Overall) : Spin.next ⟨c, t, tEnd, period⟩ = (none, ⟨c, t, tEnd, period⟩) := by unfold Spin.next; rw [if_pos h]
      rw [e, e, List.map_cons, ih c t tEnd period hx]
      rfl
    · have e (c : Overall) : Spin.next ⟨c, t, tEnd, period⟩ = (some ⟨.zero, .zero, c.calculate t⟩, ⟨c, t + period, tEnd, period⟩) := by
        unfold Spin.next
        rw [if_neg h]
      rw [e, e, List.map_cons, ih c (t + period) tEnd period hx]
      refine congrArg₂ List.cons ?_ rfl
      have e3 : ∀ c : Overall, c.xStart = 0 → ({ c with sign := -c.sign } : Overall).calculate t =
          ⟨-(c.calculate t).x, -(c.calculate t).v, -(c.calculate t).a, -(c.calculate t).j⟩ := by
        intro c hx
        have e4 : ({ c with sign := -c.sign } : Overall).unsigned t = c.unsigned t := rfl
        unfold Overall.calculate
        rw [e4]
        dsimp only
        rw [hx]
        congr 1 <;> ring
      rw [e3 c hx]
      rfl

theorem spin_spins {g : Gen} {angle period : ℝ} (h : Spec.Request g 0 0) (hp : 0 < period) (h0 : angle ≠ 0) (ht : 2 * rampDist g 0 (resolution g.vMax) ≤ |angle|) :
    ∃ l, Produces Spin.next (spinGenerate g period angle) l ∧ Spins g.vMax period origin angle l := by
  rcases lt_or_gt_of_ne h0 with hn | hn
  · obtain ⟨a, rfl⟩ : ∃ a, angle = -a := ⟨-angle, by ring⟩
    have ha : 0 < a := by linarith
    rw [abs_neg, abs_of_pos ha] at ht
    obtain ⟨l, h1, h2⟩ := spin_turns h hp ha.le ht
    obtain ⟨e1, e2⟩ := generate_neg g ha
    refine ⟨l.map mirror, ?_, ?_, ?_, ?_, ?_⟩
    · intro n
      have := spin_mirror n (g.generate 0 a 0 0).1 0 (g.generate 0 a 0 0).2.1 period e2
      unfold spinGenerate
      rw [e1]
      refine this.trans ?_
      have h1 := h1 n
      unfold spinGenerate at h1
      rw [h1, List.map_map]
      refine List.map_congr_left fun k _ => ?_
      simp
    · obtain ⟨t, t1, ⟨t2, t3, t4⟩, t5⟩ := h2.first
      refine ⟨mirror t, by rw [List.head?_map, t1]; rfl, ⟨t2, t3, ?_⟩, ?_⟩
      · simp only [mirror, t4, origin, neg_zero]
      · obtain ⟨a1, a2, a3⟩ := t5
        exact ⟨a1, a2, by simp [mirror, a3]⟩
    · obtain ⟨t, t1, t2, t3⟩ := h2.last
      refine ⟨mirror t, by rw [List.getLast?_map, t1]; rfl, ?_⟩
      simp only [mirror, origin]
      rw [abs_le]
      constructor <;> linarith
    · intro t' ht'
      obtain ⟨t, ht, rfl⟩ := List.mem_map.1 ht'
      obtain ⟨b1, b2, b3, b4, b5, b6⟩ := h2.spot t ht
      refine ⟨b1, b2, b3, b4, ?_⟩
      simp only [mirror, abs_neg]
      rwa [abs_of_nonneg b5]
    · rw [List.isChain_map]
      refine List.IsChain.imp (fun t t' b => ?_) h2.steady
      simp only [mirror]
      refine ⟨?_, ?_⟩
      · nlinarith [b.1]
      · rw [abs_le]; constructor <;> linarith [b.1, b.2]
  · rw [abs_of_pos hn] at ht
    obtain ⟨l, h1, h2⟩ := spin_turns h hp hn.le ht
    refine ⟨l, h1, h2.first, ?_, ?_, ?_⟩
    · obtain ⟨t, t1, t2, t3⟩ := h2.last
      refine ⟨t, t1, ?_⟩
      simp only [origin]
      rw [abs_le]
      constructor <;> linarith
    · intro t ht
      obtain ⟨b1, b2, b3, b4, b5, b6⟩ := h2.spot t ht
      exact ⟨b1, b2, b3, b4, by rwa [abs_of_nonneg b5]⟩
    · refine List.IsChain.imp (fun t t' b => ?_) h2.steady
      refine ⟨?_, ?_⟩
      · nlinarith [b.1]
      · rw [abs_le]; constructor <;> linarith [b.1, b.2]

theorem Spins.shift {ω period angle : ℝ} {r : Detect.Pose} {l : List Target} (h : Spins ω period r angle l) (q : Detect.Pose) :
    Spins ω period (compose q r) angle (l.map (shift .real q)) where
  first := by
    obtain ⟨t, h1, h2, h3⟩ := h.first
    exact ⟨Straight.shift .real q t, by rw [List.head?_map, h1]; rfl, at_shift h2 q, still_shift h3 q⟩
  last := by
    obtain ⟨t, h1, h2⟩ := h.last
    refine ⟨Straight.shift .real q t, by rw [List.getLast?_map, h1]; rfl, ?_⟩
    simp only [Straight.shift, compose]
    rwa [show q.theta + r.theta + angle - (t.theta.x + q.theta) = r.theta + angle - t.theta.x by ring]
  spot := by
    intro t ht
    obtain ⟨t, h1, rfl⟩ := List.mem_map.1 ht
    obtain ⟨a, b, c, d, e⟩ := h.spot t h1
    refine ⟨?_, ?_, ?_, ?_, e⟩ <;> simp only [Straight.shift, compose, place, Spec.rotate, Trig.real, a, b, c, d] <;> ring
  steady := by
    rw [List.isChain_map]
    refine List.IsChain.imp (fun t t' a => ?_) h.steady
    simp only [Straight.shift]
    rw [show t'.theta.x + q.theta - (t.theta.x + q.theta) = t'.theta.x - t.theta.x by ring]
    exact a

theorem traj_spin (n : Nat) : ∀ s, outputs Traj.next n (.rotation s) = outputs Spin.next n s := by
  induction n with
  | zero => intro s; rfl
  | succ n ih => intro s; rw [outputs, outputs]; exact congrArg _ (ih _)

theorem traj_none (n : Nat) : outputs Traj.next n (.empty none) = List.replicate n none := by
  induction n with
  | zero => rfl
  | succ n ih => rw [outputs, List.replicate_succ]; exact congrArg _ ih

theorem outputs_of {q : Detect.Pose} {l : List Target} : ∀ {traj : Traj}, Produces Traj.next traj l →
    Outputs turnStepper (q, traj) (l.map (shift .real q)) none := by
  induction l with
  | nil =>
    intro traj h
    refine .over _ ?_
    unfold turnStepper step shiftNext
    dsimp only
    rw [produces_nil h]
    rfl
  | cons x l ih =>
    intro traj h
    obtain ⟨e, h'⟩ := produces_cons h
    refine .more _ _ (q, (Traj.next traj).2) _ _ ?_ (ih h')
    unfold turnStepper step shiftNext
    dsimp only
    rw [e]
    rfl

variable {c : Turn.Config}

theorem request (hc : StoryOk c) : Spec.Request c.spin 0 0 := ⟨hc.hunt.sv, hc.hunt.sa, hc.hunt.sj, le_rfl, hc.hunt.sv.le, le_rfl, hc.hunt.sv.le⟩

/-- One rotation at a pose. -/
theorem rotation_ok (hc : StoryOk c) (q : Detect.Pose) (k : RotationKind) :
    ∃ l, Outputs turnStepper (q, c.trajectory k) l none ∧ Spins c.spin.vMax c.period q (rotationAngle k) l := by
  have hp := Real.pi_pos
  have hq := hc.quarter
  have key (angle : ℝ) (h0 : angle ≠ 0) (ht : 2 * rampDist c.spin 0 (resolution c.spin.vMax) ≤ |angle|) :
      ∃ l, Outputs turnStepper (q, .rotation (spinGenerate c.spin c.period angle)) l none ∧ Spins c.spin.vMax c.period q angle l := by
    obtain ⟨l, h1, h2⟩ := spin_spins (request hc) hc.hunt.period h0 ht
    have h3 := Spins.shift h2 q
    rw [compose_origin] at h3
    exact ⟨_, outputs_of (fun n => (traj_spin n _).trans (h1 n)), h3⟩
  cases k with
  | front =>
    have h0 : Spins c.spin.vMax c.period origin 0 [⟨.zero, .zero, .zero⟩] := by
      have h1 : 0 ≤ c.spin.vMax * c.period := (mul_pos hc.hunt.sv hc.hunt.period).le
      have h2 : 0 ≤ c.spin.vMax := hc.hunt.sv.le
      refine ⟨⟨_, rfl, ⟨rfl, rfl, rfl⟩, rfl, rfl, rfl⟩, ⟨_, rfl, ?_⟩, ?_, List.isChain_singleton _⟩
      · simpa [origin, Axis.zero] using h1
      · intro t ht
        rw [List.mem_singleton.1 ht]
        exact ⟨rfl, rfl, rfl, rfl, by simpa [Axis.zero] using h2⟩
    have h3 := Spins.shift h0 q
    rw [compose_origin] at h3
    refine ⟨_, outputs_of (l := [⟨.zero, .zero, .zero⟩]) (fun n => ?_), h3⟩
    cases n with
    | zero => rfl
    | succ n =>
      rw [outputs, List.range_succ_eq_map, List.map_cons, List.map_map]
      refine congrArg₂ List.cons rfl ((traj_none n).trans ?_)
      refine (List.eq_replicate_iff.2 ⟨by simp, fun b hb => ?_⟩).symm
      obtain ⟨k, -, rfl⟩ := List.mem_map.1 hb
      rfl
  | right =>
    have := key (degree (-90)) (by rw [degN, deg90]; linarith) (by rw [degN, deg90, abs_neg, abs_of_pos (by linarith)]; exact hq)
    simp only [degN, deg90] at this
    simpa only [Config.trajectory, rotationAngle, degN, deg90] using this
  | left =>
    have := key (degree 90) (by rw [deg90]; linarith) (by rw [deg90, abs_of_pos (by linarith)]; exact hq)
    simp only [deg90] at this
    simpa only [Config.trajectory, rotationAngle, deg90] using this
  | back =>
    have := key (degree 180) (by rw [deg180]; linarith) (by rw [deg180, abs_of_pos hp]; linarith)
    simp only [deg180] at this
    simpa only [Config.trajectory, rotationAngle, deg180] using this

/-! ## Where the phases lead -/

theorem toward_turn {n m : Node} {k : RotationKind} {e : Nat} (ha : n.posture ∈ [Posture.north, .east, .south, .west]) (hk : (k, e) ∈ turns) (h : Turned n e m) :
    m.posture ∈ [Posture.north, .east, .south, .west] ∧ ∃ z : ℤ, toward n.posture + rotationAngle k = toward m.posture + 2 * Real.pi * z := by
  obtain ⟨-, -, h⟩ := h
  obtain ⟨x, y, p⟩ := n
  obtain ⟨x', y', p'⟩ := m
  simp only [turns, List.mem_cons, List.not_mem_nil, or_false, Prod.mk.injEq] at hk
  simp only [List.mem_cons, List.not_mem_nil, or_false] at ha
  simp only at h
  rcases ha with rfl | rfl | rfl | rfl <;> rcases hk with ⟨rfl, rfl⟩ | ⟨rfl, rfl⟩ | ⟨rfl, rfl⟩ | ⟨rfl, rfl⟩ <;> cases p' <;>
    first
    | (exfalso; revert h; decide)
    | (refine ⟨by simp, ?_⟩; simp only [toward, rotationAngle]
       first
       | exact ⟨0, by push_cast; ring1⟩
       | exact ⟨1, by push_cast; ring1⟩
       | exact ⟨-1, by push_cast; ring1⟩)

theorem turned_cell {W : Nat} {n m : Node} {k : RotationKind} {e : Nat} (hn : CellPose W n) (hk : (k, e) ∈ turns) (h : Turned n e m) : CellPose W m := by
  have ha := (toward_turn (Proof.OldH.cell_axis hn) hk h).1
  obtain ⟨⟨h1, h2, -⟩, h4, h5⟩ := hn
  obtain ⟨e1, e2, -⟩ := h
  rw [← e1] at h1 h4
  rw [← e2] at h2 h5
  exact ⟨⟨h1, h2, Or.inl ⟨h4, h5, ha⟩⟩, h4, h5⟩

theorem standing_node {W : Nat} {n : Node} (h : CellPose W n) (sw fo : ℝ) : Slalom.poseOfNode n sw = standing sw fo n := by
  rw [← OldG.poseOf_eq h.1 sw fo, Proof.OldH.poseOf_standing (Or.inl h)]

theorem standing_cell {W : Nat} {n : Node} (h : CellPose W n) (sw fo : ℝ) :
    (standing sw fo n).x = ((n.x : ℝ) + 1) * (sw / 2) ∧ (standing sw fo n).y = ((n.y : ℝ) + 1) * (sw / 2) ∧ (standing sw fo n).theta = toward n.posture := by
  unfold standing
  rw [if_pos h.2]
  simp

/-- The last target is close to a pose. -/
def Ready (c : Turn.Config) (m : Node) (ts : List Target) : Prop :=
  ∃ t, ts.getLast? = some t ∧ (∀ t', At t' (standing c.squareWidth c.frontOffset m) → gap t t' ≤ c.maxVelocity * c.period + 2e-6 * c.squareWidth) ∧
    ∃ z : ℤ, |(standing c.squareWidth c.frontOffset m).theta - t.theta.x - 2 * Real.pi * z| ≤ c.spin.vMax * c.period

theorem Ready.over {m : Node} {ts ts' : List Target} (h : Ready c m ts)
    (h' : ∃ t', ts'.head? = some t' ∧ At t' (standing c.squareWidth c.frontOffset m) ∧ body t' = (0, 0)) :
    ∀ t ∈ ts.getLast?, ∀ t' ∈ ts'.head?, TakesOver (c.maxVelocity * c.period + 2e-6 * c.squareWidth) (c.spin.vMax * c.period) t t' := by
  obtain ⟨t, h1, h2, z, h3⟩ := h
  obtain ⟨t', h4, h5, h6⟩ := h'
  intro u hu u' hu'
  rw [h1] at hu
  cases hu
  rw [h4] at hu'
  cases hu'
  refine ⟨h2 _ h5, ⟨z, ?_⟩, h6⟩
  rw [h5.2.2]
  exact h3

theorem still_body {t : Target} (h : Still t) : body t = (0, 0) := by
  unfold body Spec.rotate
  rw [h.1, h.2.1]
  simp

/-- A search. -/
theorem hunt_ok (hc : StoryOk c) {W : Nat} {isWall : Verif.Search.Coord → Bool} {start m : Node} (hs : CellPose W start) {l : List (Node × SearchKind)}
    (h0 : l ≠ []) (h : CommandTour W isWall start l m) (ho : InOrder start l) :
    ∃ ts, PhaseGives c (.hunt l) ts ∧ Carries c W isWall start (.hunt l) m ts ∧ ts ≠ [] ∧ (CellPose W m → Ready c m ts) := by
  obtain ⟨ts, h1, h2, h3, -, -, h4⟩ := Proof.OldH.tour_ok (c := c.hunt) hc.hunt hs h ho
  have hne : ts ≠ [] := by
    rintro rfl
    by_cases hf : ∀ e ∈ l, e.2 ≠ .final
    · obtain ⟨-, t, h5, -⟩ := h4 h0 hf
      cases h5
    · generalize hts : ([] : List Target) = ts at h2
      cases h2 with
      | nil => exact h0 rfl
      | snoc cs n m k q' l l' a1 a2 a3 a4 =>
        obtain ⟨t, b1, -⟩ := Proof.OldH.leg_first a3
        have := congrArg List.length hts
        cases l' with
        | nil => cases b1
        | cons => simp at this
  refine ⟨ts, h1, ⟨h2, h3⟩, hne, fun hm => ?_⟩
  have hf : ¬ ∀ e ∈ l, e.2 ≠ .final := by
    intro hf
    obtain ⟨⟨-, -, h5⟩, -⟩ := h4 h0 hf
    obtain ⟨-, h6, h7⟩ := hm
    omega
  obtain ⟨n, rest, rfl⟩ : ∃ n rest, l = rest ++ [(n, SearchKind.final)] := by
    rcases ho with rfl | ⟨ks, k1, rfl | ⟨n, rfl⟩⟩
    · exact absurd rfl h0
    · exfalso
      apply hf
      intro e he
      rcases List.mem_cons.1 he with rfl | he
      · simp
      · have := k1 e he
        intro h
        rw [h] at this
        simp at this
    · exact ⟨n, (start, .init) :: ks, rfl⟩
  generalize hl : rest ++ [(n, SearchKind.final)] = l at h2
  cases h2 with
  | nil => simp at hl
  | snoc cs n' m k q' l l' a1 a2 a3 a4 =>
    obtain ⟨-, e2⟩ := List.append_inj' hl rfl
    cases e2
    obtain ⟨l1, l2, rfl, b1, b2, b3⟩ := a3
    have hl2 := Proof.OldH.lasts_ne (by norm_num) b3
    obtain ⟨t, ht⟩ : ∃ t, l2.getLast? = some t := ⟨_, List.getLast?_eq_some_getLast hl2⟩
    obtain ⟨⟨t1, t2, t3⟩, -⟩ := b2 t (List.mem_of_mem_getLast? ht)
    obtain ⟨n1, n2, z, n3⟩ := a4
    have hv : 0 < c.maxVelocity * c.period := mul_pos hc.run.v hc.run.period
    have hw : 0 < c.squareWidth := hc.run.width
    refine ⟨t, by rw [List.getLast?_append, List.getLast?_append, ht]; rfl, fun t' h' => ?_, -z, ?_⟩
    · have := hypot_le (a := t'.x.x - t.x.x) (b := t'.y.x - t.y.x) (e := 6e-9 * c.squareWidth)
        (by rw [h'.1, t1, abs_sub_comm]; exact n1) (by rw [h'.2.1, t2, abs_sub_comm]; exact n2)
      unfold gap
      linarith
    · have n3 : q'.theta = (standing c.squareWidth c.frontOffset m).theta + 2 * Real.pi * z := n3
      rw [t3, n3]
      push_cast
      rw [show (standing c.squareWidth c.frontOffset m).theta - ((standing c.squareWidth c.frontOffset m).theta + 2 * Real.pi * z) - 2 * Real.pi * -(z : ℝ) = 0 by ring, abs_zero]
      exact (mul_pos hc.hunt.sv hc.hunt.period).le

/-- A rotation. -/
theorem turn_ok (hc : StoryOk c) {W : Nat} {isWall : Verif.Search.Coord → Bool} {n m : Node} {k : RotationKind} {e : Nat} (hn : CellPose W n) (hk : (k, e) ∈ turns)
    (h : Turned n e m) :
    ∃ ts, PhaseGives c (.turn n k) ts ∧ Carries c W isWall n (.turn n k) m ts ∧ ts ≠ [] ∧
      (∃ t', ts.head? = some t' ∧ At t' (standing c.squareWidth c.frontOffset n) ∧ body t' = (0, 0)) ∧ Ready c m ts := by
  obtain ⟨l, h1, h2⟩ := rotation_ok hc (standing c.squareWidth c.frontOffset n) k
  have hm := turned_cell hn hk h
  obtain ⟨-, z, hz⟩ := toward_turn (Proof.OldH.cell_axis hn) hk h
  obtain ⟨a1, a2, a3⟩ := standing_cell hn c.squareWidth c.frontOffset
  obtain ⟨b1, b2, b3⟩ := standing_cell hm c.squareWidth c.frontOffset
  have hv : 0 < c.maxVelocity * c.period := mul_pos hc.run.v hc.run.period
  have hw : 0 < c.squareWidth := hc.run.width
  obtain ⟨t, f1, f2, f3⟩ := h2.first
  refine ⟨l, ?_, ⟨rfl, h2, z, by rw [a3, b3, hz]⟩, (by rintro rfl; cases f1), ⟨t, f1, f2, still_body f3⟩, ?_⟩
  · have e : c.turn (n, k) = (standing c.squareWidth c.frontOffset n, c.trajectory k) := by
      unfold Config.turn
      rw [Proof.OldH.poseOf_standing (Or.inl hn)]
    show Gives turnStepper [c.turn (n, k)] l []
    rw [e]
    have := Gives.over _ [] l [] [] h1 .nil
    simpa using this
  · obtain ⟨t, g1, g2⟩ := h2.last
    obtain ⟨p1, p2, -⟩ := h2.spot t (List.mem_of_mem_getLast? g1)
    refine ⟨t, g1, fun t' ht' => ?_, -z, ?_⟩
    · unfold gap
      rw [ht'.1, ht'.2.1, p1, p2, a1, a2, b1, b2, h.1, h.2.1]
      simp only [sub_self, ne_eq, OfNat.ofNat_ne_zero, not_false_eq_true, zero_pow, add_zero, Real.sqrt_zero]
      positivity
    · rw [a3, hz] at g2
      rw [b3]
      push_cast
      rw [show toward m.posture - t.theta.x - 2 * Real.pi * -(z : ℝ) = toward m.posture + 2 * Real.pi * z - t.theta.x by ring]
      exact g2

/-- A run. -/
theorem run_ok (hc : StoryOk c) {W : Nat} (hW : Supported W) {isWall : Verif.Search.Coord → Bool} {n m : Node} {path : List Node} {cs : List RunCommand}
    (hn : CellPose W n) (hm : CellPose W m) (h : Commands W isWall path cs) (h1 : path.head? = some n) (h2 : path.getLast? = some m) (h0 : cs ≠ []) :
    ∃ ts, PhaseGives c (.run path cs) ts ∧ Carries c W isWall n (.run path cs) m ts ∧ ts ≠ [] ∧
      (∃ t', ts.head? = some t' ∧ At t' (standing c.squareWidth c.frontOffset n) ∧ body t' = (0, 0)) ∧ Ready c m ts := by
  obtain ⟨l, q', v', a1, -, a2, a3, a4, a5, -, -, a6, -⟩ := C98_targets (c := c.run) hc.run hW h h1 h2 hn.1 h0
  have e1 : Slalom.poseOfNode n c.run.squareWidth = standing c.squareWidth c.frontOffset n := standing_node hn _ _
  have e2 : Slalom.poseOfNode m c.run.squareWidth = standing c.squareWidth c.frontOffset m := standing_node hm _ _
  rw [e1] at a2
  rw [e2] at a3
  have hv : 0 < c.maxVelocity * c.period := mul_pos hc.run.v hc.run.period
  have hw : 0 < c.squareWidth := hc.run.width
  obtain ⟨t, f1, f2, f3⟩ := a2.first
  refine ⟨l, a1, ⟨q', v', a2, a3, a4, a5, a6⟩, (by rintro rfl; cases f1), ⟨t, f1, f2, f3⟩, ?_⟩
  obtain ⟨n1, n2, z, n3⟩ := a3
  obtain ⟨t, s, u, g1, g2, g3⟩ := a2.last
  refine ⟨t, g1, fun t' ht' => ?_, -z, ?_⟩
  · refine (Drive.last_gap' a2 g1 (3 / 2 * (1e-6 * c.squareWidth)) ?_).trans ?_
    · exact hypot_le (by rw [ht'.1, abs_sub_comm]; exact n1) (by rw [ht'.2.1, abs_sub_comm]; exact n2)
    · show c.maxVelocity * c.period + _ ≤ _
      linarith
  · rw [g2, n3]
    push_cast
    rw [show (standing c.squareWidth c.frontOffset m).theta - ((standing c.squareWidth c.frontOffset m).theta + 2 * Real.pi * z) - 2 * Real.pi * -(z : ℝ) = 0 by ring, abs_zero]
    exact (mul_pos hc.hunt.sv hc.hunt.period).le

/-- The targets of phases. -/
theorem story_told (hc : StoryOk c) {W : Nat} (hW : Supported W) {isWall : Verif.Search.Coord → Bool} {start m : Node} (hs : CellPose W start) {ps : List Phase}
    (h : Story W isWall start ps m) :
    ∃ tss, Told c W isWall start ps m tss ∧ ((∀ l, ps.getLast? ≠ some (.hunt l)) → CellPose W m) ∧
      (CellPose W m → ∃ l, tss.getLast? = some l ∧ Ready c m l) := by
  induction h with
  | hunt l m h0 h ho =>
    obtain ⟨ts, h1, h2, h3, h4⟩ := hunt_ok hc hs h0 h ho
    exact ⟨[ts], .snoc [] [] start m _ ts .nil h1 h2 h3 (by simp), fun h => absurd rfl (h l), fun hm => ⟨ts, rfl, h4 hm⟩⟩
  | turn ps n m k e _ _ hn hk ht ih =>
    obtain ⟨tss, i1, -, i3⟩ := ih
    obtain ⟨l, i4, i5⟩ := i3 hn
    obtain ⟨ts, h1, h2, h3, h4, h5⟩ := turn_ok hc (isWall := isWall) hn hk ht
    refine ⟨tss ++ [ts], .snoc ps tss n m _ ts i1 h1 h2 h3 ?_, fun _ => turned_cell hn hk ht, fun _ => ⟨ts, by simp, h5⟩⟩
    intro l' hl' t ht t' ht'
    rw [i4] at hl'
    cases hl'
    exact i5.over h4 t ht t' ht'
  | run ps n m n' k path cs _ g1 g2 g3 g4 hm ih =>
    obtain ⟨tss, i1, i2, i3⟩ := ih
    have hn := i2 (by simp)
    obtain ⟨l, i4, i5⟩ := i3 hn
    obtain ⟨ts, h1, h2, h3, h4, h5⟩ := run_ok hc hW hn hm g4 g1 g2 g3
    have e : ps ++ [.turn n' k, .run path cs] = (ps ++ [Phase.turn n' k]) ++ [.run path cs] := by simp
    rw [e]
    refine ⟨tss ++ [ts], .snoc _ tss n m _ ts i1 h1 h2 h3 ?_, fun _ => hm, fun _ => ⟨ts, by simp, h5⟩⟩
    intro l' hl' t ht t' ht'
    rw [i4] at hl'
    cases hl'
    exact i5.over h4 t ht t' ht'

/-! ## The phases of a life -/

section life
open Verif.Old.Life Verif.Old.FastRun Verif.Proof.OldL Verif.Proof.OldR Verif.Proof.OldN Verif.Proof Verif.Props.Old

variable {C : Life.Config} {cost : Pattern → Nat} {real : Wall → Bool} {goal0 : Node} {rest : List Node} {b : Belief} {count : Nat}

theorem plan_of {W : Nat} {isWall : Verif.Search.Coord → Bool} {cost : Run.EdgeKind → Nat} (hW : W ≤ 64) {path : List Node} {w : Nat}
    (h : FastPath W isWall cost path w) (hl : ∀ n ∈ path.head?, Legal W n) (cur : Node) :
    ∃ cs, Commands W isWall path cs ∧
      ∀ (j : Nat) (rc : RunCommand), cs[j]? = some rc → RunCommander.nextCommand ⟨cur, path, j⟩ = .ok (.command rc, ⟨cur, path, j + 1⟩) := by
  obtain ⟨cs, h1, h2⟩ := commands_of hW h hl cur
  refine ⟨cs, h1, fun j rc hj => ?_⟩
  have hj' := (List.getElem?_eq_some_iff.1 hj).1
  have hl' := h1.1
  obtain ⟨n, m, k, t, e1, e2, e3, e4, e5⟩ := next_eq (cur := cur) (i := j) hW h hl (by omega)
  rw [e5]
  have snoc : ∀ (i : Nat) (s s' s'' : RunCommander) (rs : List (Reply RunCommand)) (r : Reply RunCommand),
      replies RunCommander.nextCommand i s = .ok (rs, s') → RunCommander.nextCommand s' = .ok (r, s'') →
      replies RunCommander.nextCommand (i + 1) s = .ok (rs ++ [r], s'') := by
    intro i
    induction i with
    | zero =>
      intro s s' s'' rs r g1 g2
      cases g1
      simp [replies, g2, bind, Except.bind, pure, Except.pure]
    | succ i ih =>
      intro s s' s'' rs r g1 g2
      rw [replies] at g1 ⊢
      cases g3 : RunCommander.nextCommand s with
      | error p => rw [g3] at g1; cases g1
      | ok x =>
        obtain ⟨r0, s0⟩ := x
        rw [g3] at g1
        simp only [bind, Except.bind] at g1 ⊢
        cases g4 : replies RunCommander.nextCommand i s0 with
        | error p => rw [g4] at g1; cases g1
        | ok x =>
          obtain ⟨rs0, s1⟩ := x
          rw [g4] at g1
          cases g1
          rw [ih _ _ _ _ _ g4 g2]
          rfl
  have e6 := snoc j _ _ _ _ _ (h2 j) (by rw [show min j cs.length = j by omega]; exact e5)
  rw [h2 (j + 1), List.take_succ, hj, show j - cs.length = 0 by omega, show j + 1 - cs.length = 0 by omega] at e6
  simp at e6
  rw [e6.1]

variable (C real) in
/-- The phases of which the operator is in the last. -/
def Tale (i : Nat) : Operator → List Command → Prop
  | .search _, _ => i = 1
  | .returnSetup s, cs | .runSetup s, cs => ∃ ps n k, ps.length + 1 = i ∧ Story C.search.W (posBlocked real) C.search.start (ps ++ [Phase.turn n k]) s.current ∧
      cs = (ps ++ [Phase.turn n k]).flatMap Phase.commands
  | .ret s, cs | .run s, cs => ∃ ps n n' k rcs, ps.length + 2 = i ∧ Story C.search.W (posBlocked real) C.search.start (ps ++ [Phase.turn n' k]) n ∧ s.path.head? = some n ∧
      s.path.getLast? = some s.current ∧ Commands C.search.W (posBlocked real) s.path rcs ∧ CellPose C.search.W s.current ∧ 1 ≤ s.iter ∧ s.iter ≤ rcs.length ∧
      (∀ (j : Nat) (rc : RunCommand), rcs[j]? = some rc → RunCommander.nextCommand ⟨s.current, s.path, j⟩ = .ok (.command rc, ⟨s.current, s.path, j + 1⟩)) ∧
      cs = (ps ++ [Phase.turn n' k]).flatMap Phase.commands ++ (rcs.take s.iter).map .run

theorem search_phase {S : Setting C.search cost real goal0 rest} {s : Old.Search.Commander} {rs : List Old.Search.Reply} (h : Explores C.search real b s rs)
    (h0 : s.phase ≠ .initial) : Story C.search.W (posBlocked real) C.search.start [.hunt (commandsOf rs)] s.current := by
  obtain ⟨h1, h2⟩ := C88_tour S h
  refine .hunt _ _ ?_ h1 h2
  obtain ⟨-, h3, -⟩ := OldS.explores_inv S h
  intro he
  rw [he] at h3
  cases h3 with
  | initial => exact h0 rfl

theorem tale_next (S : LifeSetting C cost real goal0 rest) {I : Nat} {op op' : Operator} {mode : Mode} {cs : List Command} {r : Answer}
    (h : OpInv C cost real count b op mode cs) (ht : Tale C real I op cs) (hr : op.next C b = .ok (r, op')) :
    Tale C real I op' (cs ++ match r with | .command c => [c] | _ => []) := by
  cases h with
  | search s rs b0 h h1 h2 h3 =>
    cases hn : Old.Search.nextCommand C.search b s with
    | error e => simp only [Operator.next, hn, bind, Except.bind] at hr; cases hr
    | ok rs' =>
      obtain ⟨r', s'⟩ := rs'
      simp only [Operator.next, hn, bind, Except.bind, pure, Except.pure] at hr
      cases hr
      exact ht
  | setup back k n cs =>
    rw [setup_next] at hr
    cases hr
    simpa using ht
  | run back k cur path i n cs h1 h2 h3 h4 h5 h6 h7 h8 h9 h10 h11 h12 =>
    have ht' : ∃ ps n n' k rcs, ps.length + 2 = I ∧ Story C.search.W (posBlocked real) C.search.start (ps ++ [Phase.turn n' k]) n ∧ path.head? = some n ∧
      path.getLast? = some cur ∧ Commands C.search.W (posBlocked real) path rcs ∧ CellPose C.search.W cur ∧ 1 ≤ i ∧ i ≤ rcs.length ∧
      (∀ (j : Nat) (rc : RunCommand), rcs[j]? = some rc → RunCommander.nextCommand ⟨cur, path, j⟩ = .ok (.command rc, ⟨cur, path, j + 1⟩)) ∧
      cs = (ps ++ [Phase.turn n' k]).flatMap Phase.commands ++ (rcs.take i).map .run := by cases back <;> exact ht
    obtain ⟨ps, n, n', k, rcs, a0, a1, a2, a3, a4, a5, a6, a7, a8, rfl⟩ := ht'
    rw [run_next] at hr
    have hl := a4.1
    by_cases hi : i < rcs.length
    · have hg : rcs[i]? = some rcs[i] := List.getElem?_eq_getElem hi
      rw [a8 i _ hg] at hr
      cases hr
      have : Tale C real I (runOp back ⟨cur, path, i + 1⟩)
          ((ps ++ [Phase.turn n' k]).flatMap Phase.commands ++ (rcs.take i).map .run ++ [.run rcs[i]]) := by
        have e : (ps ++ [Phase.turn n' k]).flatMap Phase.commands ++ (rcs.take i).map .run ++ [.run rcs[i]] =
            (ps ++ [Phase.turn n' k]).flatMap Phase.commands ++ (rcs.take (i + 1)).map .run := by
          rw [List.take_succ, hg, Option.toList_some, List.map_append, List.append_assoc]
          rfl
        rw [e]
        cases back <;> exact ⟨ps, n, n', k, rcs, a0, a1, a2, a3, a4, a5, by simp, by simpa using hi, a8, rfl⟩
      exact this
    · rw [next_finish (by omega)] at hr
      cases hr
      simp only [runAnswer, List.append_nil]
      exact ht

theorem tale_step (S : LifeSetting C cost real goal0 rest) {I : Nat} {op op' : Operator} {mode : Mode} {cs new : List Command} {a : Agent} {out : Outcome}
    (h : OpInv C cost real count b op mode cs) (ht : Tale C real I op cs) (ha : a.accepts = true) (hr : op.step C b a = .ok (out, new, op')) :
    Tale C real I op' (cs ++ new) := by
  unfold Operator.step at hr
  cases hf : a.full with
  | none => rw [hf] at hr; cases hr; simpa using ht
  | some f =>
    cases f with
    | true => rw [hf] at hr; cases hr; simpa using ht
    | false =>
      rw [hf] at hr
      cases hn : op.next C b with
      | error e => simp only [hn, bind, Except.bind] at hr; cases hr
      | ok ro =>
        obtain ⟨r, op1⟩ := ro
        have g := tale_next S h ht hn
        cases r <;> simp only [hn, bind, Except.bind, pure, Except.pure, ha, if_true] at hr <;> cases hr <;> exact g

theorem tale_setup (S : LifeSetting C cost real goal0 rest) {back : Bool} {cs : List Command} {a : Agent} {n : Node} {c : Command} {op : Operator} {ps : List Phase}
    (hn : CellPose C.search.W n) (h : Story C.search.W (posBlocked real) C.search.start ps n) (hl : ∀ n' k', Phase.turn n' k' ∉ ps.getLast?)
    (he : cs = ps.flatMap Phase.commands) (ha : a.accepts = true) (hr : setupNew C back b a n = .ok (some (c, op))) : Tale C real (ps.length + 1) op (cs ++ [c]) := by
  obtain ⟨L⟩ := S.search.heap
  obtain ⟨hp, hx, hy⟩ := dest_place S back
  unfold setupNew at hr
  cases hs : SetupCommander.new (solveTo C b back) n with
  | error e => rw [hs] at hr; cases hr
  | ok s =>
    obtain ⟨i, t, t1, t2, t3, t4, ⟨c, t5⟩, -⟩ := C93_choice (b := b) S.search.width L S.search.costs S.search.fit hn hp hs
    obtain ⟨m, o⟩ := s
    cases t4
    have hnew : Operator.new C b a (setupOp back ⟨m, some (n, t.1)⟩) = .ok (.rotate n t.1, setupOp back ⟨m, none⟩) := by
      cases back <;> simp [Operator.new, setupOp, Operator.next, SetupCommander.nextCommand, setupAnswer, ha, bind, Except.bind, pure, Except.pure]
    rw [hs] at hr
    simp only [bind, Except.bind, hnew, pure, Except.pure] at hr
    cases hr
    subst he
    have key : ∃ ps' n' k, ps'.length + 1 = ps.length + 1 ∧ Story C.search.W (posBlocked real) C.search.start (ps' ++ [Phase.turn n' k]) m ∧
        ps.flatMap Phase.commands ++ [.rotate n t.1] = (ps' ++ [Phase.turn n' k]).flatMap Phase.commands :=
      ⟨ps, n, t.1, rfl, .turn ps n m t.1 t.2 h hl hn (List.mem_of_getElem? t1) t2, by rw [List.flatMap_append]; rfl⟩
    cases back <;> exact key

theorem tale_run (S : LifeSetting C cost real goal0 rest) {back : Bool} {cs : List Command} {a : Agent} {n n' : Node} {k : RotationKind} {c : Command} {op : Operator}
    {ps : List Phase} (hT : TrueBelief C.search.W real b) (hn : CellPose C.search.W n) (h : Story C.search.W (posBlocked real) C.search.start (ps ++ [Phase.turn n' k]) n)
    (he : cs = (ps ++ [Phase.turn n' k]).flatMap Phase.commands) (ha : a.accepts = true) (hr : runNew C back b a n = .ok (some (c, op))) : Tale C real (ps.length + 2) op (cs ++ [c]) := by
  obtain ⟨L⟩ := S.search.heap
  obtain ⟨hp, hx, hy⟩ := dest_place S back
  unfold runNew at hr
  cases hs : RunCommander.new (solveTo C b back) n with
  | error e => rw [hs] at hr; cases hr
  | ok s =>
    obtain ⟨⟨a1, a2, a3, a4, a5, a6, a7, ⟨w, a8⟩, -⟩, hi⟩ := C92_new (b := b) S.search.width L S.search.costs S.search.fit hn.1 hp hs
    obtain ⟨cur, path, i⟩ := s
    simp only at a1 a2 a3 a4 a5 a6 a7 a8 hi
    subst hi
    have hW := S.search.width.le
    have hl : ∀ n ∈ path.head?, Legal C.search.W n := by rw [a2]; rintro x ⟨⟩; exact hn.1
    have hf := fast_mono (isWall' := posBlocked real) (fun c hc => (uncertain_open hT _ hc).1) a8
    obtain ⟨rcs, p1, p2⟩ := plan_of (by omega) hf hl cur
    have hlen := p1.1
    have h0 : 0 < rcs.length := by omega
    have e5 := p2 0 rcs[0] (List.getElem?_eq_getElem h0)
    have hnew : Operator.new C b a (runOp back ⟨cur, path, 0⟩) = .ok (.run rcs[0], runOp back ⟨cur, path, 1⟩) := by
      unfold Operator.new
      rw [run_next, e5]
      simp [Except.map, runAnswer, ha, bind, Except.bind, pure, Except.pure]
    rw [hs] at hr
    simp only [bind, Except.bind, hnew, pure, Except.pure] at hr
    cases hr
    have e : cs ++ [.run rcs[0]] = (ps ++ [Phase.turn n' k]).flatMap Phase.commands ++ (rcs.take 1).map .run := by
      rw [he]
      congr 1
      cases rcs with
      | nil => simp at h0
      | cons x rcs => simp
    have hcur : CellPose C.search.W cur := ⟨a4, by omega, by omega⟩
    rw [e]
    cases back <;> exact ⟨ps, n, n', k, rcs, rfl, h, a2, a3, p1, hcur, le_refl _, h0, p2, rfl⟩

/-- The last phase is complete. -/
theorem tale_done (S : LifeSetting C cost real goal0 rest) {I : Nat} {op : Operator} {mode : Mode} {cs : List Command} (h : OpInv C cost real count b op mode cs)
    (ht : Tale C real I op cs) (hF : Finished op) : ∃ ps, ps.length = I ∧ Story C.search.W (posBlocked real) C.search.start ps op.current ∧ cs = ps.flatMap Phase.commands := by
  cases h with
  | search s rs b0 h h1 h2 h3 => exact ⟨[.hunt (commandsOf rs)], ht.symm, search_phase (S := S.search) h h3, by simp [Phase.commands]⟩
  | setup back k n cs =>
    cases back <;> (obtain ⟨ps, n', k', a0, a1, a2⟩ := ht; exact ⟨_, by simpa using a0, a1, a2⟩)
  | run back k cur path i n cs h1 h2 h3 h4 h5 h6 h7 h8 h9 h10 h11 h12 =>
    have hF' : path.length ≤ i + 1 := by cases back <;> exact hF
    have ht' : ∃ ps n n' k rcs, ps.length + 2 = I ∧ Story C.search.W (posBlocked real) C.search.start (ps ++ [Phase.turn n' k]) n ∧ path.head? = some n ∧
      path.getLast? = some cur ∧ Commands C.search.W (posBlocked real) path rcs ∧ CellPose C.search.W cur ∧ 1 ≤ i ∧ i ≤ rcs.length ∧
      (∀ (j : Nat) (rc : RunCommand), rcs[j]? = some rc → RunCommander.nextCommand ⟨cur, path, j⟩ = .ok (.command rc, ⟨cur, path, j + 1⟩)) ∧
      cs = (ps ++ [Phase.turn n' k]).flatMap Phase.commands ++ (rcs.take i).map .run := by cases back <;> exact ht
    obtain ⟨ps, n, n', k, rcs, a0, a1, a2, a3, a4, a5, a6, a7, a8, rfl⟩ := ht'
    have hl := a4.1
    have ec : Operator.current (runOp back ⟨cur, path, i⟩) = cur := by cases back <;> rfl
    rw [ec, List.take_of_length_le (by omega)]
    refine ⟨_, by simpa using a0, .run ps n cur n' k path rcs a1 a2 a3 (by rintro rfl; simp at a7; omega) a4 a5, ?_⟩
    simp [Phase.commands]

theorem tale_exchange (S : LifeSetting C cost real goal0 rest) {I : Nat} {op op' : Operator} {mode : Mode} {cs : List Command} {a : Agent} {c : Command}
    (h : OpInv C cost real count b op mode cs) (ht : Tale C real I op cs) (hF : Finished op) (ha : a.accepts = true)
    (hr : exchange C b a op mode.successor = .ok (some (c, op'))) : Tale C real (I + 1) op' (cs ++ [c]) := by
  cases h with
  | search s rs b0 h h1 h2 h3 =>
    have f1 := (explores_final S h hF).1
    have e : exchange C b a (.search s) (Mode.search count).successor = setupNew C true b a s.current := by
      unfold exchange
      rw [show Operator.current (.search s) = s.current from rfl, legal_ofNode f1.1]
      rfl
    rw [e] at hr
    rw [show I = 1 from ht]
    refine tale_setup S f1 (search_phase (S := S.search) h h3) (by simp) (by simp [Phase.commands]) ha hr
  | setup back k n cs h1 h2 h3 h4 h5 h6 h7 h8 =>
    have e : exchange C b a (setupOp back ⟨n, none⟩) (setupMode back k).successor = runNew C back b a n := by
      unfold exchange
      rw [show Operator.current (setupOp back ⟨n, none⟩) = n from by cases back <;> rfl, legal_ofNode h3.1]
      cases back <;> rfl
    rw [e] at hr
    have ht' : ∃ ps n' k, ps.length + 1 = I ∧ Story C.search.W (posBlocked real) C.search.start (ps ++ [Phase.turn n' k]) n ∧ cs = (ps ++ [Phase.turn n' k]).flatMap Phase.commands := by
      cases back <;> exact ht
    obtain ⟨ps, n', k', a0, a1, a2⟩ := ht'
    rw [← a0]
    exact tale_run S h1 h3 a1 a2 ha hr
  | run back k cur path i n cs h1 h2 h3 h4 h5 h6 h7 h8 h9 h10 h11 h12 =>
    have ec : Operator.current (runOp back ⟨cur, path, i⟩) = cur := by cases back <;> rfl
    by_cases hz : back = true ∧ k = 0
    · obtain ⟨rfl, rfl⟩ := hz
      have e : exchange C b a (runOp true ⟨cur, path, i⟩) (runMode true 0).successor = .ok none := by
        unfold exchange
        rw [ec, legal_ofNode h3.1]
        rfl
      rw [e] at hr
      cases hr
    · obtain ⟨k', em⟩ : ∃ k', (runMode back k).successor = setupMode (!back) k' := by
        cases back with
        | true =>
          have : k ≠ 0 := fun h => hz ⟨rfl, h⟩
          exact ⟨k - 1, by simp [runMode, Mode.successor, setupMode, this]⟩
        | false => exact ⟨k, rfl⟩
      have e : exchange C b a (runOp back ⟨cur, path, i⟩) (runMode back k).successor = setupNew C (!back) b a cur := by
        unfold exchange
        rw [ec, legal_ofNode h3.1, em]
        exact construct_setup _ _ _ _
      rw [e] at hr
      have hF' : path.length ≤ i + 1 := by cases back <;> exact hF
      have ht' : ∃ ps n n' k rcs, ps.length + 2 = I ∧ Story C.search.W (posBlocked real) C.search.start (ps ++ [Phase.turn n' k]) n ∧ path.head? = some n ∧
        path.getLast? = some cur ∧ Commands C.search.W (posBlocked real) path rcs ∧ CellPose C.search.W cur ∧ 1 ≤ i ∧ i ≤ rcs.length ∧
        (∀ (j : Nat) (rc : RunCommand), rcs[j]? = some rc → RunCommander.nextCommand ⟨cur, path, j⟩ = .ok (.command rc, ⟨cur, path, j + 1⟩)) ∧
        cs = (ps ++ [Phase.turn n' k]).flatMap Phase.commands ++ (rcs.take i).map .run := by cases back <;> exact ht
      obtain ⟨ps, n, n', k, rcs, a0, a1, a2, a3, a4, a5, a6, a7, a8, rfl⟩ := ht'
      have hl := a4.1
      rw [List.take_of_length_le (by omega)]
      rw [← a0, show ps.length + 2 = (ps ++ [Phase.turn n' k, .run path rcs]).length by simp]
      refine tale_setup S h3 (.run ps n cur n' k path rcs a1 a2 a3 (by rintro rfl; simp at a7; omega) a4 a5) (by simp) (by simp [Phase.commands]) ha hr

theorem spot_successor {op : Operator} {mode : Mode} {cs : List Command} (h : OpInv C cost real count b op mode cs) (h0 : mode ≠ .ret 0) :
    spot count mode.successor = spot count mode + 1 := by
  cases h with
  | search => simp [Mode.successor, spot]
  | setup back k n cs h1 h2 =>
    cases back with
    | true => simp [setupMode, Mode.successor, spot]
    | false =>
      have : k < count := h2
      simp only [setupMode, Mode.successor, spot]
      omega
  | run back k cur path i n cs h1 h2 =>
    cases back with
    | true =>
      have h3 : k ≤ count := h2
      have h4 : k ≠ 0 := by rintro rfl; exact h0 rfl
      simp only [runMode, Mode.successor, if_neg h4, spot]
      omega
    | false => simp [runMode, Mode.successor, spot]

/-- The phases of a life so far. -/
def AdminTale (C : Life.Config) (real : Wall → Bool) (count : Nat) (s : Admin) (cs : List Command) : Prop :=
  match s.operator with
  | some op => Tale C real (spot count s.mode + 1) op cs
  | none => ∃ ps m, ps.length = 4 * count + 3 ∧ Story C.search.W (posBlocked real) C.search.start ps m ∧ cs = ps.flatMap Phase.commands

theorem lives_tale (S : LifeSetting C cost real goal0 rest) {s : Admin} {cs : List Command} (h : Lives C real count b s cs) : AdminTale C real count s cs := by
  induction h with
  | start b a c op hT ho ha hr =>
    obtain ⟨m, h1, -⟩ := OldS.init_step S.search.width S.search.start ho
    have hn : Old.Search.nextCommand C.search b (.new C.search.start) = .ok (.command C.search.start .init, ⟨m, .solving, []⟩) := by
      simp only [Old.Search.nextCommand, Old.Search.Commander.new, h1, bind, Except.bind, pure, Except.pure]
    simp only [construct, Operator.new, Operator.next, hn, searchAnswer, ha, if_true, bind, Except.bind, pure, Except.pure, Except.ok.injEq,
      Option.some.injEq, Prod.mk.injEq] at hr
    obtain ⟨rfl, rfl⟩ := hr
    exact rfl
  | call b e s s' r cs new hs hL hT' ha ha' hr ih =>
    cases lives_inv S hs with
    | dead m cs h1 h2 h3 h4 => cases hr
    | alive op mode cs h =>
      have h := h.learn hT' hL
      have hrun : Admin.run C e ⟨some op, mode, false, true⟩ = (do
        match ← op.step C e.belief e.agent with
        | (.incompleted, cs, op) => return (.ok, cs, ⟨some op, mode, false, true⟩)
        | (.failed, cs, op) => return (.operatorError, cs, ⟨some op, mode, false, true⟩)
        | (.done, cs, op) =>
          let (ok, cs', s) ← Admin.exchangeOperator C e.belief e.newAgent ⟨some op, mode.successor, false, false⟩ mode.successor
          return if ok then (.ok, cs ++ cs', { s with interrupts := true }) else (.unsupported, cs ++ cs', s)) := rfl
      rw [hrun] at hr
      cases hst : op.step C e.belief e.agent with
      | error p => rw [hst] at hr; cases hr
      | ok x =>
        obtain ⟨out, new1, op1⟩ := x
        obtain ⟨g1, g2, g3⟩ := op_step S h ha hst
        have g4 := tale_step S h ih ha hst
        rw [hst] at hr
        cases out with
        | failed => exact absurd rfl g1
        | incompleted =>
          simp only [bind, Except.bind, pure, Except.pure] at hr
          cases hr
          exact g4
        | done =>
          obtain ⟨rfl, hF⟩ := g3 rfl
          rw [List.append_nil] at g2 g4
          simp only [bind, Except.bind, pure, Except.pure, Admin.exchangeOperator] at hr
          cases hx : exchange C e.belief e.newAgent op1 mode.successor with
          | error p => rw [hx] at hr; cases hr
          | ok o =>
            rw [hx] at hr
            cases o with
            | none =>
              simp only at hr
              cases hr
              obtain ⟨ps, p0, p1, p2⟩ := tale_done S g2 g4 hF
              obtain rfl := (op_exchange S g2 hF ha').2.1 hx
              exact ⟨ps, _, by rw [p0]; simp [spot], p1, by simpa using p2⟩
            | some co =>
              obtain ⟨c, op2⟩ := co
              simp only at hr
              cases hr
              have := tale_exchange S g2 g4 hF ha' hx
              rw [← spot_successor g2 (fun hm => by rw [(op_exchange S g2 hF ha').2.2.1 hm] at hx; cases hx)] at this
              exact this

/-- The commands of a life are those of phases, of which the last has begun. -/
theorem lives_story (S : LifeSetting C cost real goal0 rest) {s : Admin} {cs : List Command} (h : Lives C real count b s cs) :
    ∃ ps ph m, Story C.search.W (posBlocked real) C.search.start (ps ++ [ph]) m ∧
      (if s.operator = none then ps.length = 4 * count + 2 ∧ cs = (ps ++ [ph]).flatMap Phase.commands
       else ps.length = spot count s.mode ∧ ∃ l, l ≠ [] ∧ l <+: ph.commands ∧ cs = ps.flatMap Phase.commands ++ l) := by
  have ht := lives_tale S h
  have full : ∀ (ps : List Phase) (m : Node), Story C.search.W (posBlocked real) C.search.start ps m →
      ∃ ps' ph, ps = ps' ++ [ph] ∧ ph.commands ≠ [] := by
    intro ps m h1
    cases h1 with
    | hunt l m g0 => exact ⟨[], _, rfl, by simpa [Phase.commands] using g0⟩
    | turn ps n m k e => exact ⟨ps, _, rfl, by simp [Phase.commands]⟩
    | run ps n m n' k path rcs _ _ _ g0 => exact ⟨ps ++ [.turn n' k], .run path rcs, by simp, by simpa [Phase.commands] using g0⟩
  cases lives_inv S h with
  | dead m cs h1 h2 h3 h4 =>
    obtain ⟨ps, m, p0, p1, p2⟩ := ht
    obtain ⟨ps', ph, rfl, -⟩ := full ps m p1
    exact ⟨ps', ph, m, p1, by rw [if_pos rfl]; exact ⟨by simpa using p0, p2⟩⟩
  | alive op mode cs hI =>
    simp only [reduceCtorEq, if_false]
    have ht : Tale C real (spot count mode + 1) op cs := ht
    have part : ∀ (ps : List Phase) (m : Node), ps.length = spot count mode + 1 → Story C.search.W (posBlocked real) C.search.start ps m →
        cs = ps.flatMap Phase.commands → ∃ ps ph m, Story C.search.W (posBlocked real) C.search.start (ps ++ [ph]) m ∧
          ps.length = spot count mode ∧ ∃ l, l ≠ [] ∧ l <+: ph.commands ∧ cs = ps.flatMap Phase.commands ++ l := by
      intro ps m g0 g1 g2
      obtain ⟨ps', ph, rfl, g3⟩ := full ps m g1
      exact ⟨ps', ph, m, g1, by simpa using g0, _, g3, List.prefix_refl _, by rw [g2]; simp⟩
    cases hI with
    | search s rs b0 hE h1 h2 h3 => exact part [.hunt (commandsOf rs)] _ ht.symm (search_phase (S := S.search) hE h3) (by simp [Phase.commands])
    | setup back k n cs =>
      cases back <;> (obtain ⟨ps, n', k', a0, a1, a2⟩ := ht; exact part _ _ (by simpa using a0) a1 a2)
    | run back k cur path i n cs h1 h2 h3 h4 h5 h6 h7 h8 h9 h10 h11 h12 =>
      have ht' : ∃ ps n n' k' rcs, ps.length + 2 = spot count (runMode back k) + 1 ∧ Story C.search.W (posBlocked real) C.search.start (ps ++ [Phase.turn n' k']) n ∧
        path.head? = some n ∧
        path.getLast? = some cur ∧ Commands C.search.W (posBlocked real) path rcs ∧ CellPose C.search.W cur ∧ 1 ≤ i ∧ i ≤ rcs.length ∧
        (∀ (j : Nat) (rc : RunCommand), rcs[j]? = some rc → RunCommander.nextCommand ⟨cur, path, j⟩ = .ok (.command rc, ⟨cur, path, j + 1⟩)) ∧
        cs = (ps ++ [Phase.turn n' k']).flatMap Phase.commands ++ (rcs.take i).map .run := by cases back <;> exact ht
      obtain ⟨ps, n, n', k', rcs, a0, a1, a2, a3, a4, a5, a6, a7, a8, rfl⟩ := ht'
      refine ⟨ps ++ [.turn n' k'], .run path rcs, cur, ?_, by simp; omega, (rcs.take i).map .run, ?_, (List.take_prefix _ _).map _, rfl⟩
      · have := Story.run ps n cur n' k' path rcs a1 a2 a3 (by rintro rfl; simp at a7; omega) a4 a5
        simpa using this
      · intro he
        have := congrArg List.length he
        rw [List.length_map, List.length_take, List.length_nil] at this
        omega

end life

end Verif.Proof.OldU
