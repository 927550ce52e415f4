import Verif.Proof.OldTurn
import Verif.Props.OldHunt
/-!
# C100: the targets of a whole life of the former robot
-/
namespace Verif.Props
open Verif Verif.Control Verif.Straight Verif.Slalom Verif.Spec Verif.Old Verif.Old.Turn Verif.Proof.OldU
open Verif.Spec.Traject (Outputs Gives)
open Verif.Old.FastRun (RotationKind RunCommand)
open Verif.Old.Life (Command Admin Mode)
open Verif.Run (Node Posture)

variable {c : Turn.Config}

/-- **C100, rotations.** The trajectory of a rotation in a cell ends; the mouse turns on the spot from the pose of the command by the angle of the rotation,
to the right with negative angles, and not faster than the settings allow. `front` is a single target at rest. The heading in the end is that of the node
that `Turned` names. -/
theorem C100_turn (hc : StoryOk c) {W : Nat} {n : Node} (hn : CellPose W n) (k : RotationKind) :
    ∃ ts, Gives turnStepper [c.turn (n, k)] ts [] ∧ Spins c.spin.vMax c.period (standing c.squareWidth c.frontOffset n) (rotationAngle k) ts ∧
      (k = .front → ∃ t, ts = [t] ∧ At t (standing c.squareWidth c.frontOffset n) ∧ Still t) ∧
      ∀ e m, (k, e) ∈ turns → Turned n e m →
        ∃ z : ℤ, (standing c.squareWidth c.frontOffset n).theta + rotationAngle k = (standing c.squareWidth c.frontOffset m).theta + 2 * Real.pi * z := by
  obtain ⟨l, h1, h2⟩ := rotation_ok hc (standing c.squareWidth c.frontOffset n) k
  have e : c.turn (n, k) = (standing c.squareWidth c.frontOffset n, c.trajectory k) := by
    unfold Config.turn
    rw [Proof.OldH.poseOf_standing (Or.inl hn)]
  refine ⟨l, ?_, h2, ?_, ?_⟩
  · rw [e]
    have := Gives.over _ [] l [] [] h1 .nil
    simpa using this
  · rintro rfl
    obtain ⟨t, f1, f2, f3⟩ := h2.first
    refine ⟨t, ?_, f2, f3⟩
    cases h1 with
    | over _ h => cases f1
    | more s x s' l r h h' =>
      cases f1
      cases h
      cases h' with
      | over => rfl
      | more s x s' l r h => cases h
  · intro e m hk ht
    obtain ⟨-, z, hz⟩ := toward_turn (Proof.OldH.cell_axis hn) hk ht
    exact ⟨z, by rw [(standing_cell hn _ _).2.2, (standing_cell (turned_cell hn hk ht) _ _).2.2, hz]⟩

/-- **C100, stories.** Whenever phases follow each other, the trajectories of all their commands end, the targets of each phase lead from its pose to that of
the next, and the first target of a phase can follow the last of the phase before: it is at most a step further, and at rest. -/
theorem C100_story (hc : StoryOk c) {W : Nat} (hW : Supported W) {isWall : Verif.Search.Coord → Bool} {start m : Node} (hs : CellPose W start) {ps : List Phase}
    (h : Story W isWall start ps m) : ∃ tss, Told c W isWall start ps m tss := by
  obtain ⟨tss, h, -⟩ := story_told hc hW hs h
  exact ⟨tss, h⟩

section life
variable {C : Life.Config} {cost : Pattern → Nat} {real : Wall → Bool} {goal0 : Node} {rest : List Node} {b : Belief} {count : Nat} {s : Admin} {cs : List Command}

/-- **C100, phases.** The commands of a life are those of phases that follow each other, in the order of the modes: the phase of the current mode has begun,
and those before it are complete. When there is no operator any more, all phases are complete. -/
theorem C100_phases (S : LifeSetting C cost real goal0 rest) (h : Lives C real count b s cs) :
    ∃ ps ph m, Story C.search.W (posBlocked real) C.search.start (ps ++ [ph]) m ∧
      (s.operator ≠ none → (ModeOrder count)[ps.length]? = some s.mode ∧ ∃ l, l ≠ [] ∧ l <+: ph.commands ∧ cs = ps.flatMap Phase.commands ++ l) ∧
      (s.operator = none → (ModeOrder count).length = ps.length + 2 ∧ cs = (ps ++ [ph]).flatMap Phase.commands) := by
  obtain ⟨ps, ph, m, h1, h2⟩ := lives_story S h
  refine ⟨ps, ph, m, h1, fun h0 => ?_, fun h0 => ?_⟩
  · rw [if_neg h0] at h2
    refine ⟨?_, h2.2⟩
    rw [h2.1]
    cases lives_inv S h with
    | alive op mode cs hI => exact (op_mode hI).1
    | dead => exact absurd rfl h0
  · rw [if_pos h0] at h2
    refine ⟨?_, h2.2⟩
    rw [h2.1, order_eq, List.length_cons]
    have : ∀ n, (afterSearch n).length = 4 * n + 3 := by
      intro n
      induction n with
      | zero => rfl
      | succ n ih => simp only [afterSearch, List.length_cons, ih]; omega
    rw [this]

/-- **C100, lives.** The targets of the phases of a life lead the mouse from the start through openings of the maze, phase by phase. -/
theorem C100_targets (hc : StoryOk c) (S : LifeSetting C cost real goal0 rest) (h : Lives C real count b s cs) :
    ∃ ps ph m tss, Told c C.search.W (posBlocked real) C.search.start (ps ++ [ph]) m tss ∧
      ((ModeOrder count)[ps.length]? = some s.mode ∧ (∃ l, l ≠ [] ∧ l <+: ph.commands ∧ cs = ps.flatMap Phase.commands ++ l) ∨
       s.operator = none ∧ cs = (ps ++ [ph]).flatMap Phase.commands) := by
  obtain ⟨ps, ph, m, h1, h2, h3⟩ := C100_phases S h
  obtain ⟨tss, h4⟩ := C100_story hc S.search.width S.search.start h1
  refine ⟨ps, ph, m, tss, h4, ?_⟩
  by_cases h0 : s.operator = none
  · exact .inr ⟨h0, (h3 h0).2⟩
  · exact .inl (h2 h0)

end life

/-! ### Cases -/

/-- The settings of the cases of C98 and C99 in one. -/
noncomputable def lifeSample : Turn.Config := ⟨1, 10, 100, 0.3, 0.5, ⟨8 * Real.pi, 80 * Real.pi, 160 * Real.pi⟩, 0.001, 0.09, 0.01⟩

theorem life_sample : StoryOk lifeSample where
  hunt := hunt_sample
  run := sample_ok
  quarter := by
    simp only [lifeSample]
    have hp := Real.pi_pos
    have hp3 := Real.pi_gt_three
    unfold rampDist rampTime resolution
    rw [sub_zero, abs_of_nonneg (by positivity)]
    simp only
    rw [if_neg (by
      rw [not_le, div_lt_div_iff₀ (by positivity) (by positivity)]
      nlinarith)]
    have e : 8 * Real.pi / 2 ^ 25 / (160 * Real.pi) = 8 / (2 ^ 25 * 160) := by field_simp
    rw [e]
    have : Real.sqrt (8 / (2 ^ 25 * 160)) ≤ 1 := by rw [Real.sqrt_le_left (by norm_num)]; norm_num
    have h2 := Real.sqrt_nonneg (8 / (2 ^ 25 * 160))
    norm_num at *
    nlinarith

/-- A rotation to the right, from north to east. -/
example : ∃ ts, Gives turnStepper [lifeSample.turn (⟨0, 0, .north⟩, .right)] ts [] ∧
    Spins (8 * Real.pi) 0.001 ⟨(0 + 1) * (0.09 / 2), (0 + 1) * (0.09 / 2), Real.pi / 2⟩ (-(Real.pi / 2)) ts := by
  have hn : CellPose 4 ⟨0, 0, .north⟩ := by decide
  obtain ⟨ts, h1, h2, -, h3⟩ := C100_turn life_sample hn .right
  obtain ⟨z, -⟩ := h3 2 ⟨0, 0, .east⟩ (by decide) ⟨rfl, rfl, rfl⟩
  refine ⟨ts, h1, ?_⟩
  obtain ⟨a1, a2, a3⟩ := standing_cell hn lifeSample.squareWidth lifeSample.frontOffset
  have e : standing lifeSample.squareWidth lifeSample.frontOffset ⟨0, 0, .north⟩ = ⟨(0 + 1) * (0.09 / 2), (0 + 1) * (0.09 / 2), Real.pi / 2⟩ := by
    have a3 : (standing lifeSample.squareWidth lifeSample.frontOffset ⟨0, 0, .north⟩).theta = Real.pi / 2 := a3
    generalize standing lifeSample.squareWidth lifeSample.frontOffset ⟨0, 0, .north⟩ = q at a1 a2 a3
    obtain ⟨x, y, t⟩ := q
    simp only [lifeSample, Nat.cast_zero] at a1 a2 a3
    rw [a1, a2, a3]
  rw [e] at h2
  exact h2

theorem small_lived (k : Nat) (hk : k = 8 ∨ k = 16) : ∃ b s cs, Lives smallLife (walled twoWalls) 1 b s cs ∧
    (k = 8 → cs.length = 9 ∧ s.mode = .run 0) ∧ (k = 16 → cs.length = 16 ∧ s.operator = none) := by
  have h0 : (match lifeOf smallLife 1 (knowing (walled twoWalls) allWalls) (List.replicate k (knowing (walled twoWalls) allWalls)) with
      | .ok (cs, s) => (k == 8 && cs.length == 9 && s.mode == .run 0) || (k == 16 && cs.length == 16 && s.operator.isNone)
      | .error _ => false) = true := by
    rcases hk with rfl | rfl <;> decide +kernel
  cases h : lifeOf smallLife 1 (knowing (walled twoWalls) allWalls) (List.replicate k (knowing (walled twoWalls) allWalls)) with
  | error p => rw [h] at h0; cases h0
  | ok x =>
    obtain ⟨cs, s⟩ := x
    rw [h] at h0
    obtain ⟨b, -, hb⟩ := life_lives (real := walled twoWalls) (fun b' hb => by
      rcases List.mem_cons.mp hb with rfl | hb
      · exact knowing_true _ _
      · rw [List.eq_of_mem_replicate hb]; exact knowing_true _ _) (by
        have : ∀ k (b : Belief), (b :: List.replicate k b).IsChain Learns := by
          intro k b
          induction k with
          | zero => simp
          | succ k ih => rw [List.replicate_succ, List.isChain_cons_cons]; exact ⟨fun _ h => h, ih⟩
        exact this _ _) (open_ahead twoWalls (by decide) _) h
    refine ⟨b, s, cs, hb, ?_, ?_⟩
    · rintro rfl
      simpa using h0
    · rintro rfl
      simpa using h0

/-- The targets of a whole life with one fast run: a search, a return, a fast run, and another return; seven phases. -/
example : ∃ b s cs ps m tss, Lives smallLife (walled twoWalls) 1 b s cs ∧ cs.length = 16 ∧ cs = ps.flatMap Phase.commands ∧ ps.length = 7 ∧
    Told lifeSample 4 (posBlocked (walled twoWalls)) ⟨0, 0, .north⟩ ps m tss := by
  obtain ⟨b, s, cs, h1, -, h2⟩ := small_lived 16 (.inr rfl)
  obtain ⟨h2, h3⟩ := h2 rfl
  obtain ⟨ps, ph, m, g1, -, g2⟩ := C100_phases small_life h1
  obtain ⟨g2, g3⟩ := g2 h3
  obtain ⟨tss, g4⟩ := C100_story life_sample small_life.search.width small_life.search.start g1
  refine ⟨b, s, cs, ps ++ [ph], m, tss, h1, h2, g3, ?_, g4⟩
  have : (ModeOrder 1).length = 8 := rfl
  rw [List.length_append, List.length_singleton]
  omega

/-- During the fast run of that life: the fifth phase has begun. -/
example : ∃ b s cs ps ph m tss, Lives smallLife (walled twoWalls) 1 b s cs ∧ s.mode = .run 0 ∧ (ModeOrder 1)[ps.length]? = some (.run 0) ∧
    Told lifeSample 4 (posBlocked (walled twoWalls)) ⟨0, 0, .north⟩ (ps ++ [ph]) m tss := by
  obtain ⟨b, s, cs, h1, h2, -⟩ := small_lived 8 (.inl rfl)
  obtain ⟨ps, ph, m, tss, g1, g2⟩ := C100_targets life_sample small_life h1
  rcases g2 with ⟨g2, -⟩ | ⟨g2, -⟩
  · exact ⟨b, s, cs, ps, ph, m, tss, h1, (h2 rfl).2, by rw [g2, (h2 rfl).2], g1⟩
  · exfalso
    cases lives_inv small_life h1 with
    | alive => cases g2
    | dead => exact absurd (h2 rfl).2 (by simp)

end Verif.Props
