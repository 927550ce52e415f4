import Verif.Proof.SingleRun
import Verif.Props.SingleHunt
/-!
# C127: the fast run in single precision
-/
namespace Verif.Props
open Verif Verif.Single Verif.Spec Verif.Binary32 Verif.Proof
open Verif.Run (Node EdgeKind TrajectoryKind)

variable {exp : F → F} {L : Lib} {V a j p s w ℓ : ℝ} {W : Nat} {c : Dash}

/-! ## The main loop -/

theorem hands_single {A : Arith} {q : Place} {l : List Target} : ∀ {st : Stint}, Produces (Stint.next A L) st l →
    Hands A L [(q, st)] (l.map (shift A L q.x q.y q.theta)) := by
  induction l with
  | nil =>
    intro st h n
    have e := produces_nil h
    cases n with
    | zero => rfl
    | succ n =>
      have : upcoming A L [(q, st)] = .ok (none, []) := by
        unfold upcoming shiftedTo shifted
        dsimp only
        rw [e]
        rfl
      rw [dashTargets, this]
      simp [bind, Except.bind, pure, Except.pure]
  | cons x l ih =>
    intro st h n
    obtain ⟨e, h'⟩ := produces_cons h
    cases n with
    | zero => rfl
    | succ n =>
      have : upcoming A L [(q, st)] = .ok (some (shift A L q.x q.y q.theta x), [(q, (Stint.next A L st).2)]) := by
        unfold upcoming shiftedTo shifted
        dsimp only
        rw [e]
        rfl
      rw [dashTargets, this]
      simp [bind, Except.bind, pure, Except.pure, ih h' n]

theorem hands_cons {A : Arith} {q q2 : Place} {st2 : Stint} {rest : List (Place × Stint)} {l l' : List Target} (h2 : (Stint.next A L st2).1.isSome)
    (hi : Hands A L ((q2, st2) :: rest) l') : ∀ {st : Stint}, Produces (Stint.next A L) st l →
    Hands A L ((q, st) :: (q2, st2) :: rest) (l.map (shift A L q.x q.y q.theta) ++ l') := by
  induction l with
  | nil =>
    intro st h n
    have e := produces_nil h
    cases n with
    | zero => rfl
    | succ n =>
      have : upcoming A L ((q, st) :: (q2, st2) :: rest) = upcoming A L ((q2, st2) :: rest) := by
        obtain ⟨y, hy⟩ := Option.isSome_iff_exists.1 h2
        unfold upcoming shiftedTo shifted
        dsimp only
        rw [e, hy]
        rfl
      rw [dashTargets, this]
      exact hi (n + 1)
  | cons x l ih =>
    intro st h n
    obtain ⟨e, h'⟩ := produces_cons h
    cases n with
    | zero => rfl
    | succ n =>
      have : upcoming A L ((q, st) :: (q2, st2) :: rest) = .ok (some (shift A L q.x q.y q.theta x), (q, (Stint.next A L st).2) :: (q2, st2) :: rest) := by
        unfold upcoming shiftedTo shifted
        dsimp only
        rw [e]
        rfl
      rw [dashTargets, this]
      simp [bind, Except.bind, pure, Except.pure, ih h' n]

/-! ## Moves of a path -/

/-- A move has a trajectory, of a length that the maze has room for. -/
theorem dash_kind (hW : Supported W) {isWall : Search.Coord → Bool} {n m : Node} {k : EdgeKind} (hn : Legal W n) (h : Drivable W isWall n k m) :
    ∃ t, n.trajectoryKind m = .ok (some t) ∧ FastKind t ∧ RoamKind W t ∧ Legal W m := by
  obtain ⟨l, h1, -, h3, h4⟩ := C27_successors W hW isWall n hn
  have hk := (h3 m k).2 h
  obtain ⟨t, ht, hL⟩ := C28_move_has_trajectory W hW isWall n m k l hn h1 hk
  have lm := h4 m k hk
  refine ⟨t, ht, leads_fast hL, ?_, lm⟩
  obtain ⟨f, s, fin, head, cr, fr, q2, mx, my, -, q6⟩ := hL
  have b1 := hn.1
  have b2 := hn.2.1
  have b3 := lm.1
  have b4 := lm.2.1
  have hp := hn.2.2
  unfold Shape at q2
  unfold Frame at fr
  by_cases hc : n.x % 2 = 0 ∧ n.y % 2 = 0
  · rw [if_pos hc] at q2
    simp only [if_pos hc] at fr q6
    obtain ⟨rfl, -⟩ := fr
    cases q2 with
    | straight x hx =>
      simp only [trajOf, Option.some.injEq] at q6
      subst q6
      show x ≤ W
      have hq : n.posture ∈ [Run.Posture.north, .east, .south, .west] := by
        rcases hp with hp | hp
        · exact hp.2.2
        · omega
      simp only [inFrame] at mx my
      generalize n.posture = pp at *
      cases pp <;> simp [heading] at hq mx my <;> omega
    | _ => simp only [trajOf, if_pos hc, Option.some.injEq] at q6; subst q6; trivial
  · rw [if_neg hc] at q2
    cases q2 with
    | straightDiagonal x hx =>
      simp only [trajOf, Option.some.injEq] at q6
      subst q6
      show x ≤ 2 * W
      have hq : n.posture ∈ [Run.Posture.northEast, .southEast, .southWest, .northWest] := by
        rcases hp with hp | hp
        · exact absurd ⟨hp.1, hp.2.1⟩ hc
        · exact hp.2
      simp only [if_neg hc] at fr
      simp only [inFrame] at mx my
      split_ifs at fr <;> obtain ⟨rfl, rfl⟩ := fr <;> generalize n.posture = pp at * <;> cases pp <;> simp [heading] at hq mx my <;> omega
    | _ => simp only [trajOf, if_neg hc, Option.some.injEq] at q6; subst q6; trivial

/-- The pose of a node, in single precision. -/
theorem dash_place (H : Dashes V a j p s w ℓ W c) (hW : Supported W) (w5 : s ≤ 5) {n : Node} (hn : Legal W n) :
    ∃ x y θ : ℝ, placeOfNode (arith exp) n c.squareWidth = ⟨.fin x, .fin y, .fin θ⟩ ∧ round24 x = x ∧ round24 y = y ∧ round24 θ = θ ∧ |x| ≤ 250 ∧ |y| ≤ 250 ∧ |θ| ≤ 250 := by
  obtain ⟨k, hk, rfl⟩ := hW
  have h32 : 2 ^ k ≤ 32 := by
    calc 2 ^ k ≤ 2 ^ 5 := Nat.pow_le_pow_right (by norm_num) hk
      _ = 32 := by norm_num
  have bx := hn.1
  have byy := hn.2.1
  obtain ⟨x, y, θ, e, h1, h2, h3⟩ := C126_node (exp := exp) (n := n) (by omega) (by omega) H.w0 w5
  have s0 := H.w0
  norm_num at s0
  rw [H.width]
  refine ⟨x, y, θ, e, ?_⟩
  have pos : ∀ m : ℕ, m < 2 * 2 ^ k → ((m : ℝ) + 1) * s ≤ 14 := by
    intro m hm
    have h : ((m : ℝ) + 1) ≤ 2 * (2 ^ k : ℕ) := by exact_mod_cast hm
    have := mul_le_mul_of_nonneg_right h (show 0 ≤ s by linarith)
    have := H.maze
    linarith
  have fixed : ∀ {z r : ℝ} {u : F}, u = rnd z → u = .fin r → round24 r = r := by
    intro z r u h h'
    rw [h] at h'
    rw [(rnd_fin h').1]
    exact round24_idem _
  unfold placeOfNode at e
  simp only [Place.mk.injEq] at e
  obtain ⟨ex, ey, eθ⟩ := e
  have deg : ∀ d : ℝ, |d| ≤ 180 → |Slalom.degree d| ≤ 4 := by
    intro d hd
    unfold Slalom.degree
    rw [abs_mul, abs_of_pos (show 0 < Real.pi / 180 by positivity)]
    have := Real.pi_lt_d2
    have := mul_le_mul hd this.le Real.pi_pos.le (by norm_num)
    linarith
  have px : ∀ (m : ℕ) (z : ℝ), m < 2 * 2 ^ k → |z - ((m + 1 : ℕ) : ℝ) * s / 2| ≤ 3 / 10000000 * ((m : ℝ) + 1) * s → |z| ≤ 250 := by
    intro m z hm hz
    have h := pos m hm
    have h0 : 0 ≤ ((m : ℝ) + 1) * s := by positivity
    push_cast at hz
    have e : 3 / 10000000 * ((m : ℝ) + 1) * s = 3 / 10000000 * (((m : ℝ) + 1) * s) := by ring
    rw [e] at hz
    obtain ⟨z1, z2⟩ := abs_le.1 hz
    rw [abs_le]
    constructor <;> linarith
  have fin : ∀ m : ℕ, m < 2 * 2 ^ k → |((m + 1 : ℕ) : ℝ) * s| ≤ 2 ^ 100 := by
    intro m hm
    have h := pos m hm
    push_cast
    rw [abs_of_nonneg (by positivity)]
    have : (1000:ℝ) ≤ 2 ^ 100 := by norm_num
    linarith
  refine ⟨?_, ?_, ?_, px n.x x bx h1, px n.y y byy h2, ?_⟩
  · obtain ⟨z, ez, -⟩ := rnd_err (z := ((n.x + 1 : ℕ) : ℝ) * s) (fin n.x bx)
    rw [show (arith exp).mul (.fin ((n.x + 1 : ℕ) : ℝ)) (.fin s) = .fin z from ez, div_rnd (by norm_num)] at ex
    exact fixed rfl ex
  · obtain ⟨z, ez, -⟩ := rnd_err (z := ((n.y + 1 : ℕ) : ℝ) * s) (fin n.y byy)
    rw [show (arith exp).mul (.fin ((n.y + 1 : ℕ) : ℝ)) (.fin s) = .fin z from ez, div_rnd (by norm_num)] at ey
    exact fixed rfl ey
  · obtain ⟨z, ez, -⟩ := rnd_err (z := Real.pi / 180) (by
      rw [abs_of_pos (show 0 < Real.pi / 180 by positivity)]
      have := Real.pi_lt_d2
      have : (1000:ℝ) ≤ 2 ^ 100 := by norm_num
      linarith)
    unfold Single.degree at eθ
    rw [show (arith exp).rnd (Real.pi / 180) = .fin z from ez] at eθ
    exact fixed rfl eθ
  · have hd : |(Slalom.poseOfNode n s).theta| ≤ 4 := by
      unfold Slalom.poseOfNode
      dsimp only
      refine deg _ ?_
      cases n.posture <;> norm_num [abs_of_pos]
    have := abs_sub_abs_le_abs_sub θ (Slalom.poseOfNode n s).theta
    norm_num at h3
    linarith

/-! ## Whole paths -/

/-- What is known about the speed `v` before the move number `i` of a path of `len` poses. -/
structure Rolling (V w ℓ : ℝ) (len i : Nat) (v : ℝ) : Prop where
  pace : Pace V v
  high : v ≤ w
  rest : i = 0 → v = 0
  cruise : 0 < i → i + 2 < len → ℓ ≤ v
  brake : 0 < i → i + 2 = len → 0.49 * ℓ ≤ v

theorem pace_zero (H : Dashes V a j p s w ℓ W c) : Pace V 0 := ⟨round24_zero, le_rfl, by have := dash_low H; norm_num at this; linarith⟩

/-- Speeds are scaled. -/
theorem pace_scale {v k : ℝ} (hv : Pace V v) (k0 : 0.49 ≤ k) (k1 : k ≤ 0.7) (v0 : 0.01 ≤ v) (hV : V ≤ 5) :
    ∃ u, rnd (v * k) = .fin u ∧ Pace V u ∧ u ≤ v ∧ (k - 0.0001) * v ≤ u := by
  have b100 : (1000:ℝ) ≤ 2 ^ 100 := by norm_num
  have h := hv.high
  norm_num at k0 k1 v0
  have k2 : v * k ≤ v * 0.7 := mul_le_mul_of_nonneg_left (by norm_num; exact k1) hv.low
  have k3 : 0 ≤ v * k := mul_nonneg hv.low (by linarith)
  obtain ⟨u, eu, u0, bu⟩ := rnd_rel0 (z := v * k) k3 (by linarith)
  obtain ⟨u1, u2⟩ := abs_le.1 bu
  norm_num at u1 u2
  have : u ≤ v := by linarith
  refine ⟨u, eu, ⟨by rw [(rnd_fin eu).1]; exact round24_idem _, u0, this.trans h⟩, this, ?_⟩
  norm_num
  linarith

/-- The speeds of a move, and what they lead to. -/
theorem rolling_step (hU : Circular L) (hL : Rooted L) (H : Dashes V a j p s w ℓ W c) (w5 : s ≤ 5) {t : TrajectoryKind} (ht : FastKind t) (hr : RoamKind W t)
    {len i : Nat} {v : ℝ} (hi : i + 2 ≤ len) (hv : Rolling V w ℓ len i v) :
    ∃ u l, (c.stint (arith exp) L t (dashVelocities (arith exp) i len (.fin v) c.slalomVelocity)).2 = .fin u ∧ (i + 3 ≤ len → Rolling V w ℓ len (i + 1) u) ∧
      Produces (Stint.next (arith exp) L) (c.stint (arith exp) L t (dashVelocities (arith exp) i len (.fin v) c.slalomVelocity)).1 l ∧ SoundStint l := by
  have hl := H.low
  have hle := H.least
  norm_num at hle
  have hw := H.pace
  have hz := pace_zero H
  rw [H.run]
  by_cases h1 : i ≤ 1
  · have e : dashVelocities (arith exp) i len (.fin v) (.fin w) = (.fin v, .fin w, .fin w) := by unfold dashVelocities; rw [if_pos h1]
    rw [e]
    by_cases h0 : i = 0
    · obtain rfl := hv.rest h0
      obtain ⟨u, l, eu, hu, uw, ub, p1, s1⟩ := dash_stint (exp := exp) hU hL H w5 ht hr hz hw hw (by linarith) le_rfl le_rfl (b := ℓ) (by linarith) hl
        (.inr ⟨rfl, rfl, rfl, rfl⟩)
      rw [min_eq_left hl] at ub
      exact ⟨u, l, eu, fun _ => ⟨hu, uw, fun h => by omega, fun _ _ => ub, fun _ _ => by linarith⟩, p1, s1⟩
    · have lo : 0.49 * ℓ ≤ v := by
        rcases Nat.lt_or_ge (i + 2) len with h | h
        · have := hv.cruise (by omega) h; linarith
        · exact hv.brake (by omega) (by omega)
      obtain ⟨u, l, eu, hu, uw, ub, p1, s1⟩ := dash_stint (exp := exp) hU hL H w5 ht hr hv.pace hw hw hv.high le_rfl le_rfl (b := v) (by linarith) hv.high (.inl le_rfl)
      rw [min_eq_left hv.high] at ub
      refine ⟨u, l, eu, fun h3 => ?_, p1, s1⟩
      have := hv.cruise (by omega) (by omega)
      exact ⟨hu, uw, fun h => by omega, fun _ _ => by linarith, fun _ _ => by linarith⟩
  · by_cases h2 : i + 2 = len
    · have lo := hv.brake (by omega) h2
      obtain ⟨k, ek, k1, k2, -⟩ : ∃ k : ℝ, (arith exp).rnd 0.6666667 = .fin k ∧ 0.66 ≤ k ∧ k ≤ 0.67 ∧ True := by
        obtain ⟨k, ek, k0, bk⟩ := rnd_rel0 (z := 0.6666667) (by norm_num) (by norm_num)
        obtain ⟨q1, q2⟩ := abs_le.1 bk
        norm_num at q1 q2
        exact ⟨k, ek, by norm_num; linarith, by norm_num; linarith, trivial⟩
      obtain ⟨m, em, hm, mv, mb⟩ := pace_scale (k := k) hv.pace (by norm_num at k1 ⊢; linarith) (by norm_num at k2 ⊢; linarith) (by norm_num; linarith) H.gen.vel
      have e : dashVelocities (arith exp) i len (.fin v) (.fin w) = (.fin v, .fin m, .fin 0) := by
        unfold dashVelocities
        rw [if_neg h1, if_pos h2, ek]
        show (_, rnd (v * k), _) = _
        rw [em]
      rw [e]
      have mb' : 0.655 * v ≤ m := by
        have := mul_le_mul_of_nonneg_right (show 0.655 ≤ k - 0.0001 by norm_num at k1 ⊢; linarith) hv.pace.low
        linarith
      obtain ⟨u, l, eu, -, -, -, p1, s1⟩ := dash_stint (exp := exp) hU hL H w5 ht hr hv.pace hm hz hv.high (mv.trans hv.high) (by linarith) (b := m) (by linarith) le_rfl (.inl mv)
      exact ⟨u, l, eu, fun h => by omega, p1, s1⟩
    · by_cases h3 : i + 3 = len
      · have lo := hv.cruise (by omega) (by omega)
        obtain ⟨m, em, hm, mv, mb⟩ := pace_scale (k := 0.5) hv.pace (by norm_num) (by norm_num) (by norm_num; linarith) H.gen.vel
        have e : dashVelocities (arith exp) i len (.fin v) (.fin w) = (.fin v, .fin m, .fin m) := by
          unfold dashVelocities
          rw [if_neg h1, if_neg h2, if_pos h3]
          show (_, rnd (v * 0.5), rnd (v * 0.5)) = _
          rw [em]
        rw [e]
        norm_num at mb
        obtain ⟨u, l, eu, hu, uw, ub, p1, s1⟩ := dash_stint (exp := exp) hU hL H w5 ht hr hv.pace hm hm hv.high (mv.trans hv.high) (mv.trans hv.high) (b := m) (by linarith) le_rfl
          (.inl mv)
        rw [min_self] at ub
        exact ⟨u, l, eu, fun _ => ⟨hu, uw, fun h => by omega, fun _ h => by omega, fun _ _ => by linarith⟩, p1, s1⟩
      · have e : dashVelocities (arith exp) i len (.fin v) (.fin w) = (.fin w, .fin w, .fin w) := by
          unfold dashVelocities
          rw [if_neg h1, if_neg h2, if_neg h3]
        rw [e]
        obtain ⟨u, l, eu, hu, uw, ub, p1, s1⟩ := dash_stint (exp := exp) hU hL H w5 ht hr hw hw hw le_rfl le_rfl le_rfl (b := w) (by linarith) le_rfl (.inl le_rfl)
        rw [min_self] at ub
        exact ⟨u, l, eu, fun _ => ⟨hu, uw, fun h => by omega, fun _ _ => by linarith, fun _ _ => by linarith⟩, p1, s1⟩

/-- The moves from number `i` on. -/
theorem dash_tail (hU : Circular L) (hL : Rooted L) (hW : Supported W) (H : Dashes V a j p s w ℓ W c) (w5 : s ≤ 5) {isWall : Search.Coord → Bool}
    {cost : EdgeKind → Nat} {len : Nat} : ∀ (path : List Node) (n m : Node) (k i : Nat) (v : ℝ), FastPath W isWall cost (n :: m :: path) k → Legal W n →
    i + 2 + path.length = len → Rolling V w ℓ len i v →
    ∃ q st rest l, c.plan (arith exp) L len i (.fin v) (n :: m :: path) = .ok ((q, st) :: rest) ∧ rest.length = path.length ∧ (Stint.next (arith exp) L st).1.isSome ∧
      Hands (arith exp) L ((q, st) :: rest) l ∧ (∀ t ∈ l, Commanded (arith exp) L t) ∧
      Calls l ((n :: m :: path).dropLast.map fun x => placeOfNode (arith exp) x c.squareWidth) := by
  intro path
  induction path with
  | nil =>
    intro n m k i v hp hn hi hv
    obtain _ | ⟨n, m, kind, rest, k', hd, hp'⟩ := hp
    obtain ⟨t, et, hF, hR, hm⟩ := dash_kind hW hn hd
    obtain ⟨x, y, θ, ep, fx, fy, fθ, bx, by', bθ⟩ := dash_place (exp := exp) H hW w5 hn
    obtain ⟨u, l, eu, -, p1, s1⟩ := rolling_step (exp := exp) hU hL H w5 hF hR (by omega) hv
    obtain ⟨t0, ht0, h0x, h0y, h0θ⟩ := s1.first
    refine ⟨_, _, [], _, ?_, rfl, produces_some p1 ht0, hands_single (q := ⟨.fin x, .fin y, .fin θ⟩) p1, ?_, ?_⟩
    · rw [Dash.plan, et, ep]
      rfl
    · intro t' ht'
      obtain ⟨t'', h'', rfl⟩ := List.mem_map.1 ht'
      exact ⟨⟨.fin x, .fin y, .fin θ⟩, t'', ⟨⟨x, rfl, bx⟩, ⟨y, rfl, by'⟩, ⟨θ, rfl, bθ⟩⟩, s1.tame _ h'', rfl⟩
    · refine ⟨[shift (arith exp) L (.fin x) (.fin y) (.fin θ) t0], ?_, ?_⟩
      · rw [List.singleton_sublist]
        exact List.mem_map_of_mem (List.mem_of_mem_head? ht0)
      · show List.Forall₂ _ _ [placeOfNode (arith exp) n c.squareWidth]
        rw [ep]
        exact .cons (shift_first hU fx fy fθ (by linarith) (by linarith) (by linarith) h0x h0y h0θ) .nil
  | cons z path ih =>
    intro n m k i v hp hn hi hv
    obtain _ | ⟨n, m, kind, rest, k', hd, hp'⟩ := hp
    obtain ⟨t, et, hF, hR, hm⟩ := dash_kind hW hn hd
    obtain ⟨x, y, θ, ep, fx, fy, fθ, bx, by', bθ⟩ := dash_place (exp := exp) H hW w5 hn
    rw [List.length_cons] at hi
    obtain ⟨u, l, eu, hu, p1, s1⟩ := rolling_step (exp := exp) hU hL H w5 hF hR (by omega) hv
    obtain ⟨t0, ht0, h0x, h0y, h0θ⟩ := s1.first
    obtain ⟨q2, st2, rest2, l2, e2, len2, some2, hands2, com2, ts, sub2, at2⟩ := ih m z k' (i + 1) u hp' hm (by omega) (hu (by omega))
    refine ⟨_, _, (q2, st2) :: rest2, _, ?_, by rw [List.length_cons, List.length_cons, len2], produces_some p1 ht0,
      hands_cons (q := ⟨.fin x, .fin y, .fin θ⟩) some2 hands2 p1, ?_, ?_⟩
    · have hk : c.plan (arith exp) L len i (.fin v) (n :: m :: z :: path) = (do
          let stints ← c.plan (arith exp) L len (i + 1)
            (c.stint (arith exp) L t (dashVelocities (arith exp) i len (.fin v) c.slalomVelocity)).2 (m :: z :: path)
          return (placeOfNode (arith exp) n c.squareWidth, (c.stint (arith exp) L t (dashVelocities (arith exp) i len (.fin v) c.slalomVelocity)).1) :: stints) := by
        conv_lhs => rw [Dash.plan]
        rw [et]
        rfl
      rw [hk, eu, e2, ep]
      rfl
    · intro t' ht'
      rcases List.mem_append.1 ht' with ht' | ht'
      · obtain ⟨t'', h'', rfl⟩ := List.mem_map.1 ht'
        exact ⟨⟨.fin x, .fin y, .fin θ⟩, t'', ⟨⟨x, rfl, bx⟩, ⟨y, rfl, by'⟩, ⟨θ, rfl, bθ⟩⟩, s1.tame _ h'', rfl⟩
      · exact com2 t' ht'
    · refine ⟨shift (arith exp) L (.fin x) (.fin y) (.fin θ) t0 :: ts, ?_, ?_⟩
      · exact List.Sublist.append (l₁ := [_]) (List.singleton_sublist.2 (List.mem_map_of_mem (List.mem_of_mem_head? ht0))) sub2
      · rw [List.dropLast_cons_of_ne_nil (by simp), List.map_cons, ep]
        exact .cons (shift_first hU fx fy fθ (by linarith) (by linarith) (by linarith) h0x h0y h0θ) at2

/-- C127: for every path of at least two poses that the planner can return, the driver of the fast run, in single precision, generates a trajectory for
every move and issues their targets one after the other, without panic and without gap, and then ends. All targets are of moderate size, in particular
finite, and there is one exactly at every pose of the path but the last, in the order of the path. -/
theorem C127_run (hU : Circular L) (hL : Rooted L) (hW : Supported W) (H : Dashes V a j p s w ℓ W c) {isWall : Search.Coord → Bool}
    {cost : EdgeKind → Nat} {path : List Node} {k : Nat} (hp : FastPath W isWall cost path k) {start : Node} (hs : path.head? = some start) (hn : Legal W start)
    (h2 : 2 ≤ path.length) :
    ∃ stints l, c.plan (arith exp) L path.length 0 (.fin 0) path = .ok stints ∧ stints.length + 1 = path.length ∧ Hands (arith exp) L stints l ∧
      (∀ t ∈ l, Commanded (arith exp) L t) ∧ Calls l (path.dropLast.map fun x => placeOfNode (arith exp) x c.squareWidth) := by
  rcases path with _ | ⟨n, _ | ⟨m, path⟩⟩
  · cases hs
  · simp at h2
  cases hs
  have R : Rolling V w ℓ (start :: m :: path).length 0 0 :=
    ⟨pace_zero H, by have := H.low; have := H.least; norm_num at this; linarith, fun _ => rfl, fun h => absurd h (lt_irrefl 0), fun h => absurd h (lt_irrefl 0)⟩
  obtain ⟨q, st, rest, l, e, el, -, h, hc, ht⟩ := dash_tail (exp := exp) hU hL hW H (by have := H.slow; have := H.low; have := H.high; linarith) path start m k 0 0 hp hn (by simp; omega) R
  exact ⟨_, l, e, by simp [el], h, hc, ht⟩

/-- C127: the same for every path that the planner has found for a start that is no goal. -/
theorem C127_planned (hU : Circular L) (hL : Rooted L) (H : Dashes V a j p s w ℓ W c) {MAX : Nat} {ops : Run.HeapOps} (hO : HeapLaws ops Run.QUE_MAX)
    (hW : Supported W) {start : Node} {isGoal : Node → Bool} {isWall : Search.Coord → Bool} {cost : EdgeKind → Nat} (hn : Legal W start) (hM : 0 < MAX)
    (hng : isGoal start = false) {path : List Node} {k : Nat} {dropped : Bool} (h : Run.shortestPath W MAX ops start isGoal isWall cost = .ok (some (path, k), dropped)) :
    ∃ stints l, c.plan (arith exp) L path.length 0 (.fin 0) path = .ok stints ∧ stints.length + 1 = path.length ∧ Hands (arith exp) L stints l ∧
      (∀ t ∈ l, Commanded (arith exp) L t) ∧ Calls l (path.dropLast.map fun x => placeOfNode (arith exp) x c.squareWidth) := by
  obtain ⟨hs, ⟨goal, hg, hgg⟩, hp, -⟩ := C29_path_valid W MAX ops hO start isGoal isWall cost hW hn hM path k dropped h
  refine C127_run hU hL hW H hp hs hn ?_
  rcases path with _ | ⟨a, _ | ⟨b, path⟩⟩
  · cases hs
  · cases hs
    cases hg
    exact absurd (hng.symm.trans hgg) (by simp)
  · simp

/-- C127: when the start is a goal, there is nothing to drive, and the main loop panics in its first round. -/
theorem C127_at_goal (A : Arith) (n : Node) : c.plan A L 1 0 (.fin 0) [n] = .ok [] ∧ ∀ k, dashTargets A L (k + 1) [] = .error .unreachable := by
  refine ⟨?_, fun k => rfl⟩
  rw [Dash.plan]
  simp

/-- C127: and the control loop can follow: with plausible readings of the sensors all voltages of the run are finite numbers. -/
theorem C127_drive (hF : Fair L) (hU : Circular L) (hL : Rooted L) (hW : Supported W) (H : Dashes V a j p s w ℓ W c) {isWall : Search.Coord → Bool}
    {cost : EdgeKind → Nat} {path : List Node} {k : Nat} (hp : FastPath W isWall cost path k) {start : Node} (hs : path.head? = some start) (hn : Legal W start)
    (h2 : 2 ≤ path.length) {stints : List (Place × Stint)} (hd : c.plan (arith exp) L path.length 0 (.fin 0) path = .ok stints) (n : Nat) {l : List Target}
    {ended : Bool} (hr : dashTargets (arith exp) L n stints = .ok (l, ended))
    {p' Wh w' Ω Vh : ℝ} {r : Robot} (B : Assembled p' Wh w' Ω Vh r) (rounds : List (Sensor × Target)) (hq : ∀ q ∈ rounds, Plausible p' Wh w' Ω q.1)
    (ht : rounds.map Prod.snd = l) : ∀ o ∈ (roundsOf (arith exp) L r rounds).2, Mag 122 o.left ∧ Mag 122 o.right := by
  obtain ⟨st, l', e, -, hh, hc, -⟩ := C127_run (exp := exp) hU hL hW H hp hs hn h2
  obtain rfl : stints = st := Except.ok.inj (hd.symm.trans e)
  have hl : l'.take n = l := congrArg Prod.fst (Except.ok.inj ((hh n).symm.trans hr))
  refine C125_drive hF hU B rounds fun q h => ⟨hq q h, ?_⟩
  obtain ⟨⟨px, py, pt⟩, t, ⟨⟨x, ex, bx⟩, ⟨y, ey, byy⟩, ⟨z, ez, bz⟩⟩, htame, e⟩ := hc q.2 (List.mem_of_mem_take (hl ▸ ht ▸ List.mem_map_of_mem h))
  dsimp only at ex ey ez
  subst ex ey ez
  exact ⟨t, x, y, z, htame, bx, byy, bz, e⟩

/-! ## Real numbers -/

section
variable (T : Control.Trig) (pi : ℝ)

/-- The trajectories of a run and the same in real numbers. -/
def StintSame : Stint → Driver.Traj → Prop
  | .straight s, .straight t => StretchSame s t
  | .slalom q s, .slalom pose t => ∃ r : Slalom.Params, q = shapeOf r ∧ pose = r.curveEnd ∧ Both (Both StretchSame BendSame) StretchSame s t
  | _, _ => False

theorem same_stint : Alike targetOf (Stint.next exact (libOf T pi)) (Driver.Traj.next T) StintSame := by
  intro s t h
  cases s with
  | straight s =>
    cases t with
    | straight t => exact same_stretch s t h
    | slalom => exact h.elim
  | slalom q s =>
    cases t with
    | straight => exact h.elim
    | slalom pose t =>
      obtain ⟨r, rfl, rfl, h⟩ := h
      obtain ⟨a1, a2⟩ := same_slalom T pi r s t h
      exact ⟨a1, r, rfl, rfl, a2⟩

/-- A trajectory at a pose and the same in real numbers. -/
def SetSame (x : Place × Stint) (y : Detect.Pose × Driver.Traj) : Prop := x.1 = placeOf y.1 ∧ StintSame x.2 y.2

theorem same_node (n : Node) (s : ℝ) : placeOfNode exact n (.fin s) = placeOf (Slalom.poseOfNode n s) := by
  unfold placeOfNode Slalom.poseOfNode
  rw [exact_mul, exact_div _ _ (by norm_num), exact_mul, exact_div _ _ (by norm_num)]
  simp only [exact_degree]
  cases n.posture <;> rfl

theorem slalom_related {q : Slalom.Params} (hr : q.vRef ≠ 0) (ha : q.ddtheta ≠ 0) (hj : q.dddtheta ≠ 0) {G : Straight.Gen} (hA : G.aMax ≠ 0)
    (hJ : G.jMax ≠ 0) (p vStart vMiddle vEnd : ℝ) (hv : (Straight.straightGenerate G p q.lStart vStart vMiddle).2 ≠ 0) :
    Both (Both StretchSame BendSame) StretchSame ((shapeOf q).slalomWithTerminal exact (libOf T pi) (genOf G) (.fin p) (.fin vStart) (.fin vMiddle) (.fin vEnd)).1
        (Slalom.slalomWithTerminal G p q vStart vMiddle vEnd).1 ∧
    ((shapeOf q).slalomWithTerminal exact (libOf T pi) (genOf G) (.fin p) (.fin vStart) (.fin vMiddle) (.fin vEnd)).2 =
      .fin (Slalom.slalomWithTerminal G p q vStart vMiddle vEnd).2 := by
  obtain ⟨s1, e1⟩ := same_generate T pi hA hJ p q.lStart vStart vMiddle
  obtain ⟨s2, e2⟩ := same_generate T pi hA hJ p q.lEnd (Straight.straightGenerate G p q.lStart vStart vMiddle).2 vEnd
  have c := same_curve T pi hv hr ha hj p
  refine ⟨⟨?_, ?_, s1⟩, ?_⟩
  · show StretchSame ((genOf G).stretch exact (libOf T pi) (.fin p) (.fin q.lEnd) ((genOf G).stretch exact (libOf T pi) (.fin p) (.fin q.lStart) (.fin vStart) (.fin vMiddle)).2 (.fin vEnd)).1 _
    rw [e1]; exact s2
  · show BendSame ((shapeOf q).bend exact (libOf T pi) (.fin p) ((genOf G).stretch exact (libOf T pi) (.fin p) (.fin q.lStart) (.fin vStart) (.fin vMiddle)).2) _
    rw [e1]; exact c
  · show ((genOf G).stretch exact (libOf T pi) (.fin p) (.fin q.lEnd) ((genOf G).stretch exact (libOf T pi) (.fin p) (.fin q.lStart) (.fin vStart) (.fin vMiddle)).2 (.fin vEnd)).2 = _
    rw [e1]; exact e2

theorem fast_limits (s o : ℝ) (kind : Run.SlalomKind) (d : Run.SlalomDirection) :
    (Slalom.parameters s o kind d).ddtheta ≠ 0 ∧ (Slalom.parameters s o kind d).dddtheta ≠ 0 := by
  have hp := Real.pi_pos
  have : (Slalom.parameters s o kind d).ddtheta = 36 * Real.pi ∧ (Slalom.parameters s o kind d).dddtheta = 1200 * Real.pi := by
    unfold Slalom.parameters
    dsimp only
    cases kind <;> dsimp only <;> (try split_ifs) <;> cases d <;> exact ⟨rfl, rfl⟩
  rw [this.1, this.2]
  constructor <;> positivity

/-- The trajectory of a move. -/
theorem same_leg {q : Driver.RunConfig} (hc : RunOk q) {t : TrajectoryKind} (ht : FastKind t) {vs vm ve : ℝ} (hs0 : 0 ≤ vs) (hs1 : vs ≤ q.gen.vMax) (hm0 : 0 < vm)
    (hm1 : vm ≤ q.gen.vMax) :
    StintSame ((dashOf q).stint exact (libOf T pi) t (.fin vs, .fin vm, .fin ve)).1 (Driver.runLeg q t (vs, vm, ve)).1 ∧
      ((dashOf q).stint exact (libOf T pi) t (.fin vs, .fin vm, .fin ve)).2 = .fin (Driver.runLeg q t (vs, vm, ve)).2 := by
  cases t with
  | straight n => exact same_generate T pi hc.a.ne' hc.j.ne' q.period (n * q.squareWidth) vs ve
  | straightDiagonal n =>
    have e : exact.div (exact.mul (.fin (n : ℝ)) (dashOf q).squareWidth) (exact.rnd √2) = .fin (n * q.squareWidth / √2) := by
      show exact.div (.fin (n * q.squareWidth)) (.fin √2) = _
      rw [exact_div _ _ (by positivity)]
    have h := same_generate T pi hc.a.ne' hc.j.ne' q.period (n * q.squareWidth / √2) vs ve
    unfold Dash.stint
    dsimp only
    rw [e]
    exact h
  | slalom kind d =>
    obtain ⟨t1, -, t3, -⟩ := fast_table hc.width kind d ht
    have hw := hc.width
    have hl : 0 ≤ (Slalom.parameters q.squareWidth 0 kind d).lStart := le_trans (by positivity) t1
    have hv := (straight_terminal (period := q.period) (⟨hc.v, hc.a, hc.j, hs0, hs1, hm0.le, hm1⟩ : Spec.Request q.gen vs vm) hl (.inr (lt_of_lt_of_le hc.start t1))).2.2 hm0
    obtain ⟨l1, l2⟩ := fast_limits q.squareWidth 0 kind d
    unfold Dash.stint
    dsimp only
    rw [show (dashOf q).squareWidth = .fin q.squareWidth from rfl, C125_exact]
    obtain ⟨x1, x2⟩ := slalom_related T pi (by linarith [t3, mul_pos (show (0:ℝ) < 3.22 by norm_num) hw] : 0 < (Slalom.parameters q.squareWidth 0 kind d).vRef).ne' l1 l2 hc.a.ne' hc.j.ne' q.period vs vm ve hv.ne'
    exact ⟨⟨_, rfl, rfl, x1⟩, x2⟩

theorem leg_terminal {q : Driver.RunConfig} (hc : RunOk q) {t : TrajectoryKind} (ht : FastKind t) {vs vm ve : ℝ} (hs0 : 0 ≤ vs) (hs1 : vs ≤ q.gen.vMax) (hm0 : 0 < vm)
    (hm1 : vm ≤ q.gen.vMax) (he0 : 0 ≤ ve) (he1 : ve ≤ q.gen.vMax) :
    0 ≤ (Driver.runLeg q t (vs, vm, ve)).2 ∧ (Driver.runLeg q t (vs, vm, ve)).2 ≤ q.gen.vMax ∧ (0 < ve → 0 < (Driver.runLeg q t (vs, vm, ve)).2) := by
  have hw := hc.width
  have key : ∀ {x : ℝ} (D : ℝ), 0 ≤ x → x ≤ q.gen.vMax → 0.1564 * q.squareWidth ≤ D →
      0 ≤ (Straight.straightGenerate q.gen q.period D x ve).2 ∧ (Straight.straightGenerate q.gen q.period D x ve).2 ≤ q.gen.vMax ∧
        (0 < ve → 0 < (Straight.straightGenerate q.gen q.period D x ve).2) := by
    intro x D x0 x1 hD
    obtain ⟨b1, b2, b3⟩ := straight_terminal (period := q.period) (⟨hc.v, hc.a, hc.j, x0, x1, he0, he1⟩ : Spec.Request q.gen x ve) (le_trans (by positivity) hD)
      (.inr (lt_of_lt_of_le hc.start hD))
    exact ⟨(le_min x0 he0).trans b2, b1.trans (max_le x1 he1), b3⟩
  cases t with
  | straight n =>
    have hn : (1:ℝ) ≤ n := by exact_mod_cast ht
    exact key (n * q.squareWidth) hs0 hs1 (by nlinarith)
  | straightDiagonal n =>
    have hn : (1:ℝ) ≤ n := by exact_mod_cast ht
    have h2 : Real.sqrt 2 ≤ 2 := by rw [Real.sqrt_le_left] <;> norm_num
    have h0 : 0 < Real.sqrt 2 := by positivity
    exact key (n * q.squareWidth / √2) hs0 hs1 (by rw [le_div_iff₀ h0]; nlinarith)
  | slalom kind d =>
    obtain ⟨t1, t2, -, -⟩ := fast_table hw kind d ht
    obtain ⟨b1, b2, b3⟩ := straight_terminal (period := q.period) (⟨hc.v, hc.a, hc.j, hs0, hs1, hm0.le, hm1⟩ : Spec.Request q.gen vs vm) (le_trans (by positivity) t1)
      (.inr (lt_of_lt_of_le hc.start t1))
    exact key (Slalom.parameters q.squareWidth 0 kind d).lEnd (b3 hm0).le (b1.trans (max_le hs1 hm1)) t2

theorem same_velocities (i len : Nat) (v w : ℝ) :
    dashVelocities exact i len (.fin v) (.fin w) = (.fin (Driver.runVelocities i len v w).1, .fin (Driver.runVelocities i len v w).2.1, .fin (Driver.runVelocities i len v w).2.2) := by
  unfold dashVelocities Driver.runVelocities
  split_ifs <;> rfl

/-- The trajectories of a path. -/
theorem same_plan {q : Driver.RunConfig} (hc : RunOk q) {W : Nat} (hW : Supported W) {isWall : Search.Coord → Bool} {cost : EdgeKind → Nat} {len : Nat} :
    ∀ (path : List Node) (k i : Nat) (v : ℝ), FastPath W isWall cost path k → (∀ n, path.head? = some n → Legal W n) → i + path.length = len → 0 ≤ v →
      v ≤ q.gen.vMax → (0 < i → i + 1 < len → 0 < v) →
      ∃ stints trajs, (dashOf q).plan exact (libOf T pi) len i (.fin v) path = .ok stints ∧ Driver.runPlan q len i v path = .ok trajs ∧ List.Forall₂ SetSame stints trajs := by
  intro path
  induction path with
  | nil => intro k i v hp; cases hp
  | cons n path ih =>
    intro k i v hp hn hi hv0 hv1 hpos
    obtain _ | ⟨_, m, kind, rest, k', hd, hp'⟩ := hp
    · exact ⟨[], [], by rw [Dash.plan]; simp, by rw [Driver.runPlan]; simp, .nil⟩
    obtain ⟨t, et, hF, -, hm⟩ := dash_kind hW (hn n rfl) hd
    rw [List.length_cons, List.length_cons] at hi
    have hr0 := hc.run0
    have hr1 := hc.run1
    -- the speeds of the move
    obtain ⟨a1, a2, a3, a4, a5, a6, a7⟩ : 0 ≤ (Driver.runVelocities i len v q.slalomVelocity).1 ∧ (Driver.runVelocities i len v q.slalomVelocity).1 ≤ q.gen.vMax ∧
        0 < (Driver.runVelocities i len v q.slalomVelocity).2.1 ∧ (Driver.runVelocities i len v q.slalomVelocity).2.1 ≤ q.gen.vMax ∧
        0 ≤ (Driver.runVelocities i len v q.slalomVelocity).2.2 ∧ (Driver.runVelocities i len v q.slalomVelocity).2.2 ≤ q.gen.vMax ∧
        (i + 2 < len → 0 < (Driver.runVelocities i len v q.slalomVelocity).2.2) := by
      unfold Driver.runVelocities
      by_cases h1 : i ≤ 1
      · rw [if_pos h1]
        exact ⟨hv0, hv1, hr0, hr1, hr0.le, hr1, fun _ => hr0⟩
      · have vp := hpos (by omega) (by omega)
        rw [if_neg h1]
        by_cases h2 : i + 2 = len
        · rw [if_pos h2]
          exact ⟨hv0, hv1, by positivity, by dsimp only; linarith, le_rfl, hc.v.le, fun h => by omega⟩
        · rw [if_neg h2]
          by_cases h3 : i + 3 = len
          · rw [if_pos h3]
            exact ⟨hv0, hv1, by positivity, by dsimp only; linarith, by positivity, by dsimp only; linarith, fun _ => by positivity⟩
          · rw [if_neg h3]
            exact ⟨hr0.le, hr1, hr0, hr1, hr0.le, hr1, fun _ => hr0⟩
    generalize hV : Driver.runVelocities i len v q.slalomVelocity = vel at a1 a2 a3 a4 a5 a6 a7
    obtain ⟨vs, vm, ve⟩ := vel
    dsimp only at a1 a2 a3 a4 a5 a6 a7
    obtain ⟨b1, b2⟩ := same_leg T pi hc hF a1 a2 a3 a4 (ve := ve)
    obtain ⟨c0, c1, c2⟩ := leg_terminal hc hF a1 a2 a3 a4 a5 a6
    obtain ⟨stints, trajs, d1, d2, d3⟩ := ih k' (i + 1) (Driver.runLeg q t (vs, vm, ve)).2 hp' (by rintro _ ⟨⟩; exact hm) (by rw [List.length_cons]; omega) c0 c1
      (fun _ h => c2 (a7 (by omega)))
    refine ⟨(placeOf (Slalom.poseOfNode n q.squareWidth), ((dashOf q).stint exact (libOf T pi) t (.fin vs, .fin vm, .fin ve)).1) :: stints,
      (Slalom.poseOfNode n q.squareWidth, (Driver.runLeg q t (vs, vm, ve)).1) :: trajs, ?_, ?_, .cons ⟨rfl, b1⟩ d3⟩
    · have hk : (dashOf q).plan exact (libOf T pi) len i (.fin v) (n :: m :: rest) = (do
          let stints ← (dashOf q).plan exact (libOf T pi) len (i + 1)
            ((dashOf q).stint exact (libOf T pi) t (dashVelocities exact i len (.fin v) (dashOf q).slalomVelocity)).2 (m :: rest)
          return (placeOfNode exact n (dashOf q).squareWidth, ((dashOf q).stint exact (libOf T pi) t (dashVelocities exact i len (.fin v) (dashOf q).slalomVelocity)).1) :: stints) := by
        conv_lhs => rw [Dash.plan]
        rw [et]
        rfl
      rw [hk, show (dashOf q).slalomVelocity = .fin q.slalomVelocity from rfl, same_velocities, hV]
      dsimp only
      rw [b2, d1, show (dashOf q).squareWidth = .fin q.squareWidth from rfl, same_node]
      rfl
    · have hk : Driver.runPlan q len i v (n :: m :: rest) = (do
          let stints ← Driver.runPlan q len (i + 1) (Driver.runLeg q t (Driver.runVelocities i len v q.slalomVelocity)).2 (m :: rest)
          return (Slalom.poseOfNode n q.squareWidth, (Driver.runLeg q t (Driver.runVelocities i len v q.slalomVelocity)).1) :: stints) := by
        conv_lhs => rw [Driver.runPlan]
        rw [et]
        rfl
      rw [hk, hV, d2]
      rfl

/-- The next target. -/
theorem same_upcoming : ∀ {x : List (Place × Stint)} {y : List (Detect.Pose × Driver.Traj)}, List.Forall₂ SetSame x y →
    Results (fun u v => u.1 = v.1.map targetOf ∧ List.Forall₂ SetSame u.2 v.2) (upcoming exact (libOf T pi) x) (Driver.nextTarget T y)
  | _, _, .nil => rfl
  | (q, s) :: xs, (q', s') :: ys, .cons ⟨h1, h2⟩ hr => by
    dsimp only at h1 h2
    subst h1
    obtain ⟨a1, a2⟩ := same_shift T pi (same_stint T pi) q'.x q'.y q'.theta s s' h2
    unfold upcoming Driver.nextTarget
    dsimp only
    rcases hx : shiftedTo exact (libOf T pi) (placeOf q') (Stint.next exact (libOf T pi)) s with ⟨x, m⟩
    rcases hy : Straight.shiftNext T q' (Driver.Traj.next T) s' with ⟨y, m'⟩
    change (shiftedTo exact (libOf T pi) (placeOf q') (Stint.next exact (libOf T pi)) s).1 = (Straight.shiftNext T q' (Driver.Traj.next T) s').1.map _ at a1
    change StintSame (shiftedTo exact (libOf T pi) (placeOf q') (Stint.next exact (libOf T pi)) s).2 (Straight.shiftNext T q' (Driver.Traj.next T) s').2 at a2
    rw [hx, hy] at a1 a2
    cases y with
    | some y =>
      obtain rfl : x = some (targetOf y) := a1
      exact ⟨rfl, .cons ⟨rfl, a2⟩ hr⟩
    | none =>
      obtain rfl : x = none := a1
      dsimp only
      cases hr with
      | nil => exact ⟨rfl, .nil⟩
      | @cons z z' zs zs' hz hr =>
        obtain ⟨r, f⟩ := z
        obtain ⟨r', f'⟩ := z'
        obtain ⟨h1, h2⟩ := hz
        dsimp only at h1 h2
        subst h1
        obtain ⟨b1, b2⟩ := same_shift T pi (same_stint T pi) r'.x r'.y r'.theta f f' h2
        dsimp only
        change (shiftedTo exact (libOf T pi) (placeOf r') (Stint.next exact (libOf T pi)) f).1 = (Straight.shiftNext T r' (Driver.Traj.next T) f').1.map _ at b1
        change StintSame (shiftedTo exact (libOf T pi) (placeOf r') (Stint.next exact (libOf T pi)) f).2 (Straight.shiftNext T r' (Driver.Traj.next T) f').2 at b2
        rcases hx : shiftedTo exact (libOf T pi) (placeOf r') (Stint.next exact (libOf T pi)) f with ⟨x, m⟩
        rcases hy : Straight.shiftNext T r' (Driver.Traj.next T) f' with ⟨y, m'⟩
        rw [hx, hy] at b1 b2
        cases y with
        | some y =>
          obtain rfl : x = some (targetOf y) := b1
          exact ⟨rfl, .cons ⟨rfl, b2⟩ hr⟩
        | none =>
          obtain rfl : x = none := b1
          rfl

theorem same_loop : ∀ (n : Nat) {x : List (Place × Stint)} {y : List (Detect.Pose × Driver.Traj)}, List.Forall₂ SetSame x y →
    dashTargets exact (libOf T pi) n x = (Driver.runTargets T n y).map fun u => (u.1.map targetOf, u.2)
  | 0, _, _, _ => rfl
  | n + 1, x, y, h => by
    have hu := same_upcoming T pi h
    rw [dashTargets, Driver.runTargets]
    cases hx : upcoming exact (libOf T pi) x with
    | error e =>
      rw [hx] at hu
      cases hy : Driver.nextTarget T y with
      | error e' => rw [hy] at hu; exact congrArg Except.error hu
      | ok z => rw [hy] at hu; exact hu.elim
    | ok z =>
      rw [hx] at hu
      cases hy : Driver.nextTarget T y with
      | error e' => rw [hy] at hu; exact hu.elim
      | ok z' =>
        rw [hy] at hu
        obtain ⟨o, st⟩ := z
        obtain ⟨o', st'⟩ := z'
        obtain ⟨r1, r2⟩ := hu
        dsimp only at r1 r2
        subst r1
        cases o' with
        | none => rfl
        | some t =>
          show (dashTargets exact (libOf T pi) n st >>= fun u => _) = Except.map _ (Driver.runTargets T n st' >>= fun u => _)
          rw [same_loop n r2]
          cases Driver.runTargets T n st' <;> rfl

/-- C127: without rounding the run is that of the model in real numbers: the same targets, the same panics, and it ends when the other one does. -/
theorem C127_model {q : Driver.RunConfig} (hc : RunOk q) {W : Nat} (hW : Supported W) {isWall : Search.Coord → Bool} {cost : EdgeKind → Nat}
    {path : List Node} {k : Nat} (hp : FastPath W isWall cost path k) {start : Node} (hs : path.head? = some start) (hn : Legal W start) (n : Nat) :
    ((dashOf q).plan exact (libOf T pi) path.length 0 (.fin 0) path >>= dashTargets exact (libOf T pi) n) =
      (Driver.runPlan q path.length 0 0 path >>= Driver.runTargets T n).map fun u => (u.1.map targetOf, u.2) := by
  obtain ⟨st, tr, e1, e2, h⟩ := same_plan T pi hc hW (len := path.length) path k 0 0 hp (by intro m hm; rw [hs] at hm; cases hm; exact hn) (by simp) le_rfl hc.v.le (fun h => absurd h (lt_irrefl 0))
  rw [e1, e2]
  exact same_loop T pi n h

end

/-! ## Cases -/

/-- The settings of `tests/run.rs`: 1 m/s, 10 m/s², 100 m/s³, squares of 9 cm and 0.5 m/s. -/
noncomputable def trialDash : Dash := ⟨⟨.fin 1, .fin 10, .fin 100⟩, .fin 0.001, .fin 0.09, .fin 0.5⟩

/-- In a maze of 32 × 32 squares 0.2 m/s are reached. -/
theorem trial_dashes : Dashes 1 10 100 0.001 0.09 0.5 0.2 32 trialDash := by
  have r1 := round24_fix (m := 1) (e := 0) (by norm_num) (by norm_num)
  have r2 := round24_fix (m := 1) (e := -1) (by norm_num) (by norm_num)
  norm_num at r1 r2
  have sq : √((0.2 + 1 / 2 ^ 20) / 100) ≤ 0.045 := by
    rw [Real.sqrt_le_left (by norm_num)]
    norm_num
  exact {
    gen := ⟨⟨rfl, rfl, rfl, r1, by norm_num, by norm_num, by norm_num⟩, by norm_num, by norm_num, by norm_num⟩
    period := rfl
    brief := ⟨by norm_num, by norm_num⟩
    width := rfl
    w0 := by norm_num
    maze := by norm_num
    run := rfl
    pace := ⟨by norm_num; exact r2, by norm_num, by norm_num⟩
    high := by norm_num
    fast := by norm_num
    low := by norm_num
    slow := by norm_num
    least := by norm_num
    rise := ⟨by
      have := mul_le_mul_of_nonneg_left sq (show (0:ℝ) ≤ 0.2 + 1 / 2 ^ 20 by norm_num)
      norm_num at this ⊢
      linarith, fun h => by norm_num at h⟩
    top := by norm_num }

/-- A run through a maze of sixteen squares with two walls in the way, in single precision: five trajectories, and targets exactly at the first five of the six
poses of the path. -/
example (exp : F → F) : ∃ stints l,
    trialDash.plan (arith exp) (libOf Control.Trig.real 3.14) 6 0 (.fin 0) [⟨0, 0, .north⟩, ⟨0, 4, .north⟩, ⟨2, 4, .south⟩, ⟨2, 2, .south⟩, ⟨4, 0, .east⟩, ⟨6, 0, .east⟩] = .ok stints ∧
    stints.length = 5 ∧ Hands (arith exp) (libOf Control.Trig.real 3.14) stints l ∧ 5 ≤ l.length ∧ ∀ t ∈ l, Commanded (arith exp) (libOf Control.Trig.real 3.14) t := by
  have h : (Run.shortestPath 4 255 (listHeap Run.QUE_MAX) ⟨0, 0, .north⟩ (fun n => n.x == 6 && n.y == 0)
      (fun c => c.x == 1 && decide (c.y ≤ 4) || c.x == 3 && decide (2 ≤ c.y)) demoCost).toOption
      = some (some ([⟨0, 0, .north⟩, ⟨0, 4, .north⟩, ⟨2, 4, .south⟩, ⟨2, 2, .south⟩, ⟨4, 0, .east⟩, ⟨6, 0, .east⟩], 13), false) := by decide +kernel
  have h' : Run.shortestPath 4 255 (listHeap Run.QUE_MAX) ⟨0, 0, .north⟩ (fun n => n.x == 6 && n.y == 0)
      (fun c => c.x == 1 && decide (c.y ≤ 4) || c.x == 3 && decide (2 ≤ c.y)) demoCost
      = .ok (some ([⟨0, 0, .north⟩, ⟨0, 4, .north⟩, ⟨2, 4, .south⟩, ⟨2, 2, .south⟩, ⟨4, 0, .east⟩, ⟨6, 0, .east⟩], 13), false) := by
    revert h
    generalize Run.shortestPath 4 255 (listHeap Run.QUE_MAX) ⟨0, 0, .north⟩ (fun n => n.x == 6 && n.y == 0)
      (fun c => c.x == 1 && decide (c.y ≤ 4) || c.x == 3 && decide (2 ≤ c.y)) demoCost = r
    intro h
    cases r with
    | error e => cases h
    | ok o => exact congrArg Except.ok (Option.some.inj h)
  have H : Dashes 1 10 100 0.001 0.09 0.5 0.2 4 trialDash := { trial_dashes with maze := by norm_num }
  obtain ⟨st, l, a1, a2, a3, a4, ts, a5, a6⟩ := C127_planned (exp := exp) circular_real (rooted_real _ _) H (listHeapLaws _) ⟨2, by norm_num, rfl⟩ (by decide) (by norm_num)
    (by decide) h'
  have := a5.length_le
  rw [a6.length_eq] at this
  exact ⟨st, l, a1, by simpa using a2, a3, by simpa using this, a4⟩

end Verif.Props
