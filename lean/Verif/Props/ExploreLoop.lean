import Verif.Props.Walls
import Verif.Proof.Reach
/-! # C16, C17 (what does not hold); C24 (the loop as a program) -/
namespace Verif.Props
open Verif Verif.Search Verif.Spec Verif.Grid Verif.Bfs

/-! ## The loop as a program -/

/-- How the exploration loop can end. -/
inductive LoopEnd where
  /-- `search` returned `Ok(None)` -/
  | finished
  /-- `search` returned `Err(Unreachable)` -/
  | unreachable
  /-- the commander found all its candidates to be walls -/
  | walledIn
  /-- the commander waits for a wall that the sensors did not decide -/
  | undecided
  deriving DecidableEq

/-- The exploration loop of a caller (`tests/search.rs`): `search`, sense, `next_coordinate`, `update`.
`sense` stands for whatever the sensors add to the map while the robot waits. -/
def exploreLoop (W : Nat) (start : Coord) (goals : List Coord)
    (sense : SearchState → (Coord → WallState) → Commander → (Coord → WallState)) :
    Nat → SearchState → (Coord → WallState) → R (LoopEnd × SearchState × (Coord → WallState))
  | 0, _, _ => .error .diverge
  | fuel + 1, s, ws => do
    match ← explore W start goals s.coord ws with
    | .error .unreachable => .ok (.unreachable, s, ws)
    | .ok none => .ok (.finished, s, ws)
    | .ok (some cmd) =>
      let ws' := sense s ws cmd
      match cmd.nextCoordinate ws' with
      | .error _ => .ok (.walledIn, s, ws')
      | .ok none => .ok (.undecided, s, ws')
      | .ok (some c) => do
        let (s', _) ← s.update c
        exploreLoop W start goals sense fuel s' ws'

/-- What is asked of the sensors: they never change a known state, they tell the truth about `maze`, they
decide the walls the commander asks about, and they write into a table with one entry per wall. -/
structure GoodSensor (W : Nat) (maze : Coord → Bool)
    (sense : SearchState → (Coord → WallState) → Commander → (Coord → WallState)) : Prop where
  extends_ : ∀ s ws cmd, Extends ws (sense s ws cmd)
  slots : ∀ s ws cmd, SlotConsistent W ws → SlotConsistent W (sense s ws cmd)
  truth : ∀ s ws cmd, Truthful W maze ws → Truthful W maze (sense s ws cmd)
  decides : ∀ s ws cmd, ∀ c ∈ cmd.candidates, Valid W c → sense s ws cmd c ≠ .unchecked

theorem Adjacent.symm {W : Nat} {a b : Coord} (h : Adjacent W a b) : Adjacent W b a := by
  obtain ⟨h1, h2, h3, cell, h4, h5⟩ := h
  exact ⟨h2, h1, h3.symm, cell, h5, h4⟩

theorem exploreLoop_aux {W start goals} (h : Request W start goals) {maze : Coord → Bool}
    {sense : SearchState → (Coord → WallState) → Commander → (Coord → WallState)}
    (hsen : GoodSensor W maze sense) : ∀ (fuel : Nat) (s : SearchState) (ws : Coord → WallState),
    Good W (s, ws) → Truthful W maze ws → ws s.coord = .checked false →
    Reach W (fun c => maze c = false) s.coord start →
    (∃ d, Adjacent W s.coord d ∧ maze d = false) →
    effort W start goals (s, ws) < fuel →
    ∃ e s' ws', exploreLoop W start goals sense fuel s ws = .ok (e, s', ws') ∧
      Consistent W s' ∧ Truthful W maze ws' ∧ SlotConsistent W ws' ∧ Extends ws ws' ∧
      ws' s'.coord = .checked false ∧ Reach W (fun c => maze c = false) s'.coord start ∧
      ((e = .finished ∧ explore W start goals s'.coord ws' = .ok (.ok none)) ∨
       (e = .unreachable ∧ explore W start goals s'.coord ws' = .ok (.error .unreachable)))
  | 0, _, _, _, _, _, _, _, hf => absurd hf (by omega)
  | fuel + 1, s, ws, hg, ht, hk, hre, ⟨d, hd, hmd⟩, hf => by
    have hm : maze s.coord = false := ht _ _ hg.1.1 hk
    obtain ⟨r, hr⟩ := (C13_total h).2 s.coord hg.1.1 ws
    unfold exploreLoop
    rw [hr]
    simp only [bind, Except.bind]
    cases r with
    | error e =>
      cases e
      exact ⟨_, _, _, rfl, hg.1, ht, hg.2, fun _ _ => rfl, hk, hre, .inr ⟨rfl, hr⟩⟩
    | ok o =>
      cases o with
      | none => exact ⟨_, _, _, rfl, hg.1, ht, hg.2, fun _ _ => rfl, hk, hre, .inl ⟨rfl, hr⟩⟩
      | some cmd =>
        simp only
        obtain ⟨-, -, hcand, -⟩ := C18_candidates h hg.1.1 ws cmd hr
        have ht' := hsen.truth s ws cmd ht
        have hsl := hsen.slots s ws cmd hg.2
        have hex := hsen.extends_ s ws cmd
        have hdec := hsen.decides s ws cmd
        generalize sense s ws cmd = ws1 at *
        obtain ⟨n1, n2, n3, -⟩ := C20_next_coordinate cmd ws1
        have hdc : d ∈ cmd.candidates := (hcand d).2 ⟨hd, fun hw => by
          rw [ht d true hd.2.1 hw] at hmd; cases hmd⟩
        cases hn : cmd.nextCoordinate ws1 with
        | error e =>
          exfalso
          have : cmd.nextCoordinate ws1 = .error .unreachable := by rw [hn]
          have := n3.1 this d hdc
          rw [ht' d true hd.2.1 this] at hmd; cases hmd
        | ok o =>
          cases o with
          | none =>
            exfalso
            obtain ⟨b, c, a, e1, e2, -⟩ := n2.1 hn
            have hc : c ∈ cmd.candidates := by rw [e1]; simp
            exact hdec c hc ((hcand c).1 hc).1.2.1 e2
          | some c =>
            simp only
            obtain ⟨b, a, e1, e2, -⟩ := (n1 c).1 hn
            have hc : c ∈ cmd.candidates := by rw [e1]; simp
            have hadj := ((hcand c).1 hc).1
            obtain ⟨s', k, u1, u2, -, -, u5, u6⟩ := update_total h.width hg.1 hadj.2.1
            have hkn : k ≠ none := by
              obtain ⟨s'', k', v1, -⟩ := C22_executable h hg.1 ws ws1 cmd hr c (.inl hn)
              rw [u1] at v1
              simp only [Except.ok.injEq, Prod.mk.injEq] at v1
              rw [v1.2]; simp
            rw [u1]
            simp only
            obtain ⟨hg', hlt⟩ := step_decreases h hg (.mk hr hex hsl hn u1)
            have hmc : maze c = false := ht' c false hadj.2.1 e2
            have hpos : ws1 s'.coord = .checked false ∧ Reach W (fun c => maze c = false) s'.coord start ∧
                ∃ d, Adjacent W s'.coord d ∧ maze d = false := by
              by_cases hb : k = some .back
              · obtain ⟨e, -⟩ := u5 hb
                rw [e]
                exact ⟨by rw [hex _ (by rw [hk]; simp), hk], hre, c, hadj, hmc⟩
              · rw [u6 hb hkn]
                exact ⟨e2, hre.cons (Adjacent.symm hadj) hm, s.coord, Adjacent.symm hadj, hm⟩
            obtain ⟨e, s2, ws2, r1, r2, r3, r4, r5, r6⟩ := exploreLoop_aux h hsen fuel s' ws1 hg' ht'
              hpos.1 hpos.2.1 hpos.2.2 (by omega)
            refine ⟨e, s2, ws2, r1, r2, r3, r4, fun x hx => ?_, r6⟩
            have h1 := hex x hx
            rw [r5 x (by rw [h1]; exact hx), h1]

/-- **C24.** Sensors that tell the truth and decide what the commander asks; a robot that starts on a
position known to be open, connected with `start`, and not walled in. Then the exploration loop ends after
a bounded number of rounds without panic. It ends with `Ok(None)` when a goal can be reached in the true
maze, and then the known map gives the same shortest path as the true maze; it ends with
`Err(Unreachable)` when no goal can be reached in the true maze. -/
theorem C24_loop_ends {W start goals} (h : Request W start goals) (maze : Coord → Bool)
    (sense : SearchState → (Coord → WallState) → Commander → (Coord → WallState))
    (hsen : GoodSensor W maze sense) (s : SearchState) (hs : Consistent W s) (ws : Coord → WallState)
    (hslot : SlotConsistent W ws) (ht : Truthful W maze ws) (hm : ws s.coord = .checked false)
    (hre : ∃ walk, AdjPath W (fun c => maze c = false) (s.coord :: walk) ∧
      (s.coord :: walk).getLast? = some start)
    (hd : ∃ d, Adjacent W s.coord d ∧ maze d = false) :
    ∃ fuel e s' ws',
      fuel ≤ (2 * W * W) * (2 * (2 * W * W) + 2) + 2 * (2 * W * W) + 2 ∧
      exploreLoop W start goals sense fuel s ws = .ok (e, s', ws') ∧
      Consistent W s' ∧ Truthful W maze ws' ∧ Extends ws ws' ∧
      ((e = .finished ∧ ∃ path, plan W start goals maze = .ok (some path) ∧
          plan W start goals (pessimistic ws') = .ok (some path)) ∨
       (e = .unreachable ∧ plan W start goals maze = .ok none)) := by
  have hg : Good W (s, ws) := ⟨hs, hslot⟩
  obtain ⟨e, s', ws', h1, h2, h3, h3', h4, h4', h4'', h5⟩ :=
    exploreLoop_aux h hsen (effort W start goals (s, ws) + 1) s ws hg ht hm hre hd (by omega)
  refine ⟨_, e, s', ws', ?_, h1, h2, h3, h4, ?_⟩
  · unfold effort
    simp only
    have h2 := unknowns_le h.width ws
    have h3 := dist_le (start := start) (goals := goals) h.width hs.1 ws
    have h4 := @behind_le W start goals s ws
    have h5 := Nat.mul_le_mul_right (2 * (2 * W * W) + 2) h2
    omega
  · have hopen : ∀ c, Valid W c → maze c = false → ws' c ≠ .checked true := fun c hc hmc hw => by
      rw [h3 c true hc hw] at hmc; cases hmc
    rcases h5 with ⟨rfl, h5⟩ | ⟨rfl, h5⟩
    · left
      obtain ⟨path, p1, p2, -⟩ := C23_complete_optimal h h2.1 ws' maze h3 h5
      exact ⟨rfl, path, p1, p2⟩
    · right
      refine ⟨rfl, (C12_complete h maze).2 ?_⟩
      have := unreachable_only_goal h h2.1 h3' (by rw [h4']; simp) (h4''.mono hopen) h5
      rintro ⟨path, q1, q2, q3⟩
      exact this ⟨path, q1, q2, runPath_mono hopen q3⟩

/-! Non-vacuity: the sensor that reveals the walls the commander asks about, in a table. -/

/-- The wall in whose slot a point lies. -/
def wallOf (x : Coord) : Coord := if x.x % 2 = 0 ∧ x.y % 2 = 0 then ⟨x.x + 1, x.y⟩ else x

def revealing (maze : Coord → Bool) (_ : SearchState) (ws : Coord → WallState) (cmd : Commander) :
    Coord → WallState :=
  fun x => if ws x = .unchecked ∧ wallOf x ∈ cmd.candidates then .checked (maze (wallOf x)) else ws x

theorem wallOf_slot {W : Nat} {x c : Coord} (hx : Looked W x) (hc : Valid W c) (h : SlotOf x c) :
    wallOf x = wallOf c := by
  have hc' : wallOf c = c := by unfold wallOf; rw [if_neg]; have := hc.2.2; omega
  rcases h with rfl | ⟨h1, h2, rfl⟩
  · rfl
  · rw [hc']; unfold wallOf; rw [if_pos ⟨h1, h2⟩]

example (W : Nat) (maze : Coord → Bool) : GoodSensor W maze (revealing maze) := by
  have hv : ∀ c, Valid W c → wallOf c = c := fun c hc => by
    unfold wallOf; rw [if_neg]; have := hc.2.2; omega
  refine ⟨fun s ws cmd x hx => ?_, fun s ws cmd hs x c hx hc hsl => ?_, fun s ws cmd ht c b hc hw => ?_,
    fun s ws cmd c hc hcv => ?_⟩
  · unfold revealing; rw [if_neg (by tauto)]
  · unfold revealing
    rw [hs x c hx hc hsl, wallOf_slot hx hc hsl]
  · unfold revealing at hw
    rw [hv c hc] at hw
    split at hw
    · simpa using hw
    · exact ht c b hc hw
  · unfold revealing
    rw [hv c hcv]
    by_cases hu : ws c = .unchecked
    · rw [if_pos ⟨hu, hc⟩]; simp
    · rw [if_neg (by tauto)]; exact hu

/-- In the 2 × 2 maze without inner walls the loop really runs: from the start cell it finds the goal. -/
example : (match exploreLoop 2 ⟨0, 1⟩ [⟨2, 1⟩] (revealing fun c => c.x == 3 || c.y == 3 || c == ⟨1, 0⟩) 20
    ⟨⟨0, 1⟩, .north⟩ (fun c => if c = ⟨0, 1⟩ then .checked false else .unchecked) with
    | .ok (e, s, _) => decide (e = .finished) && decide (s.coord = ⟨2, 1⟩)
    | .error _ => false) = true := by decide +kernel

/-! ## C16 and C17: what does not hold -/

/-- A map of the 4 × 4 maze in which only the walls `(0,3)` and `(0,5)` are known (to be open). -/
def sideUnknown (x : Coord) : WallState :=
  if x = ⟨0, 3⟩ ∨ x = ⟨0, 5⟩ then .checked false else .unchecked

/-- The same map, but the points that are no walls are reported as open. -/
def sideUnknown' (x : Coord) : WallState :=
  if x = ⟨0, 2⟩ ∨ x = ⟨0, 4⟩ then .checked false else sideUnknown x

theorem sideRequest : Request 4 ⟨0, 1⟩ [⟨0, 5⟩] := ⟨⟨2, by omega, rfl⟩, by decide, by simp; decide⟩

theorem sideSeg {x : Coord} (h : PassedBy [⟨0, 1⟩, ⟨0, 5⟩] x) :
    x = ⟨0, 2⟩ ∨ x = ⟨0, 3⟩ ∨ x = ⟨0, 4⟩ ∨ x = ⟨0, 5⟩ := by
  unfold PassedBy at h
  rcases h with h | h
  · obtain ⟨ux, uy, N, j, h1, h2, ⟨h3, h4⟩, h5, h6, ⟨h7, h8⟩⟩ := h
    cases x with | mk x y =>
    simp only [Coord.mk.injEq] at *
    rcases h1 with rfl | rfl | rfl <;> rcases h2 with rfl | rfl | rfl <;> omega
  · exact absurd h (by simp [PassedBy])

/-- **C16 (the claim is false).** All walls passed by the optimistic path are known to be open, and the
states come from a wall map, but the exploration goes on: the code also asks for the centres of the cells
passed, which share their slots with side walls. -/
theorem C16_not_as_soon_as_known : ∃ (W : Nat) (start : Coord) (goals : List Coord) (current : Coord)
    (ws : Coord → WallState), Request W start goals ∧ Valid W current ∧ SlotConsistent W ws ∧
    (∃ path, plan W start goals (optimistic ws) = .ok (some path) ∧
      ∀ x, PassedBy path x → Valid W x → ws x = .checked false) ∧
    explore W start goals current ws ≠ .ok (.ok none) := by
  refine ⟨4, ⟨0, 1⟩, [⟨0, 5⟩], ⟨0, 1⟩, sideUnknown, sideRequest, by decide, ?_, ?_, ?_⟩
  · rintro x c hx hc (rfl | ⟨h1, h2, rfl⟩)
    · rfl
    · unfold sideUnknown
      have e1 : ¬ (x = ⟨0, 3⟩ ∨ x = ⟨0, 5⟩) := by rintro (rfl | rfl) <;> simp at h2
      rw [if_neg e1, if_neg (by simp)]
  · refine ⟨[⟨0, 1⟩, ⟨0, 5⟩], by decide +kernel, fun x hx hv => ?_⟩
    rcases sideSeg hx with rfl | rfl | rfl | rfl
    · exact absurd hv (by decide)
    · decide
    · exact absurd hv (by decide)
    · decide
  · rw [Ne, explore_done_iff sideRequest (by decide)]
    rintro ⟨path, h1, h2⟩
    have : plan 4 ⟨0, 1⟩ [⟨0, 5⟩] (optimistic sideUnknown) = .ok (some [⟨0, 1⟩, ⟨0, 5⟩]) := by decide +kernel
    rw [this] at h1
    simp only [Except.ok.injEq, Option.some.injEq] at h1
    subst h1
    exact h2 ⟨0, 2⟩ (.inl ⟨0, 1, 4, 1, by simp, by simp, ⟨by decide, by decide⟩, by omega, by omega, ⟨by decide, by decide⟩⟩) (by decide)

/-- **C17 (the claim is false for `search`).** Two oracles that agree on every coordinate that
`Coordinate::new` accepts, but `search` answers differently: it calls the oracle for other points. -/
theorem C17_search_sees_invalid : ∃ (W : Nat) (start : Coord) (goals : List Coord) (current : Coord)
    (ws ws' : Coord → WallState), Request W start goals ∧ Valid W current ∧
    (∀ c, Valid W c → ws c = ws' c) ∧
    explore W start goals current ws ≠ explore W start goals current ws' := by
  refine ⟨4, ⟨0, 1⟩, [⟨0, 5⟩], ⟨0, 1⟩, sideUnknown, sideUnknown', sideRequest, by decide, ?_, ?_⟩
  · intro c hc
    unfold sideUnknown'
    rw [if_neg]
    rintro (rfl | rfl)
    · exact absurd hc (by decide)
    · exact absurd hc (by decide)
  · have hdone : explore 4 ⟨0, 1⟩ [⟨0, 5⟩] ⟨0, 1⟩ sideUnknown' = .ok (.ok none) := by
      rw [explore_done_iff sideRequest (by decide)]
      refine ⟨[⟨0, 1⟩, ⟨0, 5⟩], by decide +kernel, fun x hx => ?_⟩
      rcases sideSeg hx with rfl | rfl | rfl | rfl <;> decide
    rw [hdone, Ne, explore_done_iff sideRequest (by decide)]
    rintro ⟨path, h1, h2⟩
    have : plan 4 ⟨0, 1⟩ [⟨0, 5⟩] (optimistic sideUnknown) = .ok (some [⟨0, 1⟩, ⟨0, 5⟩]) := by decide +kernel
    rw [this] at h1
    simp only [Except.ok.injEq, Option.some.injEq] at h1
    subst h1
    exact h2 ⟨0, 2⟩ (.inl ⟨0, 1, 4, 1, by simp, by simp, ⟨by decide, by decide⟩, by omega, by omega, ⟨by decide, by decide⟩⟩) (by decide)

/-! Non-vacuity of C15, C18, C19, C23: the three outcomes of `search` occur. -/

example : (match explore 4 ⟨0, 1⟩ [⟨0, 5⟩] ⟨0, 3⟩ sideUnknown' with
    | .ok (.ok none) => true | _ => false) = true := by decide +kernel

example : (match explore 4 ⟨0, 1⟩ [⟨0, 5⟩] ⟨0, 3⟩ sideUnknown with
    | .ok (.ok (some cmd)) => decide (cmd.candidates.length = 4 ∧ cmd.candidates.head? = some ⟨1, 2⟩)
    | _ => false) = true := by decide +kernel

example : (match explore 4 ⟨0, 1⟩ [⟨0, 5⟩] ⟨0, 3⟩ (fun _ => .checked true) with
    | .ok (.error .unreachable) => true | _ => false) = true := by decide +kernel

example : Truthful 4 (fun _ => false) sideUnknown' := by
  intro c b _ h
  unfold sideUnknown' sideUnknown at h
  split at h
  · cases h; rfl
  · split at h
    · cases h; rfl
    · cases h

end Verif.Props
