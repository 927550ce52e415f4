import Verif.Proof.OldRun
import Verif.Proof.OldDrive
import Verif.Props.OldNode
import Verif.Props.OldSearch
/-!
# C92 and C93: fast runs of the former core crate
-/
namespace Verif.Props
open Verif Verif.Run Verif.Spec Verif.Old Verif.Old.FastRun Verif.Proof Verif.Proof.OldN Verif.Proof.OldR Verif.Props.Old

variable {W : Nat} {n m : Node}

/-! ## C92: the run commander -/

/-- **C92, routes**: between two poses in the maze a trajectory is found exactly if one of the moves leads from the first to the second, and
then it is the trajectory of that move; there is one exception, the pairs of poses `Grazes` describes, that no move joins. -/
theorem C92_route (hW : W ≤ 64) (hn : Legal W n) (hm : Legal W m) :
    ∃ o, route n m = .ok o ∧ ∀ t, o = some t ↔ (∃ k, Leads n k m t) ∨ Grazes n m t := route_iff hW hn hm

/-- **C92, the exception**: no move joins these pairs of poses. -/
theorem C92_grazes (hn : Legal W n) {t : TrajectoryKind} (h : Grazes n m t) (k : EdgeKind) (crossed : List V) : ¬ Related n k m crossed := by
  rintro ⟨f', s', fin, head, cr, hF', hS, hx', hy', -, -⟩
  obtain ⟨hc, f, s, hF, hx, hy, -, -⟩ := h
  obtain ⟨x, y, p⟩ := n
  obtain ⟨-, -, ⟨h1, h2, -⟩ | ⟨-, hp⟩⟩ := hn
  · exact hc ⟨h1, h2⟩
  unfold Frame at hF hF'
  unfold Shape at hS
  simp only at hc hF hF' hS hx hy hx' hy' hp
  rw [if_neg hc] at hF hF' hS
  have key : ∀ p ∈ [Posture.northEast, .southEast, .southWest, .northWest], (heading p).1 * (heading p).1 = 1 ∧ (heading p).2 * (heading p).2 = 1 := by decide
  obtain ⟨k1, k2⟩ := key p (by simpa using hp)
  generalize heading p = v at *
  obtain ⟨a, b⟩ := v
  simp only at k1 k2
  have ha : a = 1 ∨ a = -1 := by
    rcases Int.mul_eq_one_iff_eq_one_or_neg_one.mp k1 with ⟨h, -⟩ | ⟨h, -⟩ <;> omega
  have hb : b = 1 ∨ b = -1 := by
    rcases Int.mul_eq_one_iff_eq_one_or_neg_one.mp k2 with ⟨h, -⟩ | ⟨h, -⟩ <;> omega
  by_cases hx1 : x % 2 = 1
  · rw [if_pos hx1] at hF hF'
    obtain ⟨⟨rfl, rfl⟩, rfl, rfl⟩ := And.intro hF hF'
    cases hS <;> rcases ha with rfl | rfl <;> rcases hb with rfl | rfl <;> simp only [inFrame] at hx hy hx' hy' <;> omega
  · rw [if_neg hx1] at hF hF'
    obtain ⟨⟨rfl, rfl⟩, rfl, rfl⟩ := And.intro hF hF'
    cases hS <;> rcases ha with rfl | rfl <;> rcases hb with rfl | rfl <;> simp only [inFrame] at hx hy hx' hy' <;> omega

/-- The poses of the exception: from the wall on the left of a cell to the wall on its right. No move leads there. -/
example : Grazes ⟨1, 2, .northEast⟩ ⟨3, 2, .southEast⟩ (.slalom .fastRunDiagonal90 .right) ∧
    route ⟨1, 2, .northEast⟩ ⟨3, 2, .southEast⟩ = .ok (some (.slalom .fastRunDiagonal90 .right)) ∧
    Legal 4 ⟨1, 2, .northEast⟩ ∧ Legal 4 ⟨3, 2, .southEast⟩ :=
  ⟨⟨by decide, (1, 0), (0, 1), by simp [Frame, heading], by decide, by decide, by decide, by decide⟩, by rfl, by decide, by decide⟩

section run

variable {b : Belief} {cost : Pattern → Nat} {convert : Pattern → R Nat} {Q : Queue Nat} {MAX x y : Nat} {start : Node}

theorem place_goals (hp : Place W x y) : ∃ g0 rest, goalsOf W x y = .ok (g0 :: rest) ∧ ∀ g, g ∈ g0 :: rest ↔ Legal W g ∧ g.x = x ∧ g.y = y := by
  obtain ⟨h1, h2⟩ := C82_goals (W := W) x y
  obtain ⟨l, h3, -, h4, h5⟩ := h2 (x, y) ((h1 (x, y)).mpr ⟨rfl, rfl, hp⟩)
  cases l with
  | nil => cases h4
  | cons g0 rest => exact ⟨g0, rest, h3, h5⟩

theorem charged_place {isWall : Search.Coord → Bool} {g g' : Node} (hx : g.x = g'.x) (hy : g.y = g'.y) {path : List Node} {c : Nat}
    (h : ChargedPath W isWall cost g path c) : ChargedPath W isWall cost g' path c := by
  induction h with
  | single n => exact .single n
  | cons n m k l c hd h ih =>
    have : cellsApart m g = cellsApart m g' := by unfold cellsApart; rw [hx, hy]
    rw [this]
    exact .cons n m k l c hd ih

/-- The plan of a run: from the start to the goal position, across walls that are checked and absent only, and the cheapest such. -/
def RunPlan (W : Nat) (b : Belief) (cost : Pattern → Nat) (start : Node) (x y : Nat) (path : List Node) (last : Node) : Prop :=
  path.Nodup ∧ path.head? = some start ∧ path.getLast? = some last ∧ Legal W last ∧ last.x = x ∧ last.y = y ∧ 2 ≤ path.length ∧
  (∃ c, FastPath W (posBlocked (uncertain b)) (fun k => cost (patternOf k)) path c) ∧
  ∃ c, ChargedPath W (posBlocked (uncertain b)) cost ⟨x, y, .north⟩ path c ∧
    ∀ q c' g, q.head? = some start → q.getLast? = some g → g.x = x → g.y = y →
      ChargedPath W (posBlocked (uncertain b)) cost ⟨x, y, .north⟩ q c' → c ≤ c'

theorem charged_legal {isWall : Search.Coord → Bool} {g : Node} {path : List Node} {c : Nat} (h : ChargedPath W isWall cost g path c) :
    ∀ {n l : Node}, path.head? = some n → Legal W n → path.getLast? = some l → Legal W l := by
  induction h with
  | single x => intro n l h1 h2 h3; cases h1; cases h3; exact h2
  | cons x m k l c hd _ ih =>
    intro n l' h1 h2 h3
    obtain rfl : x = n := by simpa using h1
    exact ih rfl (drivable_legal h2 _ _ hd) (by simpa using h3)

theorem solve_some (hW : Supported W) (L : QueueLaws Q HEAP_MAX) (hcv : ∀ p, Occurs W p → convert p = .ok (cost p))
    (hfit : ∀ p q, Occurs W p → Occurs W q → cost p + cost q ≤ MAX) (hstart : Legal W start) (hp : Place W x y) {path : List Node}
    (h : solveIn W b convert Q MAX x y start = .ok (some path)) : ∃ last, RunPlan W b cost start x y path last := by
  obtain ⟨g0, rest, h1, h2⟩ := place_goals hp
  have h0 := (h2 g0).mp (List.mem_cons_self ..)
  unfold solveIn at h
  rw [h1] at h
  have hg : ∀ g ∈ g0 :: rest, Legal W g := fun g hg => ((h2 g).mp hg).1
  have hne : start ∉ g0 :: rest := by
    intro hs
    have hx := (C84_total (blocked := uncertain b) hW L hcv hfit hstart hg).2
    have h81 := C81_found L (run_sound hW hcv hfit h0.1) hstart h
    exact h81.1 hs
  obtain ⟨a1, a2, ⟨g, hg1, hg2⟩, a4, c, a5, a6⟩ := C84_plan hW L hcv hfit hstart hg h
  obtain ⟨l1, l2, l3⟩ := (h2 g).mp hg1
  refine ⟨g, a1, a2, hg2, l1, l2, l3, ?_, a4, c, charged_place h0.2.1 h0.2.2 a5, ?_⟩
  · match path, a2, hg2 with
    | [z], e1, e2 => cases e1; cases e2; exact absurd hg1 hne
    | _ :: _ :: _, _, _ => simp
  · intro q c' g' q1 q2 q3 q4 q5
    exact a6 q c' q1 ⟨g', (h2 g').mpr ⟨charged_legal q5 q1 hstart q2, q3, q4⟩, q2⟩ (charged_place h0.2.1.symm h0.2.2.symm q5)

theorem solve_none (hW : Supported W) (L : QueueLaws Q HEAP_MAX) (hcv : ∀ p, Occurs W p → convert p = .ok (cost p))
    (hfit : ∀ p q, Occurs W p → Occurs W q → cost p + cost q ≤ MAX) (hstart : Legal W start) (hp : Place W x y)
    (h : solveIn W b convert Q MAX x y start = .ok none) :
    (start.x = x ∧ start.y = y) ∨ ∀ q c g, q.head? = some start → q.getLast? = some g → g.x = x → g.y = y →
      ChargedPath W (posBlocked (uncertain b)) cost ⟨x, y, .north⟩ q c → MAX ≤ cost (.straight (cellsApart start ⟨x, y, .north⟩)) + c := by
  obtain ⟨g0, rest, h1, h2⟩ := place_goals hp
  have h0 := (h2 g0).mp (List.mem_cons_self ..)
  unfold solveIn at h
  rw [h1] at h
  rcases C84_no_plan hW L hcv hfit hstart (fun g hg => ((h2 g).mp hg).1) h with h3 | h3
  · exact Or.inl ((h2 start).mp h3).2
  · right
    intro q c' g' q1 q2 q3 q4 q5
    have := h3 q c' q1 ⟨g', (h2 g').mpr ⟨charged_legal q5 q1 hstart q2, q3, q4⟩, q2⟩ (charged_place h0.2.1.symm h0.2.2.symm q5)
    have e : cellsApart start g0 = cellsApart start ⟨x, y, .north⟩ := by unfold cellsApart; rw [h0.2.1, h0.2.2]
    rwa [e] at this

theorem solve_error (hW : Supported W) (L : QueueLaws Q HEAP_MAX) (hcv : ∀ p, Occurs W p → convert p = .ok (cost p))
    (hfit : ∀ p q, Occurs W p → Occurs W q → cost p + cost q ≤ MAX) (hstart : Legal W start) (hp : Place W x y) :
    (∀ e, solveIn W b convert Q MAX x y start = .error e → e = .capacity) ∧ (W ≤ 8 → ∃ r, solveIn W b convert Q MAX x y start = .ok r) := by
  obtain ⟨g0, rest, h1, h2⟩ := place_goals hp
  unfold solveIn
  rw [h1]
  obtain ⟨h3, h4⟩ := C84_total (blocked := uncertain b) hW L hcv hfit hstart (fun g hg => ((h2 g).mp hg).1)
  exact ⟨h3, fun h8 => (h4 h8).2⟩

/-- **C92, construction**: a run commander is made for the cheapest plan from the start to the goal position that crosses only walls known to
be absent; its current node is the last of the plan, at the goal. -/
theorem C92_new (hW : Supported W) (L : QueueLaws Q HEAP_MAX) (hcv : ∀ p, Occurs W p → convert p = .ok (cost p))
    (hfit : ∀ p q, Occurs W p → Occurs W q → cost p + cost q ≤ MAX) (hstart : Legal W start) (hp : Place W x y) {c : RunCommander}
    (h : RunCommander.new (solveIn W b convert Q MAX x y) start = .ok c) :
    RunPlan W b cost start x y c.path c.current ∧ c.iter = 0 := by
  unfold RunCommander.new at h
  cases hs : solveIn W b convert Q MAX x y start with
  | error e => rw [hs] at h; cases h
  | ok o =>
    rw [hs] at h
    cases o with
    | none => cases h
    | some path =>
      obtain ⟨last, hl⟩ := solve_some hW L hcv hfit hstart hp hs
      have e := hl.2.2.1
      simp only [bind, Except.bind, e] at h
      cases h
      exact ⟨hl, rfl⟩

/-- **C92, failure**: the construction panics only if the start is at the goal position, if every way there is charged the largest cost or more,
or if a vector of the solver is full; the latter is impossible in mazes of up to 8 x 8 cells. -/
theorem C92_fails (hW : Supported W) (L : QueueLaws Q HEAP_MAX) (hcv : ∀ p, Occurs W p → convert p = .ok (cost p))
    (hfit : ∀ p q, Occurs W p → Occurs W q → cost p + cost q ≤ MAX) (hstart : Legal W start) (hp : Place W x y) {e : Panic}
    (h : RunCommander.new (solveIn W b convert Q MAX x y) start = .error e) :
    (e = .capacity ∧ 8 < W) ∨ e = .unreachable ∧ ((start.x = x ∧ start.y = y) ∨
      ∀ q c g, q.head? = some start → q.getLast? = some g → g.x = x → g.y = y →
        ChargedPath W (posBlocked (uncertain b)) cost ⟨x, y, .north⟩ q c → MAX ≤ cost (.straight (cellsApart start ⟨x, y, .north⟩)) + c) := by
  obtain ⟨h1, h2⟩ := solve_error (b := b) (x := x) (y := y) hW L hcv hfit hstart hp
  unfold RunCommander.new at h
  cases hs : solveIn W b convert Q MAX x y start with
  | error e' =>
    rw [hs] at h; cases h
    refine Or.inl ⟨h1 _ hs, ?_⟩
    by_contra h8
    obtain ⟨r, hr⟩ := h2 (by omega)
    rw [hs] at hr; cases hr
  | ok o =>
    rw [hs] at h
    cases o with
    | none =>
      cases h
      exact Or.inr ⟨rfl, solve_none hW L hcv hfit hstart hp hs⟩
    | some path =>
      obtain ⟨last, hl⟩ := solve_some hW L hcv hfit hstart hp hs
      have e := hl.2.2.1
      simp only [bind, Except.bind, e] at h
      cases h

/-- **C92, commands**: the commander gives one command for each move of the plan, in order, and then reports the end for ever; it never panics
and never reports a conversion error. Each command has the trajectory of a move across openings to the next node of the plan, and the speed
that belongs to its place. -/
theorem C92_commands (hW : Supported W) (L : QueueLaws Q HEAP_MAX) (hcv : ∀ p, Occurs W p → convert p = .ok (cost p))
    (hfit : ∀ p q, Occurs W p → Occurs W q → cost p + cost q ≤ MAX) (hstart : Legal W start) (hp : Place W x y) {c : RunCommander}
    (h : RunCommander.new (solveIn W b convert Q MAX x y) start = .ok c) :
    ∃ cs, Commands W (posBlocked (uncertain b)) c.path cs ∧ ∀ k, replies RunCommander.nextCommand k c =
      .ok ((cs.take k).map .command ++ List.replicate (k - cs.length) .finish, { c with iter := min k cs.length }) := by
  obtain ⟨⟨-, h1, -, -, -, -, -, ⟨c', h2⟩, -⟩, h3⟩ := C92_new hW L hcv hfit hstart hp h
  obtain ⟨cur, path, iter⟩ := c
  cases h3
  have := hW.le
  exact commands_of (by omega) h2 (fun n hn => by rw [h1] at hn; cases hn; exact hstart) cur

/-- **C92, safety**: if what is known of the walls is true, no command leads across a wall of the maze. -/
theorem C92_safe {real : Wall → Bool} (hT : TrueBelief W real b) {path : List Node} {cs : List RunCommand}
    (h : Commands W (posBlocked (uncertain b)) path cs) : Commands W (posBlocked real) path cs := by
  refine ⟨h.1, fun i c hc => ?_⟩
  obtain ⟨h1, ⟨m, k, h2, h3, h4⟩, h5⟩ := h.2 i c hc
  exact ⟨h1, ⟨m, k, h2, drivable_mono (fun c _ hc => (uncertain_open hT _ hc).1) h3, h4⟩, h5⟩

/-- **C92, speeds**: a run of three commands or more ends with the last deceleration, and one of four or more has both decelerations; a run of
one or two commands only accelerates and never slows down. -/
theorem C92_speed {isWall : Search.Coord → Bool} {path : List Node} {cs : List RunCommand} (h : Commands W isWall path cs) :
    (∀ c, 3 ≤ cs.length → cs[cs.length - 1]? = some c → c.state = .deceleration2) ∧
    (∀ c, 4 ≤ cs.length → cs[cs.length - 2]? = some c → c.state = .deceleration1) ∧
    (cs.length ≤ 2 → ∀ c ∈ cs, c.state = .acceleration) := by
  refine ⟨?_, ?_, ?_⟩
  · intro c h3 hc
    have := (h.2 _ c hc).2.2
    cases hs : c.state <;> rw [hs] at this <;> simp only [Speed] at this <;> first | rfl | (exfalso; omega)
  · intro c h3 hc
    have := (h.2 _ c hc).2.2
    cases hs : c.state <;> rw [hs] at this <;> simp only [Speed] at this <;> first | rfl | (exfalso; omega)
  · intro h2 c hc
    obtain ⟨i, hi, rfl⟩ := List.mem_iff_getElem.mp hc
    have := (h.2 i _ (List.getElem?_eq_getElem hi)).2.2
    cases hs : cs[i].state <;> rw [hs] at this <;> simp only [Speed] at this <;> first | rfl | (exfalso; omega)

/-! ## C93: the setup commander -/

theorem rotations (n : Node) : (rotationNodes n).map Prod.snd = turns.map Prod.fst ∧
    ∀ (i : Nat) (nk : Node × RotationKind) (t : RotationKind × Nat), (rotationNodes n)[i]? = some nk → turns[i]? = some t → nk.2 = t.1 ∧ Turned n t.2 nk.1 := by
  refine ⟨rfl, ?_⟩
  intro i nk t h1 h2
  obtain ⟨x, y, p⟩ := n
  match i with
  | 0 | 1 | 2 | 3 => cases h1; cases h2; exact ⟨rfl, rfl, rfl, by cases p <;> simp [Turned.angleOf, rotate]⟩
  | i + 4 => simp [rotationNodes] at h1

theorem choose_ok {solve : Solve} {cur : Node} (l : List (Node × RotationKind)) {s : SetupCommander} (h : SetupCommander.choose solve cur l = .ok s) :
    ∃ (i : Nat) (nk : Node × RotationKind), l[i]? = some nk ∧ s = ⟨nk.1, some (cur, nk.2)⟩ ∧ (∃ p, solve nk.1 = .ok (some p)) ∧ ∀ (j : Nat) (nk' : Node × RotationKind), j < i → l[j]? = some nk' → solve nk'.1 = .ok none := by
  induction l with
  | nil => cases h
  | cons a l ih =>
    obtain ⟨node, kind⟩ := a
    unfold SetupCommander.choose at h
    cases hs : solve node with
    | error e => rw [hs] at h; cases h
    | ok o =>
      rw [hs] at h
      cases o with
      | some p =>
        cases h
        exact ⟨0, (node, kind), rfl, rfl, ⟨p, hs⟩, by simp⟩
      | none =>
        obtain ⟨i, nk, h1, h2, h3, h4⟩ := ih h
        refine ⟨i + 1, nk, h1, h2, h3, ?_⟩
        intro j nk' hj hn
        cases j with
        | zero => cases hn; exact hs
        | succ j => exact h4 j nk' (by omega) hn

theorem choose_error {solve : Solve} {cur : Node} (l : List (Node × RotationKind)) {e : Panic} (h : SetupCommander.choose solve cur l = .error e) :
    (∃ nk ∈ l, solve nk.1 = .error e) ∨ e = .unreachable ∧ ∀ nk ∈ l, solve nk.1 = .ok none := by
  induction l with
  | nil => cases h; exact Or.inr ⟨rfl, by simp⟩
  | cons a l ih =>
    obtain ⟨node, kind⟩ := a
    unfold SetupCommander.choose at h
    cases hs : solve node with
    | error e' => rw [hs] at h; cases h; exact Or.inl ⟨_, List.mem_cons_self .., hs⟩
    | ok o =>
      rw [hs] at h
      cases o with
      | some p => cases h
      | none =>
        rcases ih h with ⟨nk, h1, h2⟩ | ⟨h1, h2⟩
        · exact Or.inl ⟨nk, List.mem_cons_of_mem _ h1, h2⟩
        · refine Or.inr ⟨h1, ?_⟩
          rintro nk hnk
          rcases List.mem_cons.mp hnk with rfl | hnk
          · exact hs
          · exact h2 nk hnk

theorem rotation_legal {cur : Node} (hcur : CellPose W cur) : ∀ nk ∈ rotationNodes cur, Legal W nk.1 ∧ nk.1.x = cur.x ∧ nk.1.y = cur.y := by
  obtain ⟨hl, h1, h2⟩ := hcur
  obtain ⟨cx, cy, p⟩ := cur
  obtain ⟨a, b', c⟩ := hl
  simp only at *
  have hp : p ∈ [Posture.north, .east, .south, .west] := by
    rcases c with ⟨_, _, hp⟩ | ⟨h, _⟩
    · simpa using hp
    · omega
  have hr : ∀ p ∈ [Posture.north, .east, .south, .west], ∀ nk ∈ rotationNodes ⟨cx, cy, p⟩, nk.1.x = cx ∧ nk.1.y = cy ∧
      nk.1.posture ∈ [Posture.north, .east, .south, .west] := by
    intro p hp nk hnk
    simp only [rotationNodes, List.mem_cons, List.not_mem_nil, or_false] at hnk
    simp only [List.mem_cons, List.not_mem_nil, or_false] at hp
    rcases hp with rfl | rfl | rfl | rfl <;> rcases hnk with rfl | rfl | rfl | rfl <;> exact ⟨rfl, rfl, by simp [rotate]⟩
  intro nk hnk
  obtain ⟨r1, r2, r3⟩ := hr p hp nk hnk
  refine ⟨⟨by omega, by omega, Or.inl ⟨by omega, by omega, by simpa using r3⟩⟩, r1, r2⟩

/-- **C93, choice**: the setup commander chooses the first of front, right, left and back for which there is a plan: it has that rotation as its
command and the turned pose as its current node, from which the run commander is made. -/
theorem C93_choice (hW : Supported W) (L : QueueLaws Q HEAP_MAX) (hcv : ∀ p, Occurs W p → convert p = .ok (cost p))
    (hfit : ∀ p q, Occurs W p → Occurs W q → cost p + cost q ≤ MAX) {cur : Node} (hcur : CellPose W cur) (hp : Place W x y) {s : SetupCommander}
    (h : SetupCommander.new (solveIn W b convert Q MAX x y) cur = .ok s) :
    ∃ (i : Nat) (t : RotationKind × Nat), turns[i]? = some t ∧ Turned cur t.2 s.current ∧ CellPose W s.current ∧ s.command = some (cur, t.1) ∧
      (∃ c, RunCommander.new (solveIn W b convert Q MAX x y) s.current = .ok c) ∧
      ∀ (j : Nat) (t' : RotationKind × Nat) (n : Node), j < i → turns[j]? = some t' → Turned cur t'.2 n → solveIn W b convert Q MAX x y n = .ok none := by
  obtain ⟨i, nk, h1, rfl, ⟨p, h3⟩, h4⟩ := choose_ok _ h
  have hlen : (rotationNodes cur).length = turns.length := rfl
  have hi : i < (rotationNodes cur).length := (List.getElem?_eq_some_iff.mp h1).1
  obtain ⟨t, ht⟩ : ∃ t, turns[i]? = some t := ⟨_, List.getElem?_eq_getElem (by omega)⟩
  obtain ⟨h5, h6⟩ := (rotations cur).2 i nk t h1 ht
  obtain ⟨hl, hx1, hy1⟩ := rotation_legal hcur nk (List.mem_of_getElem? h1)
  refine ⟨i, t, ht, h6, ⟨hl, by rw [hx1]; exact hcur.2.1, by rw [hy1]; exact hcur.2.2⟩, by rw [h5], ?_, ?_⟩
  · obtain ⟨last, hlast⟩ := solve_some hW L hcv hfit hl hp h3
    unfold RunCommander.new
    rw [h3]
    exact ⟨⟨last, p, 0⟩, by simp only [bind, Except.bind, hlast.2.2.1]; rfl⟩
  · intro j t' n hj ht' hn
    obtain ⟨nk', hnk'⟩ : ∃ t, (rotationNodes cur)[j]? = some t := ⟨_, List.getElem?_eq_getElem (by omega)⟩
    obtain ⟨-, h7, h8, h9⟩ := (rotations cur).2 j nk' t' hnk' ht'
    have : n = nk'.1 := by
      obtain ⟨g1, g2, g3⟩ := hn
      obtain ⟨⟨x, y, p⟩, _⟩ := nk'
      obtain ⟨x', y', p'⟩ := n
      simp only at *
      rw [g1, g2, h7, h8, show p' = p from by rw [← h9] at g3; revert g3; cases p <;> cases p' <;> decide]
    rw [this]
    exact h4 j nk' hj hnk'

/-- **C93, replies**: the rotation is given once, afterwards the end is reported for ever. -/
theorem C93_replies (s : SetupCommander) (command : Node × RotationKind) (h : s.command = some command) (k : Nat) :
    replies (fun s => (.ok s.nextCommand : R _)) (k + 1) s = .ok (.command command :: List.replicate k .finish, ⟨s.current, none⟩) := by
  obtain ⟨cur, c⟩ := s
  cases h
  have : ∀ k, replies (fun s : SetupCommander => (.ok s.nextCommand : R _)) k ⟨cur, none⟩ = .ok (List.replicate k .finish, ⟨cur, none⟩) := by
    intro k
    induction k with
    | zero => rfl
    | succ k ih =>
      rw [replies]
      simp only [bind, Except.bind]
      rw [show (⟨cur, none⟩ : SetupCommander).nextCommand = (.finish, ⟨cur, none⟩) from rfl]
      simp only
      rw [ih]
      rfl
  rw [replies]
  simp only [bind, Except.bind]
  rw [show (⟨cur, some command⟩ : SetupCommander).nextCommand = (.command command, ⟨cur, none⟩) from rfl]
  simp only
  rw [this]
  rfl

theorem enough {M : Nat} (hM : ∀ k ∈ [EdgeKind.straight 1, .straightDiagonal 1, .slalom45, .slalom90, .slalom135, .slalom180, .slalomDiagonal90],
    ∀ d < W, cost (patternOf k) + cost (.straight d) ≤ M) {g : Node} (hx : g.x < 2 * W) (hy : g.y < 2 * W) : Enough W cost g M := by
  intro k hk m h1 h2
  refine hM k hk _ ?_
  unfold cellsApart
  omega

/-- **C93, reachability**: in a cell of the maze with the goal in another cell, a plan exists after one of the four rotations exactly if the cells
are connected by walls that are checked and absent. So the setup commander is made exactly in this case; the only other outcome is a full vector
of the solver, in mazes of more than 8 x 8 cells. -/
theorem C93_reach (hW : Supported W) (L : QueueLaws Q HEAP_MAX) (hcv : ∀ p, Occurs W p → convert p = .ok (cost p))
    (hfit : ∀ p q, Occurs W p → Occurs W q → cost p + cost q ≤ MAX) (hB : Bearable W cost MAX) (hC : Closed W (uncertain b)) {cur : Node}
    (hcur : CellPose W cur) (hp : Place W x y) (hx : x % 2 = 0) (hy : y % 2 = 0) :
    (∀ s, SetupCommander.new (solveIn W b convert Q MAX x y) cur = .ok s →
      (cur.x, cur.y) ≠ (x, y) ∧ Connected W (posBlocked (uncertain b)) (cellOf cur) (x, y)) ∧
    (∀ e, SetupCommander.new (solveIn W b convert Q MAX x y) cur = .error e → (e = .capacity ∧ 8 < W) ∨
      e = .unreachable ∧ ((cur.x, cur.y) = (x, y) ∨ ¬ Connected W (posBlocked (uncertain b)) (cellOf cur) (x, y))) := by
  have hrot := rotation_legal hcur
  constructor
  · intro s h
    obtain ⟨i, nk, h1, rfl, ⟨path, h3⟩, -⟩ := choose_ok _ h
    obtain ⟨hl, hx1, hy1⟩ := hrot nk (List.mem_of_getElem? h1)
    obtain ⟨last, a1, a2, a3, a4, a5, a6, a7, ⟨c, a8⟩, -⟩ := solve_some hW L hcv hfit hl hp h3
    have hcl : CellPose W last := ⟨a4, by omega, by omega⟩
    have hcn : CellPose W nk.1 := ⟨hl, by have := hcur.2; omega, by have := hcur.2; omega⟩
    have hcon := path_connected a8 a2 hl a3
    rw [ahead_cell hcn, ahead_cell hcl] at hcon
    unfold cellOf at hcon ⊢
    rw [hx1, hy1, a5, a6] at hcon
    refine ⟨fun he => ?_, hcon⟩
    -- a start at the goal is no plan
    obtain ⟨g0, rest, k1, k2⟩ := place_goals hp
    unfold solveIn at h3
    rw [k1] at h3
    have h0 := (k2 g0).mp (List.mem_cons_self ..)
    have h81 := C81_found L (run_sound hW hcv hfit h0.1) hl h3
    obtain ⟨e1, e2⟩ := Prod.mk.inj he
    exact h81.1 ((k2 _).mpr ⟨hl, by omega, by omega⟩)
  · intro e h
    rcases choose_error _ h with ⟨nk, h1, h2⟩ | ⟨rfl, h2⟩
    · obtain ⟨hl, -, -⟩ := hrot nk h1
      obtain ⟨k1, k2⟩ := solve_error (b := b) (x := x) (y := y) hW L hcv hfit hl hp
      refine Or.inl ⟨k1 e h2, ?_⟩
      by_contra h8
      obtain ⟨r, hr⟩ := k2 (by omega)
      rw [h2] at hr; cases hr
    · refine Or.inr ⟨rfl, ?_⟩
      by_contra hne
      push Not at hne
      obtain ⟨hne, hcon⟩ := hne
      obtain ⟨M, hM1, hM2⟩ := hB
      obtain ⟨e, he, -, k, hk, path, hd, c, p1, p2, p3, p4, p5⟩ :=
        connected_goes hC (enough (g := ⟨x, y, .north⟩) hM1 hp.1 hp.2.1) (C := cellOf cur) (D := (x, y))
          ⟨by show (cur.x : Int) % 2 = 0; have := hcur.2; omega, by show (cur.y : Int) % 2 = 0; have := hcur.2; omega⟩
          (by obtain ⟨⟨q1, q2, -⟩, -⟩ := hcur; unfold InRange cellOf; simp only; omega)
          (by intro he; apply hne; unfold cellOf at he; obtain ⟨e1, e2⟩ := Prod.mk.inj he; exact Prod.ext (by simpa using e1) (by simpa using e2)) hcon
      -- the pose is one of the rotations
      have hpose : ∃ nk ∈ rotationNodes cur, nk.1 = pose (cellOf cur) e := by
        have hf := facing_axis e he
        have hpx : pose (cellOf cur) e = ⟨cur.x, cur.y, facing e⟩ := by unfold pose cellOf; simp
        rw [hpx]
        generalize facing e = q at hf
        obtain ⟨⟨-, -, hp'⟩, h1, h2⟩ := hcur
        have hcp : cur.posture ∈ [Posture.north, .east, .south, .west] := by
          rcases hp' with ⟨_, _, hp⟩ | ⟨h, _⟩
          · simpa using hp
          · omega
        obtain ⟨cx, cy, p⟩ := cur
        simp only at hcp ⊢
        simp only [List.mem_cons, List.not_mem_nil, or_false] at hf hcp
        rcases hcp with rfl | rfl | rfl | rfl <;> rcases hf with rfl | rfl | rfl | rfl <;> simp [rotationNodes] <;> decide
      obtain ⟨nk, hnk, hpose⟩ := hpose
      obtain ⟨hl, hx1, hy1⟩ := hrot nk hnk
      rcases solve_none hW L hcv hfit hl hp (h2 nk hnk) with ⟨e1, e2⟩ | hall
      · exact hne (Prod.ext (by omega) (by omega))
      · have := hall path c (pose (x, y) hd) (by rw [p1, hpose]) p2 (by simp [pose]) (by simp [pose]) p4
        have hs : cost (.straight (cellsApart nk.1 ⟨x, y, .north⟩)) ≤ M := by
          have := enough (g := ⟨x, y, .north⟩) hM1 hp.1 hp.2.1 (.straight 1) (by decide) nk.1 hl.1 hl.2.1
          omega
        have : (k + 1) * M ≤ W * W * M := Nat.mul_le_mul_right _ hk
        rw [Nat.add_mul] at this
        omega

/-- **C93, setting**: true knowledge of a closed maze blocks the border, and the costs of the default converters can be paid in mazes of up to
16 x 16 cells. -/
theorem C93_setting {real : Wall → Bool} (hT : TrueBelief W real b) (hC : Closed W real) :
    Closed W (uncertain b) ∧ (W ≤ 16 → Bearable W linearCost 65535 ∧ Bearable W tableCost 65535) := by
  constructor
  · have key : ∀ w, real w = true → uncertain b w = true := by
      intro w hw
      by_contra h
      rw [Bool.not_eq_true] at h
      rw [(uncertain_open hT w h).1] at hw
      cases hw
    exact fun i hi => ⟨key _ (hC i hi).1, key _ (hC i hi).2⟩
  · intro hW
    have hk : ∀ k ∈ [EdgeKind.straight 1, .straightDiagonal 1, .slalom45, .slalom90, .slalom135, .slalom180, .slalomDiagonal90],
        ∀ d < 16, linearCost (patternOf k) + linearCost (.straight d) ≤ 200 ∧ tableCost (patternOf k) + tableCost (.straight d) ≤ 200 := by decide
    have hle : W * W * 200 < 65535 := by
      have : W * W ≤ 16 * 16 := Nat.mul_le_mul hW hW
      omega
    exact ⟨⟨200, fun k hk' d hd => (hk k hk' d (by omega)).1, hle⟩, ⟨200, fun k hk' d hd => (hk k hk' d (by omega)).2, hle⟩⟩

end run

/-! ## Cases -/

/-- Everything is known of a maze of 4 x 4 cells with one wall inside. -/
def bareKnown : Belief := ⟨fun w => decide (w.x < 4 ∧ w.y < 4), fun w => decide (w.x < 4 ∧ w.y < 4) && bare w, fun _ => false⟩

example : TrueBelief 4 (fun w => decide (w.x < 4 ∧ w.y < 4) && bare w) bareKnown ∧ Closed 4 (fun w => decide (w.x < 4 ∧ w.y < 4) && bare w) ∧
    CellPose 4 ⟨0, 0, .south⟩ ∧ Place 4 2 6 := by
  refine ⟨⟨fun _ _ => rfl, fun w h => ?_, fun w h => ?_⟩, by unfold Closed; decide, by decide, by decide⟩
  · have h : decide (w.x < 4 ∧ w.y < 4) = false := h
    show (decide (w.x < 4 ∧ w.y < 4) && bare w) = false
    rw [h]; rfl
  · show decide (w.x < 4 ∧ w.y < 4) = false
    simpa using h

/-- Looking down in the corner, the mouse turns back, and then drives up and right. -/
example : (SetupCommander.new (solveIn 4 bareKnown defaultLinear (listQueue Nat HEAP_MAX) 65535 2 6) ⟨0, 0, .south⟩).toOption.map
      (fun s => (s.current, s.command)) = some (⟨0, 0, .north⟩, some (⟨0, 0, .south⟩, .back)) ∧
    (RunCommander.new (solveIn 4 bareKnown defaultLinear (listQueue Nat HEAP_MAX) 65535 2 6) ⟨0, 0, .north⟩).toOption.map
      (fun c => ((replies RunCommander.nextCommand 3 c).toOption.map Prod.fst, c.current)) =
      some (some [.command ⟨⟨0, 0, .north⟩, .straight 2, .acceleration⟩, .command ⟨⟨0, 4, .north⟩, .slalom .fastRun90 .right, .acceleration⟩,
        .finish], ⟨2, 6, .east⟩) := by
  decide +kernel

/-- In the goal cell the setup commander panics. -/
example : (match SetupCommander.new (solveIn 4 bareKnown defaultLinear (listQueue Nat HEAP_MAX) 65535 2 6) ⟨2, 6, .east⟩ with
    | .error .unreachable => true | _ => false) = true := by decide +kernel

end Verif.Props
