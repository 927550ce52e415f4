import Verif.Spec.OldLife
import Verif.Props.OldRun
import Verif.Props.OldCommander
/-! The invariant of the life of the former robot. -/
namespace Verif.Proof.OldL
open Verif Verif.Run Verif.Spec Verif.Old Verif.Old.FastRun Verif.Old.Life Verif.Proof Verif.Proof.OldN Verif.Proof.OldR Verif.Props Verif.Props.Old

variable {C : Life.Config} {cost : Pattern → Nat} {real : Wall → Bool} {goal0 : Node} {rest : List Node} {b b' : Belief}

theorem known_uncertain (b : Belief) : posBlocked (uncertain b) = OldS.knownWall b := by
  funext c
  unfold posBlocked uncertain OldS.knownWall
  cases b.checked (oldWallAt c) <;> cases b.present (oldWallAt c) <;> rfl

theorem learn_connected {W : Nat} (hT : TrueBelief W real b) (hT' : TrueBelief W real b') (hL : Learns b b') {A D : V}
    (h : Connected W (posBlocked (uncertain b)) A D) : Connected W (posBlocked (uncertain b')) A D := by
  rw [known_uncertain] at h ⊢
  exact OldS.connected_mono (OldS.known_learn hT hT' hL) h

theorem walk_connected {W : Nat} {isWall : Verif.Search.Coord → Bool} {A D : V} {cs : List Verif.Search.Coord} {cells : List V} (h : CellWalk A cs cells)
    (ho : ∀ c ∈ cs, Valid W c ∧ isWall c = false) (hl : cells.getLast? = some D) : Connected W isWall A D := by
  induction h with
  | stay A => cases hl; exact .refl
  | step A B c cs cells hb hw ih =>
    have h1 := ho c (List.mem_cons_self ..)
    refine .head ⟨c, hb, h1.1, h1.2⟩ (ih (fun c hc => ho c (List.mem_cons_of_mem _ hc)) ?_)
    cases hw <;> simpa using hl

theorem goal_cell (S : LifeSetting C cost real goal0 rest) : ∀ g, g ∈ goal0 :: rest ↔ Legal C.search.W g ∧ g.x = C.gx ∧ g.y = C.gy := by
  obtain ⟨g0, r, h1, h2⟩ := place_goals S.place
  rw [S.goals, S.search.goals] at h1
  cases h1
  exact h2

/-- What is known when a search is over. -/
theorem explores_final (S : LifeSetting C cost real goal0 rest) {s : Old.Search.Commander} {rs : List Old.Search.Reply} (h : Explores C.search real b s rs)
    (hf : s.phase = .final) : CellPose C.search.W s.current ∧
      Connected C.search.W (posBlocked (uncertain b)) (cellOf C.search.start) (cellOf s.current) ∧
      Connected C.search.W (posBlocked (uncertain b)) (cellOf C.search.start) ((C.gx : Int), (C.gy : Int)) := by
  induction h with
  | start b hT ho => cases hf
  | call b b' s s' r rs h hL hT' hr ih =>
    obtain ⟨hT, hI, -⟩ := OldS.explores_inv S.search h
    have hI0 := OldS.phase_learn hT hT' hL hI
    obtain ⟨hI', hlead, -⟩ := OldS.phase_step S.search hT' hI0 hr
    generalize commandsOf rs = l at hI0 hI'
    have hr0 := hr
    cases hI0 with
    | initial ho =>
      obtain ⟨m, h1, -⟩ := OldS.init_step S.search.width S.search.start ho
      simp only [Old.Search.nextCommand, Old.Search.Commander.new, h1, bind, Except.bind, pure, Except.pure, Except.ok.injEq, Prod.mk.injEq] at hr
      obtain ⟨rfl, rfl⟩ := hr
      cases hf
    | waiting cur ks c b0 hs hk h2 h3 h4 h5 =>
      exfalso
      simp only [Old.Search.nextCommand] at hr
      split at hr
      · cases hr; cases hf
      · cases hch : Old.Search.choose b' c with
        | none => rw [hch] at hr; cases hr; cases hf
        | some o =>
          rw [hch] at hr
          cases o with
          | none => cases hr
          | some x =>
            simp only [OldS.search_ofNode hs.legal, bind, Except.bind, pure, Except.pure] at hr
            split at hr
            · cases hr
            · rename_i o ho
              cases o with
              | none => cases hr
              | some k => cases hr; cases hf
    | final cur n ks c hc hk =>
      simp only [Old.Search.nextCommand, pure, Except.pure, Except.ok.injEq, Prod.mk.injEq] at hr
      obtain ⟨rfl, rfl⟩ := hr
      obtain ⟨h1, h2, h3⟩ := ih rfl
      exact ⟨h1, learn_connected hT hT' hL h2, learn_connected hT hT' hL h3⟩
    | solving cur ks hs hk =>
      have open_real : OpenPose C.search.W (posBlocked real) cur := by
        obtain ⟨c, h1, h2, h3, h4⟩ := hs.here
        exact ⟨c, h1, h2, h3, OldS.known_real hT' c h4⟩
      simp only [Old.Search.nextCommand, OldS.search_ofNode hs.legal, bind, Except.bind, pure, Except.pure] at hr
      cases hc : Old.Search.nextCandidates C.search b' cur with
      | error e => rw [hc] at hr; cases hr
      | ok o =>
        rw [hc] at hr
        cases o with
        | some c =>
          simp only [Except.ok.injEq, Prod.mk.injEq] at hr
          obtain ⟨rfl, rfl⟩ := hr
          cases hf
        | none =>
          obtain ⟨m, h1, h2, h3⟩ := OldS.final_step S.search.width S.search.closed hs.legal open_real
          simp only [h1, Except.ok.injEq, Prod.mk.injEq] at hr
          obtain ⟨rfl, rfl⟩ := hr
          refine ⟨h3, ?_, ?_⟩
          · have : cellOf m = aheadCell cur := by
              obtain ⟨a1, a2, a3⟩ := h2
              unfold cellOf aheadCell
              rw [a1, a2]
            rw [this, known_uncertain]
            exact hs.back
          · rcases C88_finish S.search S.afford h hL hT' hr0 with (hx | hx) | ⟨path, c, p1, p2, p3, p4, p5, -⟩
            · have := (goal_cell S _).mp hx
              obtain ⟨x1, x2⟩ := S.home
              exact absurd (Prod.ext (by simp only; omega) (by simp only; omega)) S.apart
            · obtain ⟨q, c, q1, q2, q3, q4⟩ := S.way
              have := hx q c q1 q2 q3
              omega
            · obtain ⟨-, -, -, ⟨cs, hcs⟩, f⟩ := OldS.plan_facts S.search p1
              obtain ⟨cells, g, hg, g1, g2⟩ := f cs hcs
              obtain ⟨-, e1, e2⟩ := (goal_cell S g).mp hg
              have : cellOf g = ((C.gx : Int), (C.gy : Int)) := by unfold cellOf; rw [e1, e2]
              rw [← this]
              refine walk_connected g1 (fun c hc => ⟨OldS.crosses_valid hcs c hc, ?_⟩) g2
              rw [known_uncertain]
              obtain ⟨k1, k2⟩ := p2 cs hcs c hc
              exact OldS.knownWall_false.mpr ⟨k1, by rw [hT'.known _ k1]; exact k2⟩

/-! ## Plans that are found can be found again -/

/-- There is a way that can be paid. -/
def Cheap (W : Nat) (b : Belief) (cost : Pattern → Nat) (MAX x y : Nat) (n : Node) : Prop :=
  ∃ q c g, q.head? = some n ∧ q.getLast? = some g ∧ g.x = x ∧ g.y = y ∧ ChargedPath W (posBlocked (uncertain b)) cost ⟨x, y, .north⟩ q c ∧
    cost (.straight (cellsApart n ⟨x, y, .north⟩)) + c < MAX

theorem solve_cheap {W MAX x y : Nat} {convert : Pattern → R Nat} {Q : Queue Nat} {start : Node} (hW : Supported W) (L : QueueLaws Q HEAP_MAX)
    (hcv : ∀ p, Occurs W p → convert p = .ok (cost p)) (hfit : ∀ p q, Occurs W p → Occurs W q → cost p + cost q ≤ MAX) (hstart : Legal W start)
    (hp : Place W x y) {path : List Node} (h : solveIn W b convert Q MAX x y start = .ok (some path)) :
    Cheap W b cost MAX x y start ∧ (start.x, start.y) ≠ (x, y) := by
  obtain ⟨g0, rest, h1, h2⟩ := place_goals hp
  have h0 := (h2 g0).mp (List.mem_cons_self ..)
  unfold solveIn at h
  rw [h1] at h
  have hS := run_sound (blocked := uncertain b) hW hcv hfit h0.1
  have hs := (C81_found L hS hstart h).1
  refine ⟨?_, fun he => hs ((h2 _).mpr ⟨hstart, (Prod.mk.inj he).1, (Prod.mk.inj he).2⟩)⟩
  rcases solve_main L hS hstart rest hs with ⟨e, -⟩ | ⟨p, c, g, e, e1, e2, e3, -⟩ | ⟨e, -⟩
  · simp only [bind, Except.bind] at h; rw [e] at h; cases h
  · obtain ⟨t1, t2, t3⟩ := (trip_path hW hcv h0.1 hstart).mp e2
    obtain ⟨-, g1, g2⟩ := (h2 g).mp e1
    refine ⟨p, c, g, t2, t3, g1, g2, charged_place h0.2.1 h0.2.2 t1, ?_⟩
    have hf : OldD.far (runMaze W (uncertain b) convert) g0 start = cost (.straight (cellsApart start g0)) := by
      unfold OldD.far
      rw [run_distance hW hcv hstart h0.1]
      rfl
    have ea : cellsApart start ⟨x, y, .north⟩ = cellsApart start g0 := by unfold cellsApart; rw [h0.2.1, h0.2.2]
    rw [ea, ← hf]
    exact e3
  · simp only [bind, Except.bind] at h; rw [e] at h; cases h

theorem charged_mono {W : Nat} {isWall isWall' : Verif.Search.Coord → Bool} (hle : ∀ c, isWall c = false → isWall' c = false) {g : Node}
    {path : List Node} {c : Nat} (h : ChargedPath W isWall cost g path c) : ChargedPath W isWall' cost g path c := by
  induction h with
  | single n => exact .single n
  | cons n m k l c hd h ih => exact .cons n m k l c (drivable_mono (fun c _ hc => hle c hc) hd) ih

theorem fast_mono {W : Nat} {isWall isWall' : Verif.Search.Coord → Bool} (hle : ∀ c, isWall c = false → isWall' c = false) {f : EdgeKind → Nat}
    {path : List Node} {c : Nat} (h : FastPath W isWall f path c) : FastPath W isWall' f path c := by
  induction h with
  | single n => exact .single n
  | cons n m k l c hd h ih => exact .cons n m k l c (drivable_mono (fun c _ hc => hle c hc) hd) ih

theorem Cheap.learn {W MAX x y : Nat} {n : Node} (hT : TrueBelief W real b) (hT' : TrueBelief W real b') (hL : Learns b b')
    (h : Cheap W b cost MAX x y n) : Cheap W b' cost MAX x y n := by
  obtain ⟨q, c, g, h1, h2, h3, h4, h5, h6⟩ := h
  refine ⟨q, c, g, h1, h2, h3, h4, charged_mono ?_ h5, h6⟩
  rw [known_uncertain, known_uncertain]
  exact OldS.known_learn hT hT' hL

/-! ## The invariant -/

variable (C) in
/-- The goal of a return, or of a fast run. -/
def dest : Bool → Nat × Nat
  | true => (C.rx, C.ry)
  | false => (C.gx, C.gy)

variable (C b) in
def solveTo (back : Bool) : Solve := solveIn C.search.W b C.search.convert C.search.Q C.search.MAX (dest C back).1 (dest C back).2

def setupOp : Bool → SetupCommander → Operator
  | true, c => .returnSetup c
  | false, c => .runSetup c

def runOp : Bool → RunCommander → Operator
  | true, c => .ret c
  | false, c => .run c

def setupMode : Bool → Nat → Mode
  | true, k => .returnSetup k
  | false, k => .runSetup k

def runMode : Bool → Nat → Mode
  | true, k => .ret k
  | false, k => .run k

/-- How many runs can be left. -/
def left (count : Nat) : Bool → Nat → Prop
  | true, k => k ≤ count
  | false, k => k < count

/-- The moves of a run are at most as many as there are poses. -/
def most (W : Nat) : Nat := 2 * W * (2 * W) * 8

theorem few_poses {W : Nat} {path : List Node} (h : path.Nodup) (hl : ∀ n ∈ path, Legal W n) : path.length ≤ most W := by
  let code : Node → Nat := fun n => (n.x * (2 * W) + n.y) * 8 + Turned.angleOf n.posture
  have ha : ∀ p, Turned.angleOf p < 8 := by intro p; cases p <;> decide
  have hi : ∀ p q, Turned.angleOf p = Turned.angleOf q → p = q := by intro p q; cases p <;> cases q <;> decide
  have h1 : (path.map code).Nodup := by
    refine List.Nodup.map_on ?_ h
    rintro ⟨x, y, p⟩ hn ⟨x', y', q⟩ hm he
    have hy := (hl _ hn).2.1
    have hy' := (hl _ hm).2.1
    have hp := ha p
    have hq := ha q
    simp only [code] at he hy hy'
    have e1 : x * (2 * W) + y = x' * (2 * W) + y' := by omega
    have e2 : x = x' := by
      have := congrArg (· / (2 * W)) e1
      simp only [Nat.mul_comm _ (2 * W)] at this
      rw [Nat.mul_add_div (by omega), Nat.mul_add_div (by omega), Nat.div_eq_of_lt hy, Nat.div_eq_of_lt hy'] at this
      omega
    subst e2
    rw [show y = y' from by omega, hi p q (by omega)]
  have h2 : ∀ c ∈ path.map code, c < most W := by
    intro c hc
    obtain ⟨n, hn, rfl⟩ := List.mem_map.mp hc
    obtain ⟨hx, hy, -⟩ := hl n hn
    have hp := ha n.posture
    have : n.x * (2 * W) + n.y < 2 * W * (2 * W) := by
      have : (n.x + 1) * (2 * W) ≤ 2 * W * (2 * W) := Nat.mul_le_mul_right _ hx
      rw [Nat.add_mul] at this
      omega
    simp only [code, most]
    omega
  have := (h1.subperm (l₂ := List.range (most W)) (fun c hc => List.mem_range.mpr (h2 c hc))).length_le
  simpa using this

theorem fast_legal {W : Nat} {isWall : Verif.Search.Coord → Bool} {f : EdgeKind → Nat} {path : List Node} {c : Nat} (h : FastPath W isWall f path c)
    (hl : ∀ n ∈ path.head?, Legal W n) : ∀ n ∈ path, Legal W n := by
  induction h with
  | single n => simpa using hl
  | cons n m k l c hd h ih =>
    intro x hx
    have hn := hl n rfl
    rcases List.mem_cons.mp hx with rfl | hx
    · exact hn
    · exact ih (by rintro y ⟨⟩; exact drivable_legal hn k m hd) x hx

variable (C real) in
/-- The commands of a finished search, and at most `j` commands after it. -/
def After (j : Nat) (cs : List Command) : Prop :=
  ∃ b0 s0 rs l, Explores C.search real b0 s0 rs ∧ s0.phase = .final ∧ cs = (commandsOf rs).map (fun e => .search e.1 e.2) ++ l ∧ l.length ≤ j ∧
    ∀ n k, Command.search n k ∉ l

theorem After.mono {i j : Nat} {cs : List Command} (h : After C real i cs) (hij : i ≤ j) : After C real j cs := by
  obtain ⟨b0, s0, rs, l, h1, h2, h3, h4, h5⟩ := h
  exact ⟨b0, s0, rs, l, h1, h2, h3, by omega, h5⟩

theorem After.snoc {i : Nat} {cs : List Command} {c : Command} (h : After C real i cs) (hc : ∀ n k, c ≠ .search n k) : After C real (i + 1) (cs ++ [c]) := by
  obtain ⟨b0, s0, rs, l, h1, h2, h3, h4, h5⟩ := h
  refine ⟨b0, s0, rs, l ++ [c], h1, h2, by rw [h3, List.append_assoc], by simp; omega, fun n k hm => ?_⟩
  rcases List.mem_append.mp hm with h | h
  · exact h5 n k h
  · exact hc n k (List.mem_singleton.mp h).symm

/-- The number of operators since the search. -/
def rank (count : Nat) : Bool → Nat → Nat
  | true, k => 4 * (count - k) + 1
  | false, k => 4 * (count - k) - 1

variable (C cost real) in
/-- The state of the operator, the mode, and the commands so far. -/
inductive OpInv (count : Nat) (b : Belief) : Operator → Mode → List Command → Prop
  | search (s : Old.Search.Commander) (rs : List Old.Search.Reply) (b0 : Belief) : Explores C.search real b0 s rs → Learns b0 b →
      TrueBelief C.search.W real b → s.phase ≠ .initial →
      OpInv count b (.search s) (.search count) ((commandsOf rs).map fun e => .search e.1 e.2)
  | setup (back : Bool) (k : Nat) (n : Node) (cs : List Command) : TrueBelief C.search.W real b → left count back k → CellPose C.search.W n →
      (n.x, n.y) ≠ dest C back → Cheap C.search.W b cost C.search.MAX (dest C back).1 (dest C back).2 n →
      Connected C.search.W (posBlocked (uncertain b)) (cellOf C.search.start) ((C.gx : Int), (C.gy : Int)) →
      LifeDrive C.search.W (posBlocked real) C.search.start cs n → After C real (rank count back k * most C.search.W) cs → OpInv count b (setupOp back ⟨n, none⟩) (setupMode back k) cs
  | run (back : Bool) (k : Nat) (cur : Node) (path : List Node) (i : Nat) (n : Node) (cs : List Command) : TrueBelief C.search.W real b → left count back k →
      CellPose C.search.W cur → (cur.x, cur.y) = dest C back → path.getLast? = some cur → path[i]? = some n →
      (∃ c, FastPath C.search.W (posBlocked real) (fun k => cost (patternOf k)) path c) → (∀ n ∈ path.head?, Legal C.search.W n) →
      Connected C.search.W (posBlocked (uncertain b)) (cellOf C.search.start) ((C.gx : Int), (C.gy : Int)) →
      LifeDrive C.search.W (posBlocked real) C.search.start cs n → path.Nodup → After C real (rank count back k * most C.search.W + i) cs → OpInv count b (runOp back ⟨cur, path, i⟩) (runMode back k) cs

/-- The last command has been given. -/
def Finished : Operator → Prop
  | .search s => s.phase = .final
  | .returnSetup c | .runSetup c => c.command = none
  | .ret c | .run c => c.path.length ≤ c.iter + 1

theorem tour_drive {W : Nat} {isWall : Verif.Search.Coord → Bool} {start m : Node} {l : List (Node × SearchKind)} (h : CommandTour W isWall start l m) :
    LifeDrive W isWall start (l.map fun e => .search e.1 e.2) m := by
  induction h with
  | nil => exact .nil
  | snoc l n m k h h' ih =>
    rw [List.map_append]
    exact .snoc _ n m _ ih ⟨rfl, h'⟩

theorem OpInv.drive (S : LifeSetting C cost real goal0 rest) {count : Nat} {op : Operator} {mode : Mode} {cs : List Command}
    (h : OpInv C cost real count b op mode cs) : TrueBelief C.search.W real b ∧ ∃ m, LifeDrive C.search.W (posBlocked real) C.search.start cs m := by
  cases h with
  | search s rs b0 h _ h1 _ =>
    obtain ⟨-, -, h2⟩ := OldS.explores_inv S.search h
    exact ⟨h1, _, tour_drive h2⟩
  | setup back k n cs h1 _ _ _ _ _ h2 _ => exact ⟨h1, n, h2⟩
  | run back k cur path i n cs h1 _ _ _ _ _ _ _ _ h2 _ _ => exact ⟨h1, n, h2⟩

theorem OpInv.learn {count : Nat} {op : Operator} {mode : Mode} {cs : List Command} (hT' : TrueBelief C.search.W real b') (hL : Learns b b')
    (h : OpInv C cost real count b op mode cs) : OpInv C cost real count b' op mode cs := by
  cases h with
  | search s rs b0 h h1 h2 h3 => exact .search s rs b0 h (OldS.learns_trans h1 hL) hT' h3
  | setup back k n cs h1 h2 h3 h4 h5 h6 h7 h8 => exact .setup _ _ _ _ hT' h2 h3 h4 (h5.learn h1 hT' hL) (learn_connected h1 hT' hL h6) h7 h8
  | run back k cur path i n cs h1 h2 h3 h4 h5 h6 h7 h8 h9 h10 h11 h12 =>
    exact .run _ _ _ _ _ _ _ hT' h2 h3 h4 h5 h6 h7 h8 (learn_connected h1 hT' hL h9) h10 h11 h12

theorem setup_next (back : Bool) (n : Node) : Operator.next C b (setupOp back ⟨n, none⟩) = .ok (.finish, setupOp back ⟨n, none⟩) := by
  cases back <;> rfl

theorem run_next (back : Bool) (c : RunCommander) : Operator.next C b (runOp back c) = c.nextCommand.map fun rc => (runAnswer rc.1, runOp back rc.2) := by
  cases back <;> (show (do let (r, c) ← c.nextCommand; return _) = _) <;> cases c.nextCommand <;> rfl

theorem search_step {s s' : Old.Search.Commander} {r : Old.Search.Reply} (h : s.phase ≠ .initial)
    (hr : Old.Search.nextCommand C.search b s = .ok (r, s')) : s'.phase ≠ .initial ∧ (r = .finish → s'.phase = .final ∧ s' = s) := by
  unfold Old.Search.nextCommand at hr
  cases hp : s.phase with
  | initial => exact absurd hp h
  | solving =>
    rw [hp] at hr
    simp only [bind, Except.bind, pure, Except.pure] at hr
    repeat' split at hr
    all_goals first | (cases hr; done) | (cases hr; exact ⟨by simp, by simp⟩)
  | waiting =>
    rw [hp] at hr
    simp only [bind, Except.bind, pure, Except.pure] at hr
    repeat' split at hr
    all_goals first | (cases hr; done) | (cases hr; refine ⟨by simp [hp], by simp⟩)
  | final =>
    rw [hp] at hr
    cases hr
    exact ⟨h, fun _ => ⟨hp, rfl⟩⟩

/-- A call of a commander. -/
theorem op_next (S : LifeSetting C cost real goal0 rest) {count : Nat} {op op' : Operator} {mode : Mode} {cs : List Command} {r : Answer}
    (h : OpInv C cost real count b op mode cs) (hr : op.next C b = .ok (r, op')) :
    r ≠ .other ∧ OpInv C cost real count b op' mode (cs ++ match r with | .command c => [c] | _ => []) ∧ (r = .finish → Finished op') := by
  cases h with
  | search s rs b0 h h1 h2 h3 =>
    cases hn : Old.Search.nextCommand C.search b s with
    | error e => simp only [Operator.next, hn, bind, Except.bind] at hr; cases hr
    | ok rs' =>
      obtain ⟨r', s'⟩ := rs'
      simp only [Operator.next, hn, bind, Except.bind, pure, Except.pure] at hr
      cases hr
      obtain ⟨g1, g2⟩ := search_step h3 hn
      have hE := Explores.call b0 b s s' r' rs h h1 h2 hn
      have hO := OpInv.search (C := C) (cost := cost) (real := real) (count := count) s' _ b hE (fun _ h => h) h2 g1
      refine ⟨by cases r' <;> simp [searchAnswer], ?_, ?_⟩
      · cases r' <;> simpa [commandsOf, searchAnswer] using hO
      · cases r' with
        | finish => exact fun _ => (g2 rfl).1
        | _ => simp [searchAnswer]
  | setup back k n cs h1 h2 h3 h4 h5 h6 h7 h8 =>
    rw [setup_next] at hr
    cases hr
    refine ⟨by simp, ?_, fun _ => by cases back <;> rfl⟩
    simp only [List.append_nil]
    exact .setup _ _ _ _ h1 h2 h3 h4 h5 h6 h7 h8
  | run back k cur path i n cs h1 h2 h3 h4 h5 h6 h7 h8 h9 h10 h11 h12 =>
    rw [run_next] at hr
    obtain ⟨c, hc⟩ := h7
    by_cases hi : i + 1 < path.length
    · have := S.search.width.le
      obtain ⟨n', m, kd, t, e1, e2, e3, e4, e5⟩ := next_eq (cur := cur) (by omega) hc h8 hi
      rw [e5] at hr
      cases hr
      rw [h6] at e1
      cases e1
      refine ⟨by simp [runAnswer], ?_, by simp [runAnswer]⟩
      exact .run _ _ _ _ _ m _ h1 h2 h3 h4 h5 e2 ⟨c, hc⟩ h8 h9 (.snoc _ _ _ _ h10 ⟨rfl, kd, e3, e4⟩) h11 (h12.snoc (by simp))
    · rw [next_finish (by omega)] at hr
      cases hr
      refine ⟨by simp [runAnswer], ?_, fun _ => ?_⟩
      · simp only [runAnswer, List.append_nil]
        exact .run _ _ _ _ _ _ _ h1 h2 h3 h4 h5 h6 ⟨c, hc⟩ h8 h9 h10 h11 h12
      · cases back <;> (show path.length ≤ i + 1) <;> omega

/-- A call of an operator. -/
theorem op_step (S : LifeSetting C cost real goal0 rest) {count : Nat} {op op' : Operator} {mode : Mode} {cs new : List Command} {a : Agent} {out : Outcome}
    (h : OpInv C cost real count b op mode cs) (ha : a.accepts = true) (hr : op.step C b a = .ok (out, new, op')) :
    out ≠ .failed ∧ OpInv C cost real count b op' mode (cs ++ new) ∧ (out = .done → new = [] ∧ Finished op') := by
  unfold Operator.step at hr
  cases hf : a.full with
  | none => rw [hf] at hr; cases hr; exact ⟨by simp, by simpa using h, by simp⟩
  | some f =>
    cases f with
    | true => rw [hf] at hr; cases hr; exact ⟨by simp, by simpa using h, by simp⟩
    | false =>
      rw [hf] at hr
      cases hn : op.next C b with
      | error e => simp only [hn, bind, Except.bind] at hr; cases hr
      | ok ro =>
        obtain ⟨r, op1⟩ := ro
        obtain ⟨g1, g2, g3⟩ := op_next S h hn
        cases r with
        | other => exact absurd rfl g1
        | command c =>
          simp only [hn, bind, Except.bind, pure, Except.pure, ha, if_true] at hr
          cases hr
          exact ⟨by simp, g2, by simp⟩
        | waiting =>
          simp only [hn, bind, Except.bind, pure, Except.pure] at hr
          cases hr
          exact ⟨by simp, g2, by simp⟩
        | finish =>
          simp only [hn, bind, Except.bind, pure, Except.pure] at hr
          cases hr
          refine ⟨?_, g2, fun _ => ⟨rfl, g3 rfl⟩⟩
          split <;> simp

/-! ## The exchange of operators -/

theorem dest_place (S : LifeSetting C cost real goal0 rest) (back : Bool) : Place C.search.W (dest C back).1 (dest C back).2 ∧
    (dest C back).1 % 2 = 0 ∧ (dest C back).2 % 2 = 0 := by
  cases back with
  | false => exact ⟨S.place, S.cell⟩
  | true =>
    obtain ⟨⟨h1, h2, -⟩, h3, h4⟩ := S.search.start
    obtain ⟨e1, e2⟩ := S.home
    rw [e1] at h1 h3
    rw [e2] at h2 h4
    exact ⟨⟨h1, h2, fun h => by simp only [dest] at h; omega⟩, h3, h4⟩

variable (C) in
/-- The construction of a setup operator. -/
def setupNew (back : Bool) (b : Belief) (a : Agent) (node : Node) : R (Option (Command × Operator)) := do
  let c ← SetupCommander.new (solveTo C b back) node
  return some (← Operator.new C b a (setupOp back c))

variable (C) in
/-- The construction of a run operator. -/
def runNew (back : Bool) (b : Belief) (a : Agent) (node : Node) : R (Option (Command × Operator)) := do
  let c ← RunCommander.new (solveTo C b back) node
  return some (← Operator.new C b a (runOp back c))

theorem construct_setup (back : Bool) (k : Nat) (a : Agent) (node : Node) : construct C b a node (setupMode back k) = setupNew C back b a node := by
  cases back <;> rfl

theorem construct_run (back : Bool) (k : Nat) (a : Agent) (node : Node) : construct C b a node (runMode back k) = runNew C back b a node := by
  cases back <;> rfl

theorem setup_new (S : LifeSetting C cost real goal0 rest) {count : Nat} {back : Bool} {k : Nat} {cs : List Command} {a : Agent} {n : Node}
    (hT : TrueBelief C.search.W real b) (hk : left count back k) (hn : CellPose C.search.W n)
    (hK : Connected C.search.W (posBlocked (uncertain b)) (cellOf C.search.start) ((C.gx : Int), (C.gy : Int)))
    (hD : LifeDrive C.search.W (posBlocked real) C.search.start cs n) {j : Nat} (hA : After C real j cs)
    (hj : j + 1 ≤ rank count back k * most C.search.W) (ha : a.accepts = true) :
    (∀ o, setupNew C back b a n = .ok o → ∃ c op, o = some (c, op) ∧ OpInv C cost real count b op (setupMode back k) (cs ++ [c])) ∧
    (∀ p, setupNew C back b a n = .error p → (p = .capacity ∧ 8 < C.search.W) ∨ p = .unreachable ∧ ((n.x, n.y) = dest C back ∨
      ¬ Connected C.search.W (posBlocked (uncertain b)) (cellOf n) (((dest C back).1 : Int), ((dest C back).2 : Int)))) := by
  obtain ⟨L⟩ := S.search.heap
  obtain ⟨hp, hx, hy⟩ := dest_place S back
  have hC := (C93_setting hT S.search.closed).1
  obtain ⟨r1, r2⟩ := C93_reach (b := b) S.search.width L S.search.costs S.search.fit S.bear hC hn hp hx hy
  unfold setupNew
  cases hs : SetupCommander.new (solveTo C b back) n with
  | error e =>
    refine ⟨fun o h => ?_, fun p h => ?_⟩
    · cases h
    · cases h
      exact r2 _ hs
  | ok s =>
    obtain ⟨i, t, t1, t2, t3, t4, ⟨c, t5⟩, -⟩ := C93_choice (b := b) S.search.width L S.search.costs S.search.fit hn hp hs
    obtain ⟨m, o⟩ := s
    cases t4
    have hnew : Operator.new C b a (setupOp back ⟨m, some (n, t.1)⟩) = .ok (.rotate n t.1, setupOp back ⟨m, none⟩) := by
      cases back <;> simp [Operator.new, setupOp, Operator.next, SetupCommander.nextCommand, setupAnswer, ha, bind, Except.bind, pure, Except.pure]
    simp only [bind, Except.bind, hnew, pure, Except.pure]
    refine ⟨fun o h => ?_, fun p h => by cases h⟩
    cases h
    refine ⟨_, _, rfl, ?_⟩
    have hc : Cheap C.search.W b cost C.search.MAX (dest C back).1 (dest C back).2 m ∧ (m.x, m.y) ≠ dest C back := by
      unfold RunCommander.new at t5
      cases hv : solveIn C.search.W b C.search.convert C.search.Q C.search.MAX (dest C back).1 (dest C back).2 m with
      | error e => rw [hv] at t5; cases t5
      | ok o =>
        cases o with
        | none => rw [hv] at t5; cases t5
        | some path => exact solve_cheap S.search.width L S.search.costs S.search.fit t3.1 hp hv
    exact .setup back k m _ hT hk t3 hc.2 hc.1 hK (.snoc _ _ _ _ hD ⟨rfl, t.2, List.mem_of_getElem? t1, t2⟩)
      ((hA.snoc (by simp)).mono hj)

theorem run_new (S : LifeSetting C cost real goal0 rest) {count : Nat} {back : Bool} {k : Nat} {cs : List Command} {a : Agent} {n : Node}
    (hT : TrueBelief C.search.W real b) (hk : left count back k) (hn : CellPose C.search.W n) (hne : (n.x, n.y) ≠ dest C back)
    (hc : Cheap C.search.W b cost C.search.MAX (dest C back).1 (dest C back).2 n)
    (hK : Connected C.search.W (posBlocked (uncertain b)) (cellOf C.search.start) ((C.gx : Int), (C.gy : Int)))
    (hD : LifeDrive C.search.W (posBlocked real) C.search.start cs n) (hA : After C real (rank count back k * most C.search.W) cs)
    (ha : a.accepts = true) :
    (∀ o, runNew C back b a n = .ok o → ∃ c op, o = some (c, op) ∧ OpInv C cost real count b op (runMode back k) (cs ++ [c])) ∧
    (∀ p, runNew C back b a n = .error p → p = .capacity ∧ 8 < C.search.W) := by
  obtain ⟨L⟩ := S.search.heap
  obtain ⟨hp, hx, hy⟩ := dest_place S back
  unfold runNew
  cases hs : RunCommander.new (solveTo C b back) n with
  | error e =>
    refine ⟨fun o h => (by cases h), fun p h => ?_⟩
    cases h
    rcases C92_fails (b := b) S.search.width L S.search.costs S.search.fit hn.1 hp hs with h | ⟨rfl, ⟨h1, h2⟩ | h⟩
    · exact h
    · exact absurd (Prod.ext h1 h2) hne
    · obtain ⟨q, c, g, q1, q2, q3, q4, q5, q6⟩ := hc
      have := h q c g q1 q2 q3 q4 q5
      omega
  | ok c =>
    obtain ⟨⟨a1, a2, a3, a4, a5, a6, a7, ⟨w, a8⟩, -⟩, hi⟩ := C92_new (b := b) S.search.width L S.search.costs S.search.fit hn.1 hp hs
    obtain ⟨cur, path, i⟩ := c
    simp only at a1 a2 a3 a4 a5 a6 a7 a8 hi
    subst hi
    have hW := S.search.width.le
    have hl : ∀ n ∈ path.head?, Legal C.search.W n := by rw [a2]; rintro x ⟨⟩; exact hn.1
    have hf := fast_mono (isWall' := posBlocked real) (fun c hc => (uncertain_open hT _ hc).1) a8
    obtain ⟨n', m, kd, t, e1, e2, e3, e4, e5⟩ := next_eq (cur := cur) (i := 0) (by omega) hf hl (by omega)
    have hnn : n' = n := by
      rw [List.head?_eq_getElem?, e1] at a2
      exact Option.some.inj a2
    subst hnn
    have hnew : Operator.new C b a (runOp back ⟨cur, path, 0⟩) = .ok (.run ⟨n', t, runState 0 path.length⟩, runOp back ⟨cur, path, 1⟩) := by
      unfold Operator.new
      rw [run_next, e5]
      simp [Except.map, runAnswer, ha, bind, Except.bind, pure, Except.pure]
    simp only [bind, Except.bind, hnew, pure, Except.pure]
    refine ⟨fun o h => ?_, fun p h => by cases h⟩
    cases h
    refine ⟨_, _, rfl, ?_⟩
    exact .run back k cur path 1 m _ hT hk ⟨a4, by omega, by omega⟩ (Prod.ext a5 a6) a3 e2 ⟨w, hf⟩ hl hK (.snoc _ _ _ _ hD ⟨rfl, kd, e3, e4⟩) a1
      (hA.snoc (by simp))

theorem start_cell (S : LifeSetting C cost real goal0 rest) : cellOf C.search.start = ((C.rx : Int), (C.ry : Int)) := by
  unfold cellOf
  rw [S.home.1, S.home.2]

/-- The exchange after the last command of an operator. -/
theorem op_exchange (S : LifeSetting C cost real goal0 rest) {count : Nat} {op : Operator} {mode : Mode} {cs : List Command} {a : Agent}
    (h : OpInv C cost real count b op mode cs) (hF : Finished op) (ha : a.accepts = true) :
    (∀ c op', exchange C b a op mode.successor = .ok (some (c, op')) → OpInv C cost real count b op' mode.successor (cs ++ [c])) ∧
    (exchange C b a op mode.successor = .ok none → mode = .ret 0) ∧
    (mode = .ret 0 → exchange C b a op mode.successor = .ok none) ∧
    (∀ p, exchange C b a op mode.successor = .error p → (p = .capacity ∧ 8 < C.search.W) ∨
      (p = .unreachable ∧ ∃ s, op = .search s ∧ cellOf s.current = cellOf C.search.start)) := by
  cases h with
  | search s rs b0 h h1 h2 h3 =>
    obtain ⟨f1, f2, f3⟩ := explores_final S h hF
    obtain ⟨hT0, -, f4⟩ := OldS.explores_inv S.search h
    have f2 := learn_connected hT0 h2 h1 f2
    have f3 := learn_connected hT0 h2 h1 f3
    have hm : 1 ≤ most C.search.W := by
      have := S.search.width.pos
      unfold most
      exact Nat.mul_pos (Nat.mul_pos (by omega) (by omega)) (by omega)
    obtain ⟨g1, g2⟩ := setup_new (count := count) (back := true) (k := count) S h2 (Nat.le_refl _) f1 f3 (tour_drive f4)
      (j := 0) ⟨b0, s, rs, [], h, hF, by simp, by simp, by simp⟩ (by simp [rank]; omega) ha
    have e : exchange C b a (.search s) (Mode.search count).successor = setupNew C true b a s.current := by
      unfold exchange
      rw [show Operator.current (.search s) = s.current from rfl, legal_ofNode f1.1]
      rfl
    rw [e]
    refine ⟨fun c op' h => ?_, fun h => ?_, by simp, fun p hp => ?_⟩
    · obtain ⟨c', op'', e1, e2⟩ := g1 _ h
      cases e1
      exact e2
    · obtain ⟨c', op'', e1, -⟩ := g1 _ h
      cases e1
    · rcases g2 p hp with h | ⟨h, h' | h'⟩
      · exact Or.inl h
      · refine Or.inr ⟨h, s, rfl, ?_⟩
        rw [start_cell S]
        unfold cellOf
        rw [(Prod.mk.inj h').1, (Prod.mk.inj h').2]
      · rw [start_cell S] at f2
        exact absurd (OldS.connected_symm f2) h'
  | setup back k n cs h1 h2 h3 h4 h5 h6 h7 h8 =>
    obtain ⟨g1, g2⟩ := run_new (count := count) (back := back) (k := k) S h1 h2 h3 h4 h5 h6 h7 h8 ha
    have e : exchange C b a (setupOp back ⟨n, none⟩) (setupMode back k).successor = runNew C back b a n := by
      unfold exchange
      rw [show Operator.current (setupOp back ⟨n, none⟩) = n from by cases back <;> rfl, legal_ofNode h3.1]
      cases back <;> rfl
    have em : (setupMode back k).successor = runMode back k := by cases back <;> rfl
    rw [e, em]
    refine ⟨fun c op' h => ?_, fun h => ?_, fun h => (by cases back <;> cases h), fun p hp => Or.inl (g2 p hp)⟩
    · obtain ⟨c', op'', e1, e2⟩ := g1 _ h
      cases e1
      exact e2
    · obtain ⟨c', op'', e1, -⟩ := g1 _ h
      cases e1
  | run back k cur path i n cs h1 h2 h3 h4 h5 h6 h7 h8 h9 h10 h11 h12 =>
    have hF' : path.length ≤ i + 1 := by cases back <;> exact hF
    have hn : n = cur := by
      have hi : i < path.length := (List.getElem?_eq_some_iff.mp h6).1
      rw [List.getLast?_eq_getElem?, show path.length - 1 = i from by omega, h6] at h5
      exact Option.some.inj h5
    subst hn
    have ec : Operator.current (runOp back ⟨n, path, i⟩) = n := by cases back <;> rfl
    by_cases hz : back = true ∧ k = 0
    · obtain ⟨rfl, rfl⟩ := hz
      have e : exchange C b a (runOp true ⟨n, path, i⟩) (runMode true 0).successor = .ok none := by
        unfold exchange
        rw [ec, legal_ofNode h3.1]
        rfl
      rw [e]
      exact ⟨fun c op' h => (by cases h), fun _ => rfl, fun _ => rfl, fun p h => by cases h⟩
    · obtain ⟨k', hk', em, hr⟩ : ∃ k', left count (!back) k' ∧ (runMode back k).successor = setupMode (!back) k' ∧
          rank count (!back) k' = rank count back k + 2 := by
        cases back with
        | true =>
          refine ⟨k - 1, ?_, ?_, ?_⟩
          · have : k ≠ 0 := fun h => hz ⟨rfl, h⟩
            have : k ≤ count := h2
            show k - 1 < count
            omega
          · have : k ≠ 0 := fun h => hz ⟨rfl, h⟩
            simp [runMode, Mode.successor, setupMode, this]
          · have : k ≠ 0 := fun h => hz ⟨rfl, h⟩
            have : k ≤ count := h2
            show 4 * (count - (k - 1)) - 1 = 4 * (count - k) + 1 + 2
            omega
        | false =>
          refine ⟨k, Nat.le_of_lt h2, rfl, ?_⟩
          have : k < count := h2
          show 4 * (count - k) + 1 = 4 * (count - k) - 1 + 2
          omega
      have hlen : i + 1 ≤ most C.search.W := by
        obtain ⟨c, hc⟩ := h7
        have := few_poses h11 (fast_legal hc h8)
        have hi : i < path.length := (List.getElem?_eq_some_iff.mp h6).1
        omega
      obtain ⟨g1, g2⟩ := setup_new (count := count) (back := !back) (k := k') S h1 hk' h3 h9 h10 h12
        (by rw [hr, Nat.add_mul]; omega) ha
      have e : exchange C b a (runOp back ⟨n, path, i⟩) (runMode back k).successor = setupNew C (!back) b a n := by
        unfold exchange
        rw [ec, legal_ofNode h3.1, em]
        exact construct_setup _ _ _ _
      rw [e, em]
      refine ⟨fun c op' h => ?_, fun h => ?_, fun h => ?_, fun p hp => ?_⟩
      · obtain ⟨c', op'', e1, e2⟩ := g1 _ h
        cases e1
        exact e2
      · obtain ⟨c', op'', e1, -⟩ := g1 _ h
        cases e1
      · cases back with
        | true => cases h; exact absurd ⟨rfl, rfl⟩ hz
        | false => cases h
      · rcases g2 p hp with h | ⟨-, h | h⟩
        · exact Or.inl h
        · exfalso
          rw [h4] at h
          cases back with
          | true => exact S.apart h.symm
          | false => exact S.apart h
        · exfalso
          apply h
          rw [start_cell S] at h9
          have : cellOf n = (((dest C back).1 : Int), ((dest C back).2 : Int)) := by unfold cellOf; rw [← h4]
          rw [this]
          cases back with
          | true => exact h9
          | false => exact OldS.connected_symm h9

end Verif.Proof.OldL
