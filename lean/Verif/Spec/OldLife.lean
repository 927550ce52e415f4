import Verif.Model.OldLife
import Verif.Spec.OldRun
/-!
# Specification of the life of the former robot
-/
namespace Verif.Spec
open Verif Verif.Run Verif.Old Verif.Old.FastRun Verif.Old.Life

/-- A command leads from a pose to another through openings, or turns on the spot. -/
def CommandMoves (W : Nat) (isWall : Verif.Search.Coord → Bool) (n : Node) (c : Command) (m : Node) : Prop :=
  match c with
  | .search n' k => n' = n ∧ CommandLeads W isWall n k m
  | .rotate n' k => n' = n ∧ ∃ e, (k, e) ∈ turns ∧ Turned n e m
  | .run c => c.node = n ∧ ∃ k, Drivable W isWall n k m ∧ Leads n k m c.route

/-- The commands lead one after the other from a pose to another. -/
inductive LifeDrive (W : Nat) (isWall : Verif.Search.Coord → Bool) (start : Node) : List Command → Node → Prop
  | nil : LifeDrive W isWall start [] start
  | snoc (l : List Command) (n m : Node) (c : Command) : LifeDrive W isWall start l n → CommandMoves W isWall n c m → LifeDrive W isWall start (l ++ [c]) m

/-- What is assumed of the configuration and the maze: that of a search, start and goal are different cells, the return goes to the start, as many
moves as there are cells can be paid, and the goal can be reached from the start by a fast run through the maze that can be paid. -/
structure LifeSetting (C : Life.Config) (cost : Pattern → Nat) (real : Wall → Bool) (goal0 : Node) (rest : List Node) : Prop where
  search : Setting C.search cost real goal0 rest
  afford : Affordable C.search cost
  bear : Bearable C.search.W cost C.search.MAX
  goals : goalsOf C.search.W C.gx C.gy = .ok C.search.goals
  place : Place C.search.W C.gx C.gy
  cell : C.gx % 2 = 0 ∧ C.gy % 2 = 0
  home : C.search.start.x = C.rx ∧ C.search.start.y = C.ry
  apart : (C.gx, C.gy) ≠ (C.rx, C.ry)
  way : ∃ q c, q.head? = some C.search.start ∧ (∃ g ∈ goal0 :: rest, q.getLast? = some g) ∧
    ChargedPath C.search.W (posBlocked real) cost goal0 q c ∧ cost (.straight (cellsApart C.search.start goal0)) + c < C.search.MAX

/-- The life of the robot from a search with `count` fast runs: calls of `run` of the administrator without selection of a mode, while the
sensors find out about the walls, and the agents accept the commands. `cs` are all commands given. -/
inductive Lives (C : Life.Config) (real : Wall → Bool) (count : Nat) : Belief → Admin → List Command → Prop
  | start (b : Belief) (a : Agent) (c : Command) (op : Operator) : TrueBelief C.search.W real b → OpenAhead C.search.W b C.search.start →
      a.accepts = true → construct C b a C.search.start (.search count) = .ok (some (c, op)) →
      Lives C real count b ⟨some op, .search count, false, true⟩ [c]
  | call (b : Belief) (e : Moment) (s s' : Admin) (r : Result) (cs new : List Command) : Lives C real count b s cs → Learns b e.belief →
      TrueBelief C.search.W real e.belief → e.agent.accepts = true → e.newAgent.accepts = true → Admin.run C e s = .ok (r, new, s') →
      Lives C real count e.belief s' (cs ++ new)

/-- The order of the modes: the search, then for each run the return, its setup and the fast run, and a last return. -/
def ModeOrder (count : Nat) : List Mode :=
  .search count :: ((List.range count).reverse.flatMap fun i => [.returnSetup (i + 1), .ret (i + 1), .runSetup i, .run i]) ++
    [.returnSetup 0, .ret 0, .idle]

/-- The operator that belongs to a mode. -/
def ModeFits : Option Operator → Mode → Prop
  | some (.search _), .search _ => True
  | some (.returnSetup _), .returnSetup _ => True
  | some (.ret _), .ret _ => True
  | some (.runSetup _), .runSetup _ => True
  | some (.run _), .run _ => True
  | none, .idle => True
  | _, _ => False

/-- Where the mouse is at the end of a mode: at the start after a return, at the goal after a fast run, and always in a cell. -/
def EndsAt (C : Life.Config) (m : Node) (mode : Mode) : Prop :=
  CellPose C.search.W m ∧ match mode with
  | .ret _ => (m.x, m.y) = (C.rx, C.ry)
  | .run _ => (m.x, m.y) = (C.gx, C.gy)
  | _ => True

end Verif.Spec
