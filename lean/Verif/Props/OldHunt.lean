import Verif.Proof.OldHunt
import Verif.Props.OldCommander
import Verif.Props.OldEmergency
import Verif.Props.OldTargets
import Verif.Props.SearchLive
/-!
# C99: the targets of the former search runs
-/
namespace Verif.Props
open Verif Verif.Control Verif.Straight Verif.Slalom Verif.Spec Verif.Old Verif.Old.Hunt Verif.Proof.OldH
open Verif.Spec.Traject (Outputs Gives History Item Emergency after commands underway)
open Verif.Old.Search (Reply Commander)
open Verif.Old.Traject (searching Searching Answer Event Proc)
open Verif.Run (Node Posture)

variable {c : Hunt.Config}

/-- **C99, targets.** For commands that lead from one pose to the next, the first out of the start and at most the last one into a cell to stop there, all
trajectories end; the targets of each lead from its pose to within 6e-9 of a square width of the pose of the next; successive targets are close,
also from one command to the next, and so are their speeds. -/
theorem C99_targets (hc : SearchOk (huntSettings c)) {W : Nat} {isWall : Search.Coord → Bool} {start cur : Node} {l : List (Node × SearchKind)}
    (hs : CellPose W start) (h : CommandTour W isWall start l cur) (ho : InOrder start l) :
    ∃ ts, Gives huntStepper (l.map c.generate) ts [] ∧ (∀ s ∈ l.map c.generate, ∃ y l', Outputs huntStepper s (y :: l') none) ∧
      Hunt c W isWall start l cur ts ∧ Steps (searchStep (huntSettings c)) (searchGain (huntSettings c)) ts := by
  obtain ⟨ts, h1, h2, h3, h4, -⟩ := tour_ok hc hs h ho
  exact ⟨ts, h1, h4, h2, h3⟩

/-- **C99, explorations.** This holds for the commands of any run of the search commander, in a maze that the sensors report truly: the targets lead across
real openings only. -/
theorem C99_explored (hc : SearchOk (huntSettings c)) {P : Search.Config} {cost : Pattern → Nat} {real : Wall → Bool} {goal0 : Node} {rest : List Node}
    {b : Belief} {s : Commander} {rs : List Reply} (S : Setting P cost real goal0 rest) (h : Explores P real b s rs) :
    ∃ ts, Gives huntStepper ((commandsOf rs).map c.generate) ts [] ∧
      Hunt c P.W (posBlocked real) P.start (commandsOf rs) s.current ts ∧ Steps (searchStep (huntSettings c)) (searchGain (huntSettings c)) ts := by
  obtain ⟨h1, h2⟩ := C88_tour S h
  obtain ⟨ts, a1, -, a2, a3⟩ := C99_targets (c := c) hc S.start h1 h2
  exact ⟨ts, a1, a2, a3⟩

/-- **C99, emergency.** The emergency trajectory after any target leads with full speed (whatever the speed of the target) from its pose half a square
width less the offset ahead, where the mouse stays for half a second. -/
theorem C99_emergency (hc : SearchOk (huntSettings c)) (t : Target) :
    ∃ l, Outputs huntStepper (c.emergency t) l none ∧
      SlowDown c ⟨t.x.x, t.y.x, t.theta.x⟩ (compose ⟨t.x.x, t.y.x, t.theta.x⟩ ⟨c.squareWidth / 2 - c.frontOffset, 0, 0⟩) l ∧
      ∃ t', l.head? = some t' ∧ At t' ⟨t.x.x, t.y.x, t.theta.x⟩ ∧ body t' = (c.gen.vMax, 0) := by
  obtain ⟨l, h1, h2, -⟩ := at_ok hc ⟨t.x.x, t.y.x, t.theta.x⟩ .final
  exact ⟨l, h1, h2, by simpa using Proof.OldH.leg_first h2⟩

/-- **C99, the way back.** In the targets of a turn back the heading jumps: after the half turn, a target is followed by one with the heading before the turn,
and another by one with the heading after it. -/
theorem C99_back_jumps {q q' : Detect.Pose} {l : List Target} (h : HuntLeg c q .back q' l) :
    (∃ i t t', l[i]? = some t ∧ l[i + 1]? = some t' ∧ Real.pi - c.spin.vMax * c.period < t.theta.x - t'.theta.x) ∧
    (∃ i t t', l[i]? = some t ∧ l[i + 1]? = some t' ∧ t'.theta.x = t.theta.x + Real.pi) := by
  obtain ⟨l1, l2, l3, l4, l5, v', rfl, -, -, -, -, h3, h4, h4', h5⟩ := h
  have hne := lasts_ne (by norm_num) h4'
  have join {a b x : List Target} {t t' : Target} (ha : a.getLast? = some t) (hb : b.head? = some t') :
      ∃ i, (a ++ b ++ x)[i]? = some t ∧ (a ++ b ++ x)[i + 1]? = some t' := by
    have hl : 0 < a.length := by
      cases a with
      | nil => cases ha
      | cons => simp
    have hb' : 0 < b.length := by
      cases b with
      | nil => cases hb
      | cons => simp
    refine ⟨a.length - 1, ?_, ?_⟩
    · rw [List.getElem?_append_left (by rw [List.length_append]; omega), List.getElem?_append_left (by omega), ← List.getLast?_eq_getElem?, ha]
    · rw [List.getElem?_append_left (by rw [List.length_append]; omega), List.getElem?_append_right (by omega), ← hb, List.head?_eq_getElem?]
      congr 1
      omega
  constructor
  · obtain ⟨t, t1, t2, t3⟩ := h3.last
    obtain ⟨t', l4', rfl⟩ := List.exists_cons_of_ne_nil hne
    obtain ⟨i, i1, i2⟩ := join (a := l1 ++ l2 ++ l3) (b := t' :: l4') (x := l5) (t := t) (t' := t') (by rw [List.getLast?_append, t1]; rfl) rfl
    obtain ⟨⟨-, -, e⟩, -⟩ := h4 t' (List.mem_cons_self ..)
    exact ⟨i, t, t', i1, i2, by rw [e]; linarith⟩
  · obtain ⟨t', f1, ⟨-, -, f2⟩, -⟩ := h5.first
    obtain ⟨t, ht⟩ : ∃ t, l4.getLast? = some t := ⟨_, List.getLast?_eq_some_getLast hne⟩
    obtain ⟨i, i1, i2⟩ := join (a := l1 ++ l2 ++ l3 ++ l4) (b := l5) (x := []) (t := t) (t' := t') (by rw [List.getLast?_append, ht]; rfl) f1
    obtain ⟨⟨-, -, e⟩, -⟩ := h4 t (List.mem_of_mem_getLast? ht)
    rw [List.append_nil] at i1 i2
    exact ⟨i, t, t', i1, i2, by rw [f2, e]⟩

theorem commands_answers (rs : List Reply) : commands (rs.map c.answer) = (commandsOf rs).map c.generate := by
  unfold commands commandsOf
  induction rs with
  | nil => rfl
  | cons r rs ih => cases r <;> simp [Config.answer, ih]

/-- **C99, at any time.** However the interrupts interleave with the main loop, what has been handed to the robot are targets of the commands in order,
interrupted by emergencies, for which C96 says how it goes on; the target at a position is the one at that position of the targets of all commands. -/
theorem C99_any_time {n : Node} {k : SearchKind} {rs : List Reply} {ts : List Target}
    (hts : Gives huntStepper ((commandsOf (.command n k :: rs)).map c.generate) ts [])
    {es : List Event} {xs : List Target} {p : Proc (Searching (Detect.Pose × Traj) Target) (Detect.Pose × Traj)}
    (h : (Searching.start (c.generate (n, k)) (rs.map c.answer)).run (searching huntStepper c.emergency) es = .ok (xs, p)) :
    p.accepted <+: (commandsOf (.command n k :: rs)).map c.generate ∧
    (∃ i e, History huntStepper c.emergency default p.accepted xs i e) ∧ ∀ j x, Item huntStepper p.accepted j x → ts[j]? = some x := by
  obtain ⟨i, e, hh⟩ := C96_history h
  obtain ⟨-, -, used, u1, u2, -⟩ := C96_commands h
  have hp : p.accepted <+: (commandsOf (.command n k :: rs)).map c.generate := by
    have e : (commandsOf rs).map c.generate = commands used ++ commands p.answers := by
      rw [← commands_answers, u1]
      exact List.filterMap_append
    have e2 : (commandsOf (.command n k :: rs)).map c.generate = c.generate (n, k) :: (commandsOf rs).map c.generate := rfl
    rw [e2]
    refine (List.prefix_append _ (underway p.place)).trans ?_
    rw [u2, e]
    exact List.cons_prefix_cons.2 ⟨rfl, List.prefix_append _ _⟩
  refine ⟨hp, ⟨i, e, hh⟩, ?_⟩
  rintro j x ⟨us, left, g1, rfl⟩
  obtain ⟨more, hm⟩ := hp
  have := gives_begin g1 (by rw [hm]; exact hts)
  obtain ⟨r, rfl⟩ := this
  rw [List.append_assoc, List.getElem?_append_right (le_refl _)]
  simp

/-- **C99, completion.** If again and again the main loop goes on and an interrupt finds the lock free, the run of a search comes to its end, and every command
has been put in the queue. -/
theorem C99_completes (hc : SearchOk (huntSettings c)) {W : Nat} {isWall : Search.Coord → Bool} {start cur n : Node} {k : SearchKind} {rs : List Reply}
    (hs : CellPose W start) (ht : CommandTour W isWall start (commandsOf (.command n k :: rs)) cur) (ho : InOrder start (commandsOf (.command n k :: rs)))
    (hf : ∀ r ∈ rs, r ≠ .finish) {σ : Nat → Event} (hm : ∀ n, ∃ m, n ≤ m ∧ σ m = .main)
    (hfree : ∀ i, ∃ m, i ≤ m ∧ σ m = .tick ∧ ∀ xs q, after (searching huntStepper c.emergency) σ
      (Searching.start (c.generate (n, k)) (rs.map c.answer)) m = .ok (xs, q) → q.place.held = false) :
    ∃ i xs q j e, after (searching huntStepper c.emergency) σ (Searching.start (c.generate (n, k)) (rs.map c.answer)) i = .ok (xs, q) ∧ q.place = .done ∧
      History huntStepper c.emergency default ((commandsOf (.command n k :: rs)).map c.generate) xs j e := by
  obtain ⟨ts, -, h2, -⟩ := C99_targets (c := c) hc hs ht ho
  have hall : ∀ s ∈ c.generate (n, k) :: commands (rs.map c.answer), Spec.Traject.Finite huntStepper s := by
    intro s hs
    rw [commands_answers] at hs
    obtain ⟨y, l', h⟩ := h2 s hs
    exact ⟨_, h⟩
  obtain ⟨i, xs, q, j, e, a1, a2, -, a3⟩ := C96_completes (emer := c.emergency) (hall _ (List.mem_cons_self ..)) (fun t ht => hall t (List.mem_cons_of_mem _ ht))
    (fun a ha => by
      obtain ⟨r, hr, rfl⟩ := List.mem_map.1 ha
      cases r with
      | command n k => exact .inl ⟨_, rfl⟩
      | waiting => exact .inr rfl
      | finish => exact absurd rfl (hf _ hr)) hm hfree
  refine ⟨i, xs, q, j, e, a1, a2, ?_⟩
  rw [commands_answers] at a3
  exact a3

/-! ### Cases -/

/-- The settings of the project's test of the search, with an offset. -/
noncomputable def huntSample : Hunt.Config := ⟨(testSearch 0.01).gen, (testSearch 0.01).spin, (testSearch 0.01).period, (testSearch 0.01).squareWidth, 0.01⟩

theorem hunt_sample : SearchOk (huntSettings huntSample) :=
  ⟨(test_search (by norm_num) (le_refl _)).v, (test_search (fo := 0.01) (by norm_num) (le_refl _)).a, (test_search (fo := 0.01) (by norm_num) (le_refl _)).j,
    (test_search (fo := 0.01) (by norm_num) (le_refl _)).sv, (test_search (fo := 0.01) (by norm_num) (le_refl _)).sa,
    (test_search (fo := 0.01) (by norm_num) (le_refl _)).sj, (test_search (fo := 0.01) (by norm_num) (le_refl _)).period,
    (test_search (fo := 0.01) (by norm_num) (le_refl _)).width, (test_search (fo := 0.01) (by norm_num) (le_refl _)).offset,
    (test_search (fo := 0.01) (by norm_num) (le_refl _)).nominal, (test_search (fo := 0.01) (by norm_num) (le_refl _)).room,
    (test_search (fo := 0.01) (by norm_num) (le_refl _)).step, (test_search (fo := 0.01) (by norm_num) (le_refl _)).turn⟩

/-- The targets of an exploration of a small maze. -/
example : ∃ ts, Gives huntStepper (List.map huntSample.generate [(⟨0, 0, .north⟩, .init), (⟨0, 1, .north⟩, .front), (⟨0, 3, .north⟩, .final)]) ts [] ∧
    Hunt huntSample 4 (posBlocked (walled twoWalls)) ⟨0, 0, .north⟩ [(⟨0, 0, .north⟩, .init), (⟨0, 1, .north⟩, .front), (⟨0, 3, .north⟩, .final)]
      ⟨0, 4, .north⟩ ts ∧ Steps (searchStep (huntSettings huntSample)) (searchGain (huntSettings huntSample)) ts :=
  C99_explored hunt_sample (small_setting twoWalls) twoWalls_run

/-- A main loop and an interrupt that take turns fulfil the conditions of C96. -/
theorem search_fair {S T : Type} [Inhabited T] {step : S → Option (T × S)} {emer : T → S} {s : S} {answers : List (Answer S)} :
    (∀ n, ∃ m, n ≤ m ∧ alternate m = .main) ∧ (∀ n, ∃ m, n ≤ m ∧ alternate m = .tick ∧
      ∀ xs q, after (searching step emer) alternate (Searching.start s answers) m = .ok (xs, q) → q.place.held = false) := by
  refine ⟨fun n => ⟨2 * n + 1, by omega, by simp [alternate]⟩, fun n => ?_⟩
  obtain ⟨⟨xs, q⟩, h1⟩ : ∃ r, after (searching step emer) alternate (Searching.start s answers) (2 * n) = .ok r := C96_no_panic _
  cases hh : q.place.held with
  | false =>
    refine ⟨2 * n, by omega, by simp [alternate], fun xs' q' h => ?_⟩
    rw [h1] at h
    cases h
    exact hh
  | true =>
    refine ⟨2 * n + 2, by omega, by simp [alternate], fun xs' q' h => ?_⟩
    have e0 : alternate (2 * n) = .tick := by simp [alternate]
    have e1 : alternate (2 * n + 1) = .main := by simp [alternate]
    rw [show 2 * n + 2 = 2 * n + 1 + 1 from rfl, Proof.OldT.after_succ, Proof.OldT.after_succ, h1, e0, e1] at h
    simp only [bind, Except.bind, pure, Except.pure, Traject.Proc.event] at h
    cases ht : q.tick (searching step emer) with
    | error a => rw [ht] at h; cases h
    | ok r =>
      rw [ht] at h
      dsimp only at h
      have hr : r.2.place.held = true := by
        have : r.2.place = q.place := by
          simp only [Traject.Proc.tick, searching, bind, Except.bind, pure, Except.pure] at ht
          cases ht
          rfl
        rw [this, hh]
      cases hmn : r.2.main (searching step emer) with
      | error a => rw [hmn] at h; cases h
      | ok r2 =>
        rw [hmn] at h
        cases h
        exact main_releases hmn hr

/-- With replies as in that exploration, the robot gets the targets of all commands. -/
example : ∃ i xs q j e, after (searching huntStepper huntSample.emergency) alternate
    (Searching.start (huntSample.generate (⟨0, 0, .north⟩, .init)) (List.map huntSample.answer [.waiting, .command ⟨0, 1, .north⟩ .front, .command ⟨0, 3, .north⟩ .final])) i =
      .ok (xs, q) ∧ q.place = .done ∧ History huntStepper huntSample.emergency default
        (List.map huntSample.generate [(⟨0, 0, .north⟩, .init), (⟨0, 1, .north⟩, .front), (⟨0, 3, .north⟩, .final)]) xs j e := by
  obtain ⟨h1, h2⟩ := C88_tour (small_setting twoWalls) twoWalls_run
  exact C99_completes hunt_sample (small_setting twoWalls).start (n := ⟨0, 0, .north⟩) (k := .init)
    (rs := [.waiting, .command ⟨0, 1, .north⟩ .front, .command ⟨0, 3, .north⟩ .final]) h1 h2 (by simp)
    (search_fair (step := huntStepper) (emer := huntSample.emergency) (s := huntSample.generate (⟨0, 0, .north⟩, .init)) (answers := [])).1 search_fair.2

/-- At any time of it, what the robot has got is as in `C99_any_time`. -/
example (n : Nat) : ∃ xs p, ∃ ts : List Target, after (searching huntStepper huntSample.emergency) alternate
    (Searching.start (huntSample.generate (⟨0, 0, .north⟩, .init)) (List.map huntSample.answer [.waiting, .command ⟨0, 1, .north⟩ .front, .command ⟨0, 3, .north⟩ .final])) n =
      .ok (xs, p) ∧ (∃ i e, History huntStepper huntSample.emergency default p.accepted xs i e) ∧ ∀ j x, Item huntStepper p.accepted j x → ts[j]? = some x := by
  obtain ⟨ts, h1, -⟩ := C99_explored hunt_sample (small_setting twoWalls) twoWalls_run
  obtain ⟨⟨xs, p⟩, h⟩ := C96_no_panic (emer := huntSample.emergency) (step := huntStepper) (s := huntSample.generate (⟨0, 0, .north⟩, .init))
    (answers := List.map huntSample.answer [.waiting, .command ⟨0, 1, .north⟩ .front, .command ⟨0, 3, .north⟩ .final]) ((List.range n).map alternate)
  obtain ⟨-, h2, h3⟩ := C99_any_time (rs := [.waiting, .command ⟨0, 1, .north⟩ .front, .command ⟨0, 3, .north⟩ .final]) h1 h
  exact ⟨xs, p, ts, h, h2, h3⟩

/-- A command to turn back: the mouse comes to rest, turns, and drives off. -/
example (q : Detect.Pose) : ∃ q' l, Outputs huntStepper (huntSample.at q .back) l none ∧ HuntLeg huntSample q .back q' l := by
  obtain ⟨l, h1, h2, -⟩ := at_ok hunt_sample q .back
  exact ⟨_, l, h1, h2⟩

/-- At rest at the origin, an emergency starts with 0.3 m/s. -/
example : ∃ l t', Outputs huntStepper (huntSample.emergency default) l none ∧ l.head? = some t' ∧ body t' = (0.3, 0) := by
  obtain ⟨l, h1, -, t', h2, -, h3⟩ := C99_emergency hunt_sample default
  exact ⟨l, t', h1, h2, h3⟩

end Verif.Props
