import Verif.Proof.OldMemory
import Verif.Proof.OldDisplay
import Verif.Props.OldCommander
/-!
# C89: the former wall memory
-/
namespace Verif.Props
open Verif Verif.Run Verif.Spec Verif.Old Verif.Old.Search Verif.Old.Manager Verif.Proof Verif.Proof.OldM Verif.Props.Old

variable {W : Nat} {A : Arith} {t p : F} {m m' : Manager} {w : Wall} {real : Wall → Bool}

/-- **C89, places**: the walls of the maze have different places in the memory, and fill its first `2 W W` ones. -/
theorem C89_index (hW : Supported W) : (∀ w, InMaze W w → w.index W < 2 * (W * W) ∧ w.index W < WALL_MAX) ∧
    (∀ w v, InMaze W w → InMaze W v → w.index W = v.index W → w = v) ∧ ∀ i < 2 * (W * W), ∃ w, InMaze W w ∧ w.index W = i :=
  ⟨fun _ hw => ⟨index_lt hW hw, index_max hW hw⟩, fun _ _ hw hv h => index_inj hW hw hv h, fun _ hi => index_surj hW hi⟩

/-- **C89, beginning**: a new memory knows the border, the wall right of the start, and that there is none ahead of it; all other
walls have the probability 1/2. -/
theorem C89_new (hW : Supported W) (t : F) : ∃ m, new W t = .ok m ∧ m.threshold = t ∧ Recalls W m (atFirst W) := by
  obtain ⟨m, h1, h2, h3⟩ := new_eq hW t
  exact ⟨m, h1, h2, (recalls_iff hW).mpr h3⟩

/-- **C89, updates**: an attempt to read or to update a wall fails exactly if its mutex is held, whatever other mutexes are; it never
panics, and the update changes this wall only. -/
theorem C89_update (hW : Supported W) {f : Wall → F} (hm : Recalls W m f) (hw : InMaze W w) {ws : List Wall} (hs : ∀ v ∈ ws, InMaze W v) (p : F) :
    (w ∈ ws → tryProbability W (held W ws) m w = .ok none ∧ tryUpdate W (held W ws) m w p = .ok none) ∧
    (w ∉ ws → tryProbability W (held W ws) m w = .ok (some (f w)) ∧
      ∃ m', tryUpdate W (held W ws) m w p = .ok (some m') ∧ m'.threshold = m.threshold ∧ Recalls W m' (changed f w p)) := by
  have hi := held_iff hW hw hs
  rw [try_eq hW hw, update_eq hW hw]
  constructor
  · intro h
    rw [if_pos (hi.mpr h), if_pos (hi.mpr h)]
    exact ⟨rfl, rfl⟩
  · intro h
    have hf : ¬ held W ws (w.index W) = true := fun e => h (hi.mp e)
    rw [if_neg hf, if_neg hf]
    refine ⟨by rw [(recalls_iff hW).mp hm w hw], _, rfl, rfl, (recalls_iff hW).mpr fun v hv => ?_⟩
    rw [val_withVal hW hw hv, (recalls_iff hW).mp hm v hv]
    rfl

/-- **C89, history**: after any attempts to update walls, with any mutexes held at each of them, a wall has the probability of the
last successful update of it. -/
theorem C89_history (hW : Supported W) {f : Wall → F} (hm : Recalls W m f) {l : List (Wall × F)} (h : Updates W m l m') :
    m'.threshold = m.threshold ∧ Recalls W m' (history f l) := by
  induction h with
  | nil => exact ⟨rfl, hm⟩
  | done m' m'' l ws w p _ hw hu ih =>
    obtain ⟨ih1, ih2⟩ := ih
    rw [update_eq hW hw] at hu
    split at hu
    · cases hu
    · cases hu
      refine ⟨ih1, (recalls_iff hW).mpr fun v hv => ?_⟩
      rw [val_withVal hW hw hv, (recalls_iff hW).mp ih2 v hv]
      rfl
  | failed m' l ws w p _ _ _ ih => exact ih

/-- **C89, waiting**: the functions that wait for a mutex return what the first successful attempt returns; an attempt that fails
has no effect, and if all of them fail they do not return. -/
theorem C89_spin {α : Type} (attempt : Nat → R (Option α)) (n : Nat) (hn : ∀ i < n, attempt i = .ok none) :
    (∀ a, attempt n = .ok (some a) → spin attempt (n + 1) 0 = .ok a) ∧ spin attempt n 0 = .error .diverge := by
  have key : ∀ k i, i + k = n → (∀ a, attempt n = .ok (some a) → spin attempt (k + 1) i = .ok a) ∧ spin attempt k i = .error .diverge := by
    intro k
    induction k with
    | zero =>
      intro i hi
      rw [Nat.add_zero] at hi
      subst hi
      refine ⟨fun a ha => ?_, rfl⟩
      unfold spin
      rw [ha]
      rfl
    | succ k ih =>
      intro i hi
      obtain ⟨h1, h2⟩ := ih (i + 1) (by omega)
      constructor
      · intro a ha
        unfold spin
        rw [hn i (by omega)]
        exact h1 a ha
      · unfold spin
        rw [hn i (by omega)]
        exact h2
  exact key n 0 (by omega)

/-- **C89, states**: with a threshold between 0 and 1/2 a wall counts as checked and missing below it, as checked and existing above
the opposite one, and as not checked between them. -/
theorem C89_state (hW : Supported W) (hA : Rounding A) (ht : GoodThreshold A m.threshold) {f : Wall → F} (hm : Recalls W m f) (hw : InMaze W w)
    {ws : List Wall} (hs : ∀ v ∈ ws, InMaze W v) (hf : w ∉ ws) :
    ∃ lo hi : ℝ, m.threshold = .fin lo ∧ A.sub (.fin 1) (.fin lo) = .fin hi ∧ 0 < lo ∧ lo ≤ hi ∧ hi < 1 ∧
      ((f w).lt (.fin lo) → tryChecked A W (held W ws) m w = .ok (some true) ∧ tryExists A W (held W ws) m w = .ok (some false)) ∧
      ((F.fin hi).lt (f w) → tryChecked A W (held W ws) m w = .ok (some true) ∧ tryExists A W (held W ws) m w = .ok (some true)) ∧
      (¬ (f w).lt (.fin lo) → ¬ (F.fin hi).lt (f w) →
        tryChecked A W (held W ws) m w = .ok (some false) ∧ tryExists A W (held W ws) m w = .ok (some false)) := by
  classical
  obtain ⟨r, q, e1, h0, h1, e2, h2, h3⟩ := opposite hA ht
  have hi : ¬ held W ws (w.index W) = true := fun e => hf ((held_iff hW hw hs).mp e)
  have hr := e1 ▸ e2
  have hv := (recalls_iff hW).mp hm w hw
  have c1 : tryChecked A W (held W ws) m w = .ok (some (decide ((f w).lt (.fin r) ∨ (F.fin q).lt (f w)))) := by
    unfold tryChecked
    rw [try_eq hW hw, if_neg hi, hv, e2, e1]
    rfl
  have c2 : tryExists A W (held W ws) m w = .ok (some (decide ((F.fin q).lt (f w)))) := by
    unfold tryExists
    rw [try_eq hW hw, if_neg hi, hv, e2]
    rfl
  refine ⟨r, q, e1, hr, h0, by linarith, h3, ?_, ?_, ?_⟩
  · intro h
    rw [c1, c2, decide_eq_true (Or.inl h), decide_eq_false]
    · exact ⟨rfl, rfl⟩
    · cases hp : f w with
      | fin v =>
        rw [hp] at h
        have h4 : v < r := h
        exact fun h' => by
          have : q < v := h'
          linarith
      | _ => rw [hp] at h; first | exact fun h' => h' | exact absurd h id
  · intro h
    rw [c1, c2, decide_eq_true (Or.inr h), decide_eq_true h]
    exact ⟨rfl, rfl⟩
  · intro h h'
    rw [c1, c2, decide_eq_false (fun e => e.elim h h'), decide_eq_false h']
    exact ⟨rfl, rfl⟩

/-- **C89, locked walls**: the state of a wall whose mutex is held is not returned. -/
theorem C89_locked (hW : Supported W) (hw : InMaze W w) {ws : List Wall} (hs : ∀ v ∈ ws, InMaze W v) (hf : w ∈ ws) :
    tryChecked A W (held W ws) m w = .ok none ∧ tryExists A W (held W ws) m w = .ok none := by
  have hi := (held_iff hW hw hs).mpr hf
  unfold tryChecked tryExists
  rw [try_eq hW hw, if_pos hi]
  exact ⟨rfl, rfl⟩

/-- **C89, texts**: a text whose lines are not too long is read: each wall exists or not according to the character at its place,
and is unknown if there is none. A text with a line that is too long makes the constructor panic. -/
theorem C89_text (hW : Supported W) (t : F) {s : List Char} {L : List (List Char)} (hs : SplitLines s L) :
    (FitsWidth W L → ∃ m, withStr W t s = .ok m ∧ m.threshold = t ∧ Recalls W m (fromText W L)) ∧
    (¬ FitsWidth W L → withStr W t s = .error .unreachable) := by
  refine ⟨fun hf => ?_, withStr_long hW t hs⟩
  obtain ⟨m, h1, h2, h3⟩ := withStr_eq hW t hs hf
  exact ⟨m, h1, h2, (recalls_iff hW).mpr h3⟩

/-- **C89, drawings**: the drawing of a maze gives the memory that knows every wall of this maze. -/
theorem C89_drawing (hW : Supported W) (t : F) (real : Wall → Bool) : ∃ m, withStr W t (drawing W (posBlocked real)) = .ok m ∧ m.threshold = t ∧
    Recalls W m fun w => if real w = true then .fin 1 else .fin 0 := by
  obtain ⟨m, h1, h2, h3⟩ := withStr_eq hW t (WallsP.drawing_split W (posBlocked real)) (drawing_fits W _)
  exact ⟨m, h1, h2, (recalls_iff hW).mpr fun w hw => (h3 w hw).trans (fromText_drawing hw)⟩

/-- **C89, display**: the display shows the probability of every wall at its place. -/
theorem C89_display (hW : Supported W) {f : Wall → F} (hm : Recalls W m f) {show_ : F → List Char} (h3 : ∀ p, (show_ p).length = 3)
    (hs : ∀ p, '\n' ∉ show_ p ∧ '\r' ∉ show_ p) :
    ∃ s L, display show_ W m = .ok s ∧ SplitLines s L ∧ L.length = 4 * W + 2 ∧
      ∀ w, InMaze W w → ∃ pre post, L[(shownAt W w).1]? = some (pre ++ show_ (f w) ++ post) ∧ pre.length = (shownAt W w).2 := by
  refine ⟨_, _, display_eq hW, display_split hs, ?_, fun w hw => ?_⟩
  · rw [List.length_cons, List.length_append, rowLines_length]
    rfl
  · rw [← (recalls_iff hW).mp hm w hw]
    obtain ⟨x, y, b⟩ := w
    have hx : x < W := hw.1
    have hy : y < W := hw.2
    obtain ⟨g1, g2⟩ := rowLines_get (show_ := show_) (W := W) (m := m) W y hy
    cases b
    · obtain ⟨pre, post, e1, e2⟩ := rightLine_at (m := m) (y := y) h3 hx
      refine ⟨pre, post, ?_, e2⟩
      show ([] :: (rowLines show_ W m W ++ [lowLine W]))[1 + 4 * (W - 1 - y) + 2]? = _
      rw [show 1 + 4 * (W - 1 - y) + 2 = (4 * (W - 1 - y) + 2) + 1 by omega, List.getElem?_cons_succ, List.getElem?_append_left (by rw [rowLines_length]; omega), g2, e1]
    · obtain ⟨pre, post, e1, e2⟩ := topLine_at (m := m) (y := y) h3 hx
      refine ⟨pre, post, ?_, e2⟩
      show ([] :: (rowLines show_ W m W ++ [lowLine W]))[1 + 4 * (W - 1 - y)]? = _
      rw [show 1 + 4 * (W - 1 - y) = (4 * (W - 1 - y)) + 1 by omega, List.getElem?_cons_succ, List.getElem?_append_left (by rw [rowLines_length]; omega), g1, e1]

/-- **C89, sessions**: in a maze that follows the rules, what a new memory says about it is true from the beginning; as long as
the updates are truthful it stays so, and a search with this memory is one of those C88 is about: its commands lead through openings
of the maze. -/
theorem C89_session {P : Config} {cost : Pattern → Nat} {goal0 : Node} {rest : List Node} (S : Setting P cost real goal0 rest)
    (h0 : P.start = ⟨0, 0, .north⟩) (hA : Rounding A) (ht : GoodThreshold A t) (hr : Regular P.W real) {s : Commander} {rs : List Reply}
    (h : Session P A t real m s rs) :
    (∀ ws, TrueBelief P.W real (belief A P.W (held P.W ws) m)) ∧
    (∃ b, Explores P real b s rs ∧ ∀ ws, Learns b (belief A P.W (held P.W ws) m)) ∧
    CommandTour P.W (posBlocked real) P.start (commandsOf rs) s.current ∧ InOrder P.start (commandsOf rs) := by
  obtain ⟨-, h2, b, h3, h4⟩ := session_inv S.width h0 hA ht hr h
  exact ⟨fun ws => right_belief S.width h2 _, ⟨b, h3, fun ws v hv => belief_learns v (h4 v hv)⟩, C88_tour S h3⟩

/-! ## Cases -/

example : InMaze 4 ⟨2, 3, true⟩ ∧ (⟨2, 3, true⟩ : Wall).index 4 = 23 := by decide

/-- The threshold 1/10 in exact arithmetic. -/
example : GoodThreshold exact (.fin (1 / 10)) where
  prob := ⟨1 / 10, rfl, by norm_num, by norm_num, rfl⟩
  pos := by show (0 : ℝ) < 1 / 10; norm_num
  opp := by show (1 : ℝ) + -(1 / 10) < 1; norm_num
  half := by show (1 / 10 : ℝ) ≤ 1 / 2; norm_num

/-- A maze of 4 x 4 cells that follows the rules. -/
example : Regular 4 (walled twoWalls) := ⟨walled_closed _, by decide, by decide⟩

/-- A search that starts with a new memory, checks a wall and leaves the start while another wall is locked. -/
example : ∃ m s rs, Session smallConfig exact (.fin (1 / 10)) (walled twoWalls) m s rs ∧ rs ≠ [] := by
  have hW : Supported smallConfig.W := ⟨2, by decide, rfl⟩
  have hg : GoodThreshold exact (.fin (1 / 10)) := ⟨⟨1 / 10, rfl, by norm_num, by norm_num, rfl⟩, by show (0 : ℝ) < 1 / 10; norm_num,
    by show (1 : ℝ) + -(1 / 10) < 1; norm_num, by show (1 / 10 : ℝ) ≤ 1 / 2; norm_num⟩
  have hr : Regular smallConfig.W (walled twoWalls) := ⟨walled_closed _, by decide, by decide⟩
  obtain ⟨m, h1, h2, h3⟩ := C89_new hW (.fin (1 / 10))
  obtain ⟨-, h4⟩ := (C89_update hW h3 (w := ⟨0, 1, false⟩) (by decide) (ws := []) (by simp) (.fin 1))
  obtain ⟨-, m', h5, h6, -⟩ := h4 (by simp)
  have s1 := Session.sense (P := smallConfig) (A := exact) (t := .fin (1 / 10)) (real := walled twoWalls) m m' _ [] [] ⟨0, 1, false⟩ (.fin 1)
    (.start m h1) (by decide) ⟨fun h => absurd (show (1 : ℝ) < 1 / 10 from h) (by norm_num), fun _ => by decide, fun _ => Or.inr (by
      show (1 : ℝ) + -(1 / 10) < 1; norm_num)⟩ h5
  have hb := C89_session (small_setting twoWalls) rfl rounding_exact hg hr s1
  obtain ⟨b, hb1, -⟩ := hb.2.1
  have ho : OpenAhead smallConfig.W (belief exact smallConfig.W (held smallConfig.W [⟨2, 2, true⟩]) m') smallConfig.start := by
    obtain ⟨c, k1, k2, k3, k4⟩ := new_ahead (A := exact) hW rounding_exact hg h1 (held smallConfig.W [])
    obtain ⟨-, -, k5⟩ := sense_right (A := exact) hW (w := ⟨0, 1, false⟩) (by decide) h5 (new_right hW rounding_exact hg hr h1).2
      ⟨fun h => absurd (show (1 : ℝ) < 1 / 10 from by rw [h2] at h; exact h) (by norm_num), fun _ => by decide, fun _ => Or.inr (by
        rw [h2]; show (1 : ℝ) + -(1 / 10) < 1; norm_num)⟩
    refine ⟨c, k1, k2, k5 _ k3, ?_⟩
    have t1 := (right_belief hW (new_right hW rounding_exact hg hr h1).2 (held smallConfig.W [])).known _ k3
    have t2 := (hb.1 [⟨2, 2, true⟩]).known _ (k5 _ k3)
    rw [t2, ← t1]
    exact k4
  obtain ⟨n, hn, -⟩ := Verif.Proof.OldS.init_step hW (small_setting twoWalls).start ho
  exact ⟨m', _, _, Session.call m' _ _ _ [] [⟨2, 2, true⟩] s1 (by
    simp only [nextCommand, Commander.new, hn, bind, Except.bind, pure, Except.pure]; rfl), by simp⟩

/-- **C89, finding**: in a maze of a single cell the new memory takes the border ahead of the start for open. -/
theorem C89_single (t : F) : ∃ m, new 1 t = .ok m ∧ tryProbability 1 (held 1 []) m ⟨0, 0, true⟩ = .ok (some (.fin 0)) := by
  obtain ⟨m, h1, -, h3⟩ := C89_new ⟨0, by decide, rfl⟩ t
  exact ⟨m, h1, h3 ⟨0, 0, true⟩ (by decide)⟩

/-- **C89, finding**: with the threshold 0 no wall ever counts as checked, not even the border. -/
theorem C89_zero (hW : Supported W) (hA : Rounding A) (ht : m.threshold = .fin 0) {f : Wall → F} (hm : Recalls W m f) (hw : InMaze W w)
    (hp : IsProb A (f w)) : tryChecked A W (held W []) m w = .ok (some false) ∧ tryExists A W (held W []) m w = .ok (some false) := by
  classical
  obtain ⟨r, e, h0, h1, -⟩ := hp
  have hv := (recalls_iff hW).mp hm w hw
  have hr : reverse A (.fin 0) = .fin 1 := by
    show A.rnd (1 + -0) = .fin 1
    rw [neg_zero, add_zero, hA.one]
  have n1 : ¬ (F.fin r).lt (.fin 0) := fun h => by
    have : r < 0 := h
    linarith
  have n2 : ¬ (F.fin 1).lt (.fin r) := fun h => by
    have : 1 < r := h
    linarith
  unfold tryChecked tryExists
  rw [try_eq hW hw, held_nil, hv, ht, hr, e]
  show (Except.ok (some (decide _)) : R (Option Bool)) = _ ∧ (Except.ok (some (decide _)) : R (Option Bool)) = _
  rw [decide_eq_false (fun h => h.elim n1 n2), decide_eq_false n2]
  exact ⟨rfl, rfl⟩

/-- The drawing of the documentation, read as a maze of 2 x 2 cells. -/
example : ∃ L, SplitLines "+---+---+\n|   |   |\n+---+   +\n|       |\n+---+---+".toList L ∧ FitsWidth 2 L ∧
    fromText 2 L ⟨0, 0, true⟩ = .fin 1 ∧ fromText 2 L ⟨0, 0, false⟩ = .fin 0 ∧ fromText 2 L ⟨0, 1, false⟩ = .fin 1 := by
  refine ⟨["+---+---+".toList, "|   |   |".toList, "+---+   +".toList, "|       |".toList, "+---+---+".toList], ?_, ?_, ?_, ?_, ?_⟩
  · refine .lf (l := "+---+---+".toList) (by decide) (by decide) (.lf (l := "|   |   |".toList) (by decide) (by decide)
      (.lf (l := "+---+   +".toList) (by decide) (by decide) (.lf (l := "|       |".toList) (by decide) (by decide)
        (.last (l := "+---+---+".toList) (by decide) (by decide)))))
  · intro i l hi h
    interval_cases i <;> (cases h; decide)
  all_goals rfl

/-- A line with one more character than its fields makes the constructor panic. -/
example (t : F) : withStr 2 t "+---+---+ \n".toList = .error .unreachable := by
  refine (C89_text (W := 2) ⟨1, by decide, rfl⟩ t (L := ["+---+---+ ".toList]) ?_).2 ?_
  · exact .lf (l := "+---+---+ ".toList) (by decide) (by decide) .nil
  · intro h
    have := h 0 _ (by decide) rfl
    revert this
    decide

end Verif.Props
