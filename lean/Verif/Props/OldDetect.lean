import Verif.Proof.OldPatrol
import Verif.Props.OldConvert
import Verif.Props.OldManager
/-!
# C91: the former wall detector
-/
namespace Verif.Props
open Verif Verif.Spec Verif.Proof Verif.Old Verif.Old.Manager Verif.Old.Detect Verif.Old.Search Verif.Proof.OldE Verif.Proof.OldM
open Verif.Detect (Pose)
open Verif.Convert (Converter)

variable {W : Nat} {conv : FPose → R (Except ConvError Info)} {see : Pose → Option Seen} {d : Detector} {g : Guess}

/-- **C91.** A call with up to six sensors does not panic. It leaves the memory, the waiting sensors and the position as the
specification says, which reads one sensor after the other: Bayes' rule for walls that are not settled, the weighted mean of two
estimates of the position for walls that certainly exist, nothing for those that do not. All probabilities stay between 0 and 1. -/
theorem C91_call (hW : Supported W) (hs : Sees W conv see) (hd : Remembers W d g) (hc : Chances W g) {ls : List Look} (hn : ls.length ≤ 6)
    (hl : ∀ l ∈ ls, l.Fair W) (p : Pose) (sx sy : ℝ) :
    ∃ d' g', g' = (g.begin sx sy).afterAll see p 0 ls ∧
      detectAndUpdate exact conv W d (ls.map (Look.input W)) (stateAt p sx sy) =
        .ok (d', ⟨.fin (p.x + g'.dx), .fin (p.y + g'.dy), .fin (Real.sqrt g'.var), .fin (Real.sqrt g'.var), p.theta⟩) ∧
      Remembers W d' g' ∧ Chances W g' ∧ d'.memory.threshold = d.memory.threshold := by
  obtain ⟨d', h1, h2, h3⟩ := call_eq hW hs hd hc hn hl p sx sy
  exact ⟨d', _, rfl, h1, h2, afterAll_chances ls 0 _ hc, h3⟩

/-- **C91, settled walls** keep their probabilities. -/
theorem C91_settled (here : Pose) (ls : List Look) (i : Nat) (g : Guess) (w : Wall) (h : Nil (g.prob w) ∨ Sure (g.prob w)) :
    (g.afterAll see here i ls).prob w = g.prob w := by
  induction ls generalizing i g with
  | nil => rfl
  | cons l ls ih =>
    show (Guess.afterAll see here (i + 1) ls (g.after see here i l)).prob w = _
    have hw : (g.after see here i l).prob w = g.prob w := by
      rcases after_prob (see := see) here i l g with he | ⟨e, z, s, -, h1, h2, he⟩
      · rw [he]
      · rw [he]
        dsimp only
        by_cases hwe : w = e.wall
        · subst hwe
          exact absurd h (by tauto)
        · rw [if_neg hwe]
    rw [ih (i + 1) _ (by rw [hw]; exact h), hw]

/-- **C91, uncertainty**: after a call both standard deviations are equal, and not greater than the mean of the former ones. -/
theorem C91_narrows (hW : Supported W) (hs : Sees W conv see) (hd : Remembers W d g) (hc : Chances W g) {ls : List Look} (hn : ls.length ≤ 6)
    (hl : ∀ l ∈ ls, l.Fair W) (p : Pose) (sx sy : ℝ) :
    ∃ d' x y σ, detectAndUpdate exact conv W d (ls.map (Look.input W)) (stateAt p sx sy) = .ok (d', ⟨.fin x, .fin y, .fin σ, .fin σ, p.theta⟩) ∧
      0 ≤ σ ∧ σ ≤ |(sx + sy) / 2| := by
  obtain ⟨d', g', hg', h1, -⟩ := C91_call hW hs hd hc hn hl p sx sy
  refine ⟨d', _, _, _, h1, Real.sqrt_nonneg _, ?_⟩
  have key : ∀ (ls : List Look) (i : Nat) (g : Guess), (∀ l ∈ ls, l.Fair W) → 0 ≤ g.var → (g.afterAll see p i ls).var ≤ g.var := by
    intro ls
    induction ls with
    | nil => intro i g _ _; exact le_rfl
    | cons l ls ih =>
      intro i g hl hv
      have hf := hl l (List.mem_cons_self ..)
      refine le_trans (ih (i + 1) (g.after see p i l) (fun l' hl' => hl l' (List.mem_cons_of_mem _ hl')) (after_var hf hv)) ?_
      unfold Guess.after
      dsimp only
      cases ht : g.target see p i l with
      | none => exact le_rfl
      | some r =>
        obtain ⟨e, z, s⟩ := r
        dsimp only
        split_ifs
        · exact le_rfl
        · show g.var * (1 - g.var / (g.var + s ^ 2)) ≤ g.var
          have : 0 ≤ g.var / (g.var + s ^ 2) := by positivity
          nlinarith
        · exact le_rfl
        · exact le_rfl
  rw [hg', ← Real.sqrt_sq_eq_abs]
  exact Real.sqrt_le_sqrt (key ls 0 _ hl (sq_nonneg _))

section One
variable {p : Pose} {sx sy : ℝ} {l : Look} {e : Seen} {z s : ℝ}

/-- **C91, position**: a single sensor that measures the distance from a wall that certainly exists moves the position along its ray,
to the place that fits best both the former position and the measured distance; the inverses of the variances are added. The memory
stays as it was. -/
theorem C91_correction (hW : Supported W) (hs : Sees W conv see) (hd : Remembers W d g) (hc : Chances W g) (hl : l.Fair W) (hv : sx + sy ≠ 0)
    (hr : l.reading = some (z, s)) (he : see (aimed ((g.past 0).getD p) l.mount 0 0) = some e) (hb : e.wall ∉ l.busyRead)
    (hw : Sure (g.prob e.wall)) :
    ∃ d' δ v, detectAndUpdate exact conv W d [l.input W] (stateAt p sx sy) =
        .ok (d', ⟨.fin (p.x + δ * Real.cos (((g.past 0).getD p).theta + l.mount.theta)),
          .fin (p.y + δ * Real.sin (((g.past 0).getD p).theta + l.mount.theta)), .fin (Real.sqrt v), .fin (Real.sqrt v), p.theta⟩) ∧
      (∀ ε, ε ≠ δ → δ ^ 2 / ((sx + sy) / 2) ^ 2 + (e.near - δ - z) ^ 2 / s ^ 2 < ε ^ 2 / ((sx + sy) / 2) ^ 2 + (e.near - ε - z) ^ 2 / s ^ 2) ∧
      0 < v ∧ 1 / v = 1 / ((sx + sy) / 2) ^ 2 + 1 / s ^ 2 ∧
      Recalls W d'.memory fun w => .fin (g.prob w) := by
  obtain ⟨d', g', hg', h1, h2, -⟩ := C91_call hW hs hd hc (ls := [l]) (by simp) (by simpa using hl) p sx sy
  have hpos := hl.positive z s hr
  have htar : (g.begin sx sy).target see p 0 l = some (e, z, s) := by
    unfold Guess.target
    rw [hr, show Guess.from (g.begin sx sy) p 0 l = aimed ((g.past 0).getD p) l.mount 0 0 from rfl, he]
    dsimp only
    rw [if_neg hb]
  have hnil : ¬ Nil (g.prob e.wall) := by
    unfold Sure at hw
    unfold Nil
    have : (1 : ℝ) / 2 ^ 23 < 1 / 2 := by norm_num
    linarith
  set V := ((sx + sy) / 2) ^ 2 with hV
  have hV0 : 0 < V := by
    have : (sx + sy) / 2 ≠ 0 := div_ne_zero hv two_ne_zero
    positivity
  have hg : g' = { g.begin sx sy with
      past := fun j => if j = 0 then waits (g.past 0) p l.reading.isSome else g.past j
      dx := 0 + V / (V + s ^ 2) * (e.near - z) * Real.cos (((g.past 0).getD p).theta + l.mount.theta)
      dy := 0 + V / (V + s ^ 2) * (e.near - z) * Real.sin (((g.past 0).getD p).theta + l.mount.theta)
      var := V * (1 - V / (V + s ^ 2)) } := by
    rw [hg']
    show Guess.after see p 0 l (g.begin sx sy) = _
    unfold Guess.after
    rw [htar]
    dsimp only
    rw [if_neg (show ¬ Nil ((g.begin sx sy).prob e.wall) from hnil), if_pos (show Sure ((g.begin sx sy).prob e.wall) from hw)]
    rfl
  have hsum : 0 < V + s ^ 2 := by positivity
  refine ⟨d', V / (V + s ^ 2) * (e.near - z), V * (1 - V / (V + s ^ 2)), ?_, ?_, ?_, ?_, ?_⟩
  · rw [show [l.input W] = [l].map (Look.input W) from rfl, h1, hg]
    simp only [zero_add]
  · intro ε hε
    rw [← sub_pos]
    have : ε ^ 2 / V + (e.near - ε - z) ^ 2 / s ^ 2 - ((V / (V + s ^ 2) * (e.near - z)) ^ 2 / V + (e.near - V / (V + s ^ 2) * (e.near - z) - z) ^ 2 / s ^ 2) =
        (ε - V / (V + s ^ 2) * (e.near - z)) ^ 2 * (1 / V + 1 / s ^ 2) := by
      field_simp
      ring
    rw [this]
    have h3 : ε - V / (V + s ^ 2) * (e.near - z) ≠ 0 := sub_ne_zero.mpr hε
    positivity
  · rw [shrink hV0.le hpos]
    positivity
  · rw [shrink hV0.le hpos]
    field_simp
    ring
  · have := h2.memory
    rw [hg] at this
    exact this

/-- **C91, walls**: a single sensor that measures the distance from a wall that is not settled multiplies the odds of this wall by the
ratio of the likelihoods, so that its probability grows if the measured distance is nearer to the one expected with the wall, and
falls if it is nearer to the one expected without it. Other walls and the position stay as they were. -/
theorem C91_measure (hW : Supported W) (hs : Sees W conv see) (hd : Remembers W d g) (hc : Chances W g) (hl : l.Fair W)
    (hr : l.reading = some (z, s)) (he : see (aimed ((g.past 0).getD p) l.mount 0 0) = some e) (hb : e.wall ∉ l.busyRead)
    (hb' : e.wall ∉ l.busyWrite) (hn : ¬ Nil (g.prob e.wall)) (hw : ¬ Sure (g.prob e.wall)) :
    ∃ d' q, detectAndUpdate exact conv W d [l.input W] (stateAt p sx sy) = .ok (d', stateAt p |(sx + sy) / 2| |(sx + sy) / 2|) ∧
      Recalls W d'.memory (fun w => .fin (if w = e.wall then q else g.prob w)) ∧ 0 < q ∧ q < 1 ∧
      odds q = odds (g.prob e.wall) * (likelihood e.near z s / likelihood e.far z s) ∧
      odds q = odds (g.prob e.wall) * Real.exp (((z - e.far) ^ 2 - (z - e.near) ^ 2) / (2 * s ^ 2)) ∧
      (g.prob e.wall ≤ q ↔ |z - e.near| ≤ |z - e.far|) ∧ (q ≤ g.prob e.wall ↔ |z - e.far| ≤ |z - e.near|) := by
  obtain ⟨d', g', hg', h1, h2, -⟩ := C91_call hW hs hd hc (ls := [l]) (by simp) (by simpa using hl) p sx sy
  have hpos := hl.positive z s hr
  have htar : (g.begin sx sy).target see p 0 l = some (e, z, s) := by
    unfold Guess.target
    rw [hr, show Guess.from (g.begin sx sy) p 0 l = aimed ((g.past 0).getD p) l.mount 0 0 from rfl, he]
    dsimp only
    rw [if_neg hb]
  have hg : g' = { g.begin sx sy with
      past := fun j => if j = 0 then waits (g.past 0) p l.reading.isSome else g.past j
      prob := fun w => if w = e.wall then updated (g.prob w) e z s else g.prob w } := by
    rw [hg']
    show Guess.after see p 0 l (g.begin sx sy) = _
    unfold Guess.after
    rw [htar]
    dsimp only
    rw [if_neg (show ¬ Nil ((g.begin sx sy).prob e.wall) from hn), if_neg (show ¬ Sure ((g.begin sx sy).prob e.wall) from hw), if_neg hb']
    rfl
  have h0 := not_nil hn
  have h3 := not_sure hw
  have hm := updated_mem h0 h3 e z s
  have ho := odds_updated (z := z) h0 h3 e hpos
  refine ⟨d', updated (g.prob e.wall) e z s, ?_, ?_, hm.1, hm.2, ?_, ho, updated_ge h0 h3 e hpos, updated_le h0 h3 e hpos⟩
  · rw [show [l.input W] = [l].map (Look.input W) from rfl, h1, hg]
    unfold stateAt
    simp only [Guess.begin, add_zero, Real.sqrt_sq_eq_abs]
  · have := h2.memory
    rw [hg] at this
    intro w hw
    rw [this w hw]
    dsimp only
    by_cases hwe : w = e.wall
    · rw [if_pos hwe, if_pos hwe, hwe]
    · rw [if_neg hwe, if_neg hwe]
  · rw [ho]
    congr 1
    unfold likelihood
    rw [← Real.exp_sub]
    congr 1
    field_simp
    ring

end One

/-- **C91, waiting sensors**: after any number of calls a detector that was new at first remembers for each sensor the pose at the first
of the calls since its last measurement. -/
theorem C91_past {m : Manager} {calls : List (Pose × ℝ × ℝ × List Look)} {d' : Detector} (h : detections conv W calls (Detector.new m) = .ok d')
    (i : Nat) :
    d'.past i = (waitingSince (calls.reverse.filterMap fun c => (c.2.2.2[i]?).map fun l => (c.1, l.reading.isSome))).map
      fun p => ⟨.fin p.x, .fin p.y, p.theta⟩ := by
  have key : ∀ (calls : List (Pose × ℝ × ℝ × List Look)) (d : Detector) (old : List (Pose × Bool)),
      d.past i = (waitingSince old).map lift → detections conv W calls d = .ok d' →
      d'.past i = (waitingSince ((calls.reverse.filterMap fun c => (c.2.2.2[i]?).map fun l => (c.1, l.reading.isSome)) ++ old)).map lift := by
    intro calls
    induction calls with
    | nil =>
      intro d old hd h
      cases h
      exact hd
    | cons c rest ih =>
      intro d old hd h
      obtain ⟨p, sx, sy, ls⟩ := c
      unfold detections at h
      cases hc : detectAndUpdate exact conv W d (ls.map (Look.input W)) (stateAt p sx sy) with
      | error e => rw [hc] at h; cases h
      | ok r =>
        obtain ⟨d1, s1⟩ := r
        rw [hc] at h
        have h : detections conv W rest d1 = .ok d' := h
        unfold detectAndUpdate at hc
        dsimp only [stateAt] at hc
        cases hloop : Detect.loop exact conv W ⟨.fin p.x, .fin p.y, p.theta⟩ 0 (ls.map (Look.input W)) ⟨d.past, d.memory, .fin 0, .fin 0,
          exact.mul (exact.div (exact.add (.fin sx) (.fin sy)) (.fin 2)) (exact.div (exact.add (.fin sx) (.fin sy)) (.fin 2))⟩ with
        | error e => rw [hloop] at hc; cases hc
        | ok a' =>
          rw [hloop] at hc
          simp only [bind, Except.bind, pure, Except.pure, Except.ok.injEq, Prod.mk.injEq] at hc
          have hp := loop_past _ _ _ _ hloop i
          rw [if_pos (Nat.zero_le _), Nat.sub_zero, List.getElem?_map] at hp
          have hd1 : d1.past i = a'.past i := by rw [← hc.1]
          rw [List.reverse_cons, List.filterMap_append, List.append_assoc]
          refine ih d1 _ ?_ h
          rw [hd1, hp]
          cases hi : ls[i]? with
          | none => simpa [hi] using hd
          | some l =>
            have hread : (l.input W).reading.isSome = l.reading.isSome := by
              unfold Look.input
              cases l.reading <;> rfl
            simp only [Option.map_some, hread, List.filterMap_cons, List.filterMap_nil, List.cons_append, List.nil_append, hi]
            rw [hd]
            cases l.reading.isSome
            · show some _ = some _
              cases waitingSince old <;> rfl
            · rfl
  have := key calls (Detector.new m) [] rfl h
  rw [List.append_nil] at this
  exact this

/-- **C91, any arithmetic**: whatever the converter, the sensors and the state, and however numbers are rounded, a call that returns
leaves only probabilities in the memory. -/
theorem C91_stored {A : Arith} (hW : Supported W) (hA : Rounding A) {inputs : List Input} {st st' : State} {d' : Detector}
    (h : detectAndUpdate A conv W d inputs st = .ok (d', st')) {f : Wall → F} (hm : Recalls W d.memory f) (hf : ∀ w, InMaze W w → IsProb A (f w)) :
    ∃ f', Recalls W d'.memory f' ∧ ∀ w, InMaze W w → IsProb A (f' w) := by
  have hstep : ∀ cur i inp (a a' : Acc), step A conv W cur i inp a = .ok a' → (∀ w, InMaze W w → IsProb A (val W a.memory w)) →
      ∀ w, InMaze W w → IsProb A (val W a'.memory w) := by
    intro cur i inp a a' h hp
    unfold step at h
    cases hg : arrGet SENSORS a.past i with
    | error e => rw [hg] at h; cases h
    | ok q =>
      rw [hg] at h
      simp only [bind, Except.bind] at h
      split at h
      · split at h
        · split at h
          · cases h
          · cases h; exact hp
        · cases h; exact hp
      · split at h
        · cases h
        · split at h
          · cases h
          · split at h
            · cases h
            · split at h
              · cases h; exact hp
              · split at h
                · cases h
                · split at h
                  · cases h; exact hp
                  · split at h
                    · cases h; exact hp
                    · split at h
                      · cases h; exact hp
                      · split at h
                        · cases h
                        · rename_i v hv
                          split at h
                          · cases h
                          · rename_i info _ _ _ _ _ _ _ _ _ r hu
                            split at h
                            · cases h; exact hp
                            · rename_i m
                              cases h
                              have hprob := posterior_prob hA hv
                              unfold tryUpdate arrSet at hu
                              split at hu
                              · simp only [bind, Except.bind, pure, Except.pure, Except.ok.injEq] at hu
                                split at hu
                                · cases hu
                                · simp only [Option.some.injEq] at hu
                                  intro w hw
                                  rw [← hu]
                                  show IsProb A (if w.index W = info.wall.index W then v else _)
                                  split
                                  · exact hprob
                                  · exact hp w hw
                              · cases hu
  have hloop : ∀ cur inps i (a a' : Acc), Detect.loop A conv W cur i inps a = .ok a' → (∀ w, InMaze W w → IsProb A (val W a.memory w)) →
      ∀ w, InMaze W w → IsProb A (val W a'.memory w) := by
    intro cur inps
    induction inps with
    | nil => intro i a a' h hp; cases h; exact hp
    | cons inp rest ih =>
      intro i a a' h hp
      unfold Detect.loop at h
      cases h1 : step A conv W cur i inp a with
      | error e => rw [h1] at h; cases h
      | ok a1 =>
        rw [h1] at h
        exact ih _ _ _ h (hstep _ _ _ _ _ h1 hp)
  unfold detectAndUpdate at h
  dsimp only at h
  cases hl : Detect.loop A conv W ⟨st.x, st.y, st.theta⟩ 0 inputs ⟨d.past, d.memory, .fin 0, .fin 0,
    A.mul (A.div (A.add st.sx st.sy) (.fin 2)) (A.div (A.add st.sx st.sy) (.fin 2))⟩ with
  | error e => rw [hl] at h; cases h
  | ok a' =>
    rw [hl] at h
    simp only [bind, Except.bind, pure, Except.pure, Except.ok.injEq, Prod.mk.injEq] at h
    have hd : d'.memory = a'.memory := by rw [← h.1]
    refine ⟨val W d'.memory, (recalls_iff hW).mpr fun w hw => rfl, ?_⟩
    rw [hd]
    refine hloop _ _ _ _ _ hl fun w hw => ?_
    show IsProb A (val W d.memory w)
    rw [(recalls_iff hW).mp hm w hw]
    exact hf w hw

/-- **C91, searches**: if every measurement is nearer to the distance that is right for the maze, then at all times of a search with the
former detector the memory says nothing wrong about the maze, knows at least what it knew before, and the commands returned so far
are a tour through openings that starts at the start; the next call of the detector does not panic. -/
theorem C91_search {P : Config} {cost : Pattern → Nat} {goal0 : Run.Node} {rest : List Run.Node} {real : Wall → Bool} {t : F}
    (S : Setting P cost real goal0 rest) (h0 : P.start = ⟨0, 0, .north⟩) (ht : GoodThreshold exact t) (hr : Regular P.W real)
    (hs : Sees P.W conv see) {c : Commander} {rs : List Reply} (h : Patrol P t real conv see d c rs) :
    Session P exact t real d.memory c rs ∧
    (∀ ws, TrueBelief P.W real (belief exact P.W (held P.W ws) d.memory)) ∧
    (∃ b, Explores P real b c rs ∧ ∀ ws, Learns b (belief exact P.W (held P.W ws) d.memory)) ∧
    CommandTour P.W (posBlocked real) P.start (commandsOf rs) c.current ∧
    (∃ g, Remembers P.W d g) ∧
    ∀ p sx sy (ls : List Look), ls.length ≤ 6 → (∀ l ∈ ls, l.Fair P.W) →
      ∃ r, detectAndUpdate exact conv P.W d (ls.map (Look.input P.W)) (stateAt p sx sy) = .ok r := by
  obtain ⟨h1, h2, ⟨g, h3⟩, h4⟩ := patrol_inv S.width ht hr hs h
  obtain ⟨k1, k2, k3, -⟩ := C89_session S h0 rounding_exact ht hr h1
  refine ⟨h1, k1, k2, k3, ⟨g, h3⟩, fun p sx sy ls hn hl => ?_⟩
  obtain ⟨d', h5, -⟩ := call_eq S.width hs h3 (h4 g h3).chances hn hl p sx sy
  exact ⟨_, h5⟩

/-- **C91, walls get settled**: if a wall is measured again and again by a single sensor, each time with at least the evidence `m` in
favour of the wall, then after `n` measurements it is certain, or its odds have grown by the factor `exp (n m)` at least. -/
theorem C91_settles (hW : Supported W) (hs : Sees W conv see) {w : Wall} (hin : InMaze W w) {m : ℝ}
    (calls : List (Pose × ℝ × ℝ × List Look))
    (hcalls : ∀ c ∈ calls, ∃ l e z s, c.2.2.2 = [l] ∧ l.Fair W ∧ l.reading = some (z, s) ∧ see (aimed c.1 l.mount 0 0) = some e ∧ e.wall = w ∧
      w ∉ l.busyRead ∧ w ∉ l.busyWrite ∧ m ≤ ((z - e.far) ^ 2 - (z - e.near) ^ 2) / (2 * s ^ 2)) (hm : 0 ≤ m)
    (hd : Remembers W d g) (hc : Chances W g) (hpast : g.past 0 = none) (hn : ¬ Nil (g.prob w)) :
    ∃ d' g', detections conv W calls d = .ok d' ∧ Remembers W d' g' ∧ (∀ v, v ≠ w → g'.prob v = g.prob v) ∧
      (Sure (g'.prob w) ∨ odds (g.prob w) * Real.exp (calls.length * m) ≤ odds (g'.prob w)) := by
  induction calls generalizing d g with
  | nil =>
    refine ⟨d, g, rfl, hd, fun _ _ => rfl, Or.inr ?_⟩
    simp
  | cons c rest ih =>
    obtain ⟨p, sx, sy, ls⟩ := c
    obtain ⟨l, e, z, s, hls, hl, hr, he, rfl, hb, hb', hev⟩ := hcalls _ (List.mem_cons_self ..)
    dsimp only at hls he
    subst hls
    have hrest := fun c hc => hcalls c (List.mem_cons_of_mem _ hc)
    have hpos := hl.positive z s hr
    have hfrom : Guess.from (g.begin sx sy) p 0 l = aimed p l.mount 0 0 := by
      show aimed ((g.past 0).getD p) l.mount 0 0 = _
      rw [hpast]
      rfl
    have htar : (g.begin sx sy).target see p 0 l = some (e, z, s) := by
      unfold Guess.target
      rw [hr, hfrom, he]
      dsimp only
      rw [if_neg hb]
    obtain ⟨d1, g1, hg1, h1, h2, h3, -⟩ := C91_call hW hs hd hc (ls := [l]) (by simp) (by simpa using hl) p sx sy
    have hg1' : g1 = Guess.after see p 0 l (g.begin sx sy) := hg1
    have hp1 : g1.past 0 = none := by
      rw [hg1']
      unfold Guess.after
      rw [htar]
      dsimp only
      rw [hr]
      split_ifs <;> rfl
    have hdet : ∀ d', detections conv W rest d1 = .ok d' → detections conv W ((p, sx, sy, [l]) :: rest) d = .ok d' := by
      intro d' h
      unfold detections
      rw [h1]
      exact h
    by_cases hsure : Sure (g.prob e.wall)
    · have hprob : g1.prob = g.prob := by
        rw [hg1']
        unfold Guess.after
        rw [htar]
        dsimp only
        rw [if_neg (show ¬ Nil ((g.begin sx sy).prob e.wall) from hn), if_pos (show Sure ((g.begin sx sy).prob e.wall) from hsure)]
        rfl
      obtain ⟨d', g', k1, k2, k3, k4⟩ := ih hrest h2 h3 hp1 (by rw [hprob]; exact hn)
      refine ⟨d', g', hdet d' k1, k2, fun v hv => by rw [k3 v hv, hprob], ?_⟩
      have : ∀ (calls : List (Pose × ℝ × ℝ × List Look)) (d : Detector) (g : Guess), Remembers W d g → Chances W g → Sure (g.prob e.wall) →
          (∀ c ∈ calls, c.2.2.2.length ≤ 6 ∧ ∀ l ∈ c.2.2.2, l.Fair W) →
          ∀ d', detections conv W calls d = .ok d' → ∀ g', Remembers W d' g' → Sure (g'.prob e.wall) := by
        intro calls
        induction calls with
        | nil =>
          intro d g hd _ hsu _ d' h g' hd'
          cases h
          rw [remembers_prob hW hd' hd hin]
          exact hsu
        | cons c rest ih2 =>
          obtain ⟨p, sx, sy, ls⟩ := c
          intro d g hd hc hsu hf d' h g' hd'
          obtain ⟨f1, f2⟩ := hf _ (List.mem_cons_self ..)
          obtain ⟨d2, g2, e1, e2, e3, e4, -⟩ := C91_call hW hs hd hc f1 f2 p sx sy
          unfold detections at h
          rw [e2] at h
          refine ih2 d2 g2 e3 e4 ?_ (fun c hc => hf c (List.mem_cons_of_mem _ hc)) d' h g' hd'
          rw [e1, C91_settled p ls 0 _ _ (Or.inr (show Sure ((g.begin sx sy).prob e.wall) from hsu))]
          exact hsu
      refine Or.inl (this rest d1 g1 h2 h3 (by rw [hprob]; exact hsure) (fun c hc => ?_) d' k1 g' k2)
      obtain ⟨l', -, -, -, q1, q2, -⟩ := hrest c hc
      rw [q1]
      exact ⟨by simp, by simpa using q2⟩
    · have hprob : g1.prob = fun v => if v = e.wall then updated (g.prob v) e z s else g.prob v := by
        rw [hg1']
        unfold Guess.after
        rw [htar]
        dsimp only
        rw [if_neg (show ¬ Nil ((g.begin sx sy).prob e.wall) from hn), if_neg (show ¬ Sure ((g.begin sx sy).prob e.wall) from hsure), if_neg hb']
        rfl
      have hpw : g1.prob e.wall = updated (g.prob e.wall) e z s := by
        rw [hprob]
        dsimp only
        rw [if_pos rfl]
      have h0 := not_nil hn
      have hlt := not_sure hsure
      have hodds : odds (g.prob e.wall) * Real.exp m ≤ odds (g1.prob e.wall) := by
        rw [hpw, odds_updated h0 hlt e hpos]
        have : 0 < odds (g.prob e.wall) := div_pos h0 (by linarith)
        exact mul_le_mul_of_nonneg_left (Real.exp_le_exp.mpr hev) this.le
      have hge : g.prob e.wall ≤ g1.prob e.wall := by
        rw [hpw, ← odds_mono hlt (updated_mem h0 hlt e z s).2, ← hpw]
        refine le_trans ?_ hodds
        have : 0 < odds (g.prob e.wall) := div_pos h0 (by linarith)
        exact le_mul_of_one_le_right this.le (Real.one_le_exp hm)
      obtain ⟨d', g', k1, k2, k3, k4⟩ := ih hrest h2 h3 hp1 (by
        unfold Nil at hn ⊢
        linarith)
      refine ⟨d', g', hdet d' k1, k2, fun v hv => ?_, ?_⟩
      · rw [k3 v hv, hprob]
        dsimp only
        rw [if_neg hv]
      · rcases k4 with k4 | k4
        · exact Or.inl k4
        · refine Or.inr (le_trans ?_ k4)
          rw [List.length_cons]
          push_cast
          rw [add_mul, one_mul, add_comm, Real.exp_add, ← mul_assoc]
          exact mul_le_mul_of_nonneg_right hodds (Real.exp_pos _).le

/-- **C91, finding**: a position that is taken to be exact (as that of the default state) is never corrected, whatever is measured. -/
theorem C91_frozen (hW : Supported W) (hs : Sees W conv see) (hd : Remembers W d g) (hc : Chances W g) {ls : List Look} (hn : ls.length ≤ 6)
    (hl : ∀ l ∈ ls, l.Fair W) (p : Pose) :
    ∃ d', detectAndUpdate exact conv W d (ls.map (Look.input W)) (stateAt p 0 0) = .ok (d', stateAt p 0 0) := by
  obtain ⟨d', g', hg', h1, -⟩ := C91_call hW hs hd hc hn hl p 0 0
  have key : ∀ (ls : List Look) (i : Nat) (g : Guess), g.dx = 0 → g.dy = 0 → g.var = 0 →
      (g.afterAll see p i ls).dx = 0 ∧ (g.afterAll see p i ls).dy = 0 ∧ (g.afterAll see p i ls).var = 0 := by
    intro ls
    induction ls with
    | nil => intro i g h1 h2 h3; exact ⟨h1, h2, h3⟩
    | cons l ls ih =>
      intro i g h1 h2 h3
      refine ih (i + 1) (g.after see p i l) ?_ ?_ ?_ <;>
      · unfold Guess.after
        dsimp only
        cases g.target see p i l with
        | none => assumption
        | some r =>
          dsimp only
          split_ifs
          · assumption
          · simp [h1, h2, h3]
          · assumption
          · assumption
  obtain ⟨k1, k2, k3⟩ := key ls 0 (g.begin 0 0) rfl rfl (by simp [Guess.begin])
  refine ⟨d', ?_⟩
  rw [h1, hg', k1, k2, k3]
  simp [stateAt]

/-- **C91, finding**: if moreover a sensor claims to be exact, its next measurement of a wall that certainly exists makes the position
and its deviation something that is not a number; the call after that panics as soon as a sensor measures something. -/
theorem C91_nan (hW : Supported W) (hs : Sees W conv see) {m : Manager} {f : Wall → F} (hm : Recalls W m f) {p : Pose} {mount : Pose} {e : Seen}
    (he : see (aimed p mount 0 0) = some e) (hf : f e.wall = .fin 1) (z : ℝ) :
    ∃ d', detectAndUpdate exact conv W (Detector.new m) [⟨mount, some (.fin z, .fin 0), held W [], held W []⟩] (stateAt p 0 0) =
        .ok (d', ⟨.nan, .nan, .nan, .nan, p.theta⟩) ∧
      ∀ inp rest r, inp.reading = some r → detectAndUpdate exact conv W d' (inp :: rest) ⟨.nan, .nan, .nan, .nan, p.theta⟩ = .error .assert := by
  have hsee := hs (aimed p mount 0 0)
  rw [he] at hsee
  obtain ⟨hin, hconv⟩ := hsee
  have hprob : tryProbability W (held W []) m e.wall = .ok (some (.fin 1)) := by rw [hm _ hin, hf]
  have hz : ¬ isZero (.fin 1) := by
    show ¬ |(1 : ℝ)| < 1 / 2 ^ 23
    norm_num
  have ho : isOne exact (.fin 1) := by
    show |(1 : ℝ) + -1| < 1 / 2 ^ 23
    norm_num
  have h0 : exact.mul (exact.div (exact.add (.fin 0) (.fin 0)) (.fin 2)) (exact.div (exact.add (.fin 0) (.fin 0)) (.fin 2)) = .fin 0 := by
    simp [exact, Arith.add, Arith.div, Arith.mul]
  have hpose : sensorPose exact ((none : Option FPose).getD ⟨.fin p.x, .fin p.y, p.theta⟩) mount (.fin 0) (.fin 0) = lift (aimed p mount 0 0) :=
    sensorPose_eq p mount 0 0
  have hstep : step exact conv W ⟨.fin p.x, .fin p.y, p.theta⟩ 0 ⟨mount, some (.fin z, .fin 0), held W [], held W []⟩
      ⟨fun _ => none, m, .fin 0, .fin 0, .fin 0⟩ = .ok ⟨fun _ => none, m, .nan, .nan, .nan⟩ := by
    unfold step arrGet arrSet
    rw [if_pos (by decide), if_pos (by decide), if_pos (by decide)]
    simp only [bind, Except.bind]
    rw [if_neg (by simp [F.isNan]), hpose, show conv (lift (aimed p mount 0 0)) = _ from hconv]
    dsimp only
    rw [hprob]
    dsimp only
    rw [if_neg hz, if_pos ho]
    have hpn : (fun j => if j = 0 then (none : Option FPose) else none) = fun _ => none := by
      funext j
      split <;> rfl
    simp only [pure, Except.pure, correct, hpn]
    simp [exact, Arith.add, Arith.sub, Arith.div, Arith.mul, F.neg, F.infOf]
  refine ⟨⟨fun _ => none, m⟩, ?_, ?_⟩
  · unfold detectAndUpdate
    dsimp only [stateAt, Detector.new]
    rw [h0]
    unfold Detect.loop
    rw [hstep]
    simp [Detect.loop, bind, Except.bind, pure, Except.pure, exact, Arith.add, sqrtF]
  · intro inp rest r hr
    unfold detectAndUpdate
    dsimp only
    unfold Detect.loop
    have : ∀ a : Acc, a.past 0 = none → step exact conv W ⟨.nan, .nan, p.theta⟩ 0 inp a = .error .assert := by
      intro a ha
      unfold step arrGet arrSet
      rw [if_pos (by decide), if_pos (by decide), if_pos (by decide), hr, ha]
      obtain ⟨z, s⟩ := r
      simp only [bind, Except.bind]
      rw [if_pos]
      exact Or.inl trivial
    rw [this _ rfl]
    rfl

/-! ## Cases -/

/-- What the default converter sees in a maze of width 16 (or 4). -/
theorem demo_sees {W : Nat} (hW : Supported W) : ∃ see, Sees W (convertF Converter.default W demoSort) see ∧
    ∀ i : Nat, i < W → ∃ b, see (centre i) = some ⟨⟨i, 0, false⟩, 42 / 1000, b⟩ := by
  obtain ⟨see, h1, h2⟩ := C90_sees (sw := 9 / 100) (ww := 6 / 1000) (ir := 1 / 100) (il := 8 / 1000) (by norm_num) (by norm_num) hW demoSort_sorts
  refine ⟨see, h1, fun i hi => ?_⟩
  have := hW.le
  obtain ⟨b, hb⟩ := C90_complete (ir := 1 / 100) (il := 8 / 1000) default_width (by norm_num) (by norm_num) (by norm_num) hW demoSort_sorts (centre i)
    (i := i) (j := 0) (by omega) (by norm_num)
    (by simp only [Box.inside, room, centre]; constructor <;> constructor <;> push_cast <;> linarith)
    (fun q hq => by linarith [centre_far i q hq]) (centre_leaves i) (centre_side i) (by norm_num) ⟨i, 0, false⟩
    ⟨hi, hW.pos⟩ rfl
  exact ⟨b, (h2 _ _).mpr hb⟩

theorem aimed_zero (p : Pose) : aimed p ⟨0, 0, 0⟩ 0 0 = p := by
  obtain ⟨x, y, θ⟩ := p
  simp [aimed]

/-- A sensor in the middle of the machine that looks ahead. -/
def ahead (z s : ℝ) : Look := ⟨⟨0, 0, 0⟩, some (z, s), [], []⟩

theorem ahead_fair {W : Nat} {z s : ℝ} (hs : 0 < s) : (ahead z s).Fair W where
  positive := by
    rintro z s h
    cases h
    exact hs
  read := by simp [ahead]
  write := by simp [ahead]

theorem demo_guess {W : Nat} (hW : Supported W) (t : F) : ∃ m g, new W t = .ok m ∧ Remembers W (Detector.new m) g ∧ Chances W g ∧
    (∀ i, g.past i = none) ∧ ∀ w, InMaze W w → atFirst W w = .fin (g.prob w) := by
  obtain ⟨m, h1, h2, h3⟩ := C89_new hW t
  obtain ⟨g, hg⟩ := new_remembers hW h1
  have hp : ∀ w, InMaze W w → atFirst W w = .fin (g.prob w) := by
    intro w hw
    have := h3 w hw
    rw [show m = (Detector.new m).memory from rfl, hg.memory w hw] at this
    simp only [Except.ok.injEq, Option.some.injEq] at this
    exact this.symm
  refine ⟨m, { g with past := fun _ => none }, h1, ⟨hg.memory, fun _ _ => rfl⟩, fun w hw => ?_, fun _ => rfl, hp⟩
  have := hp w hw
  unfold atFirst at this
  split_ifs at this <;> rw [F.fin.injEq] at this <;> rw [← this] <;> norm_num

/-- The wall right of the cell `(3, 0)`, unknown at first, is measured: its probability grows. -/
example : ∃ m see d' q, new 16 (.fin (1 / 10)) = .ok m ∧ Sees 16 (convertF Converter.default 16 demoSort) see ∧
    detectAndUpdate exact (convertF Converter.default 16 demoSort) 16 (Detector.new m) [(ahead (42 / 1000) (1 / 100)).input 16] (stateAt (centre 3) 1 1) =
      .ok (d', stateAt (centre 3) |(1 + 1) / 2| |(1 + 1) / 2|) ∧
    tryProbability 16 (held 16 []) d'.memory ⟨3, 0, false⟩ = .ok (some (.fin q)) ∧ 1 / 2 ≤ q := by
  have hW : Supported 16 := ⟨4, by decide, rfl⟩
  obtain ⟨see, hs, hsee⟩ := demo_sees hW
  obtain ⟨m, g, h1, h2, h3, h4, h5⟩ := demo_guess hW (.fin (1 / 10))
  obtain ⟨b, hb⟩ := hsee 3 (by decide)
  have hg : g.prob ⟨3, 0, false⟩ = 1 / 2 := by
    have := h5 ⟨3, 0, false⟩ (by decide)
    rw [show atFirst 16 ⟨3, 0, false⟩ = .fin (1 / 2) by simp [atFirst], F.fin.injEq] at this
    exact this.symm
  obtain ⟨d', q, k1, k2, k3, k4, -, -, k5, -⟩ := C91_measure (p := centre 3) (sx := 1) (sy := 1) (l := ahead (42 / 1000) (1 / 100))
    (e := ⟨⟨3, 0, false⟩, 42 / 1000, b⟩) hW hs h2 h3 (ahead_fair (by norm_num)) rfl
    (by rw [h4]; exact (congrArg see (aimed_zero (centre 3))).trans hb) (by simp [ahead]) (by simp [ahead])
    (by rw [hg]; unfold Nil; norm_num) (by rw [hg]; unfold Sure; norm_num)
  refine ⟨m, see, d', q, h1, hs, k1, ?_, ?_⟩
  · rw [k2 ⟨3, 0, false⟩ (by decide)]
    simp
  · rw [hg] at k5
    exact k5.mpr (by simp)

/-- The wall right of the start is certain: the robot that measures 40 mm instead of 42 mm is moved towards it. -/
example : ∃ m see d' δ v, new 16 (.fin (1 / 10)) = .ok m ∧ Sees 16 (convertF Converter.default 16 demoSort) see ∧
    detectAndUpdate exact (convertF Converter.default 16 demoSort) 16 (Detector.new m) [(ahead (40 / 1000) (1 / 100)).input 16]
      (stateAt (centre 0) (1 / 100) (1 / 100)) = .ok (d', ⟨.fin ((centre 0).x + δ), .fin (centre 0).y, .fin (Real.sqrt v), .fin (Real.sqrt v), 0⟩) ∧
    0 < δ ∧ 0 < v ∧ v < (1 / 100) ^ 2 := by
  have hW : Supported 16 := ⟨4, by decide, rfl⟩
  obtain ⟨see, hs, hsee⟩ := demo_sees hW
  obtain ⟨m, g, h1, h2, h3, h4, h5⟩ := demo_guess hW (.fin (1 / 10))
  obtain ⟨b, hb⟩ := hsee 0 (by decide)
  have hg : g.prob ⟨0, 0, false⟩ = 1 := by
    have := h5 ⟨0, 0, false⟩ (by decide)
    rw [show atFirst 16 ⟨0, 0, false⟩ = .fin 1 by simp [atFirst], F.fin.injEq] at this
    exact this.symm
  obtain ⟨d', δ, v, k1, k2, k3, k4, k5⟩ := C91_correction (p := centre 0) (sx := 1 / 100) (sy := 1 / 100) (l := ahead (40 / 1000) (1 / 100))
    (e := ⟨⟨0, 0, false⟩, 42 / 1000, b⟩) hW hs h2 h3 (ahead_fair (by norm_num)) (by norm_num) rfl
    (by rw [h4]; exact (congrArg see (aimed_zero (centre 0))).trans hb) (by simp [ahead])
    (by rw [hg]; unfold Sure; norm_num)
  have hθ : (((g.past 0).getD (centre 0)).theta + (ahead (40 / 1000) (1 / 100)).mount.theta) = 0 := by
    rw [h4]
    show (0 : ℝ) + 0 = 0
    norm_num
  rw [hθ, Real.cos_zero, Real.sin_zero, mul_one, mul_zero, add_zero] at k1
  refine ⟨m, see, d', δ, v, h1, hs, k1, ?_, k3, ?_⟩
  · by_contra hneg
    have := k2 (δ + 1 / 1000000) (by norm_num)
    dsimp only at this
    norm_num at this
    have hδ : δ ≤ 0 := not_lt.mp hneg
    ring_nf at this
    linarith
  · rw [div_eq_iff k3.ne'] at k4
    norm_num at k4
    norm_num
    linarith

/-- A search that calls the detector in the cell `(1, 0)` of a maze of width 4, with a measurement that is right for this maze. -/
example : ∃ d see, Sees 4 (convertF Converter.default 4 demoSort) see ∧
    Patrol smallConfig (.fin (1 / 10)) (walled twoWalls) (convertF Converter.default 4 demoSort) see d (Commander.new smallConfig.start) [] ∧
    ∃ q, tryProbability 4 (held 4 []) d.memory ⟨1, 0, false⟩ = .ok (some (.fin q)) ∧ (walled twoWalls ⟨1, 0, false⟩ = true → 1 / 2 ≤ q) ∧
      (walled twoWalls ⟨1, 0, false⟩ = false → q ≤ 1 / 2) := by
  have hW : Supported 4 := ⟨2, by decide, rfl⟩
  obtain ⟨see, hs, hsee⟩ := demo_sees hW
  obtain ⟨m, g, h1, h2, h3, h4, h5⟩ := demo_guess hW (.fin (1 / 10))
  obtain ⟨b, hb⟩ := hsee 1 (by decide)
  have hfair : (ahead (if walled twoWalls ⟨1, 0, false⟩ then 42 / 1000 else b) (1 / 100)).Fair 4 := ahead_fair (by norm_num)
  have hfrom : Guess.from (g.begin 0 0) (centre 1) 0 (ahead (if walled twoWalls ⟨1, 0, false⟩ then 42 / 1000 else b) (1 / 100)) = centre 1 := by
    show aimed ((g.past 0).getD (centre 1)) ⟨0, 0, 0⟩ 0 0 = _
    rw [h4]
    exact aimed_zero (centre 1)
  obtain ⟨d', g', hg', e1, e2, e3, -⟩ := C91_call hW hs h2 h3
    (ls := [ahead (if walled twoWalls ⟨1, 0, false⟩ then 42 / 1000 else b) (1 / 100)]) (by simp) (by simpa using hfair) (centre 1) 0 0
  have hpat := Patrol.detect (P := smallConfig) (real := walled twoWalls) (see := see) (Detector.new m) d' (Commander.new smallConfig.start) [] (centre 1) 0 0
    [ahead (if walled twoWalls ⟨1, 0, false⟩ then 42 / 1000 else b) (1 / 100)] _ g (.start m h1) (by simp)
    (fun l hl => by rw [List.mem_singleton.mp hl]; exact hfair) h2 (by
      refine ⟨?_, trivial⟩
      intro e z s htar
      unfold Guess.target at htar
      rw [hfrom, show see (centre 1) = _ from hb] at htar
      simp only [ahead, List.not_mem_nil, if_false, Option.some.injEq, Prod.mk.injEq] at htar
      obtain ⟨rfl, rfl, rfl⟩ := htar
      dsimp only
      split <;> simp) e1
  have hg : GoodThreshold exact (.fin (1 / 10)) := ⟨⟨1 / 10, rfl, by norm_num, by norm_num, rfl⟩, by show (0 : ℝ) < 1 / 10; norm_num,
    by show (1 : ℝ) + -(1 / 10) < 1; norm_num, by show (1 / 10 : ℝ) ≤ 1 / 2; norm_num⟩
  have hr : Regular smallConfig.W (walled twoWalls) := ⟨walled_closed _, by decide, by decide⟩
  obtain ⟨-, -, -, hsd⟩ := patrol_inv (P := smallConfig) hW hg hr hs hpat
  have := hsd g' e2 ⟨1, 0, false⟩ (by decide)
  refine ⟨d', see, hs, hpat, g'.prob ⟨1, 0, false⟩, e2.memory _ (by decide), fun h => ?_, fun h => ?_⟩
  · rw [if_pos h] at this; exact this.1
  · rw [if_neg (by simp [h])] at this; exact this.2

/-- Ten measurements of the wall right of the cell `(3, 0)` with the evidence 1 each (whatever the far distance is). -/
example : ∃ m see, ∃ b : ℝ, new 16 (.fin (1 / 10)) = .ok m ∧ Sees 16 (convertF Converter.default 16 demoSort) see ∧
    (b ≠ 42 / 1000 → ∃ s > 0, ∃ d' q, detections (convertF Converter.default 16 demoSort) 16 (List.replicate 10 (centre 3, 1, 1, [ahead (42 / 1000) s])) (Detector.new m) = .ok d' ∧
      tryProbability 16 (held 16 []) d'.memory ⟨3, 0, false⟩ = .ok (some (.fin q)) ∧ (Sure q ∨ Real.exp 10 ≤ odds q)) := by
  have hW : Supported 16 := ⟨4, by decide, rfl⟩
  obtain ⟨see, hs, hsee⟩ := demo_sees hW
  obtain ⟨m, g, h1, h2, h3, h4, h5⟩ := demo_guess hW (.fin (1 / 10))
  obtain ⟨b, hb⟩ := hsee 3 (by decide)
  have hg : g.prob ⟨3, 0, false⟩ = 1 / 2 := by
    have := h5 ⟨3, 0, false⟩ (by decide)
    rw [show atFirst 16 ⟨3, 0, false⟩ = .fin (1 / 2) by simp [atFirst], F.fin.injEq] at this
    exact this.symm
  refine ⟨m, see, b, h1, hs, fun hne => ?_⟩
  have hpos : 0 < |42 / 1000 - b| := abs_pos.mpr (sub_ne_zero.mpr (Ne.symm hne))
  refine ⟨|42 / 1000 - b| / 2, by positivity, ?_⟩
  obtain ⟨d', g', k1, k2, -, k3⟩ := C91_settles (w := ⟨3, 0, false⟩) (m := 1) hW hs (by decide)
    (List.replicate 10 (centre 3, 1, 1, [ahead (42 / 1000) (|42 / 1000 - b| / 2)])) (by
      intro c hc
      obtain ⟨-, rfl⟩ := List.mem_replicate.mp hc
      refine ⟨_, ⟨⟨3, 0, false⟩, 42 / 1000, b⟩, 42 / 1000, _, rfl, ahead_fair (by positivity), rfl,
        (congrArg see (aimed_zero (centre 3))).trans hb, rfl, by simp [ahead], by simp [ahead], ?_⟩
      rw [le_div_iff₀ (by positivity), div_pow, sq_abs]
      simp only [sub_self]
      nlinarith [sq_nonneg ((42 : ℝ) / 1000 - b)]) (by norm_num) h2 h3 (h4 0) (by rw [hg]; unfold Nil; norm_num)
  refine ⟨d', _, k1, k2.memory _ (by decide), ?_⟩
  rw [hg] at k3
  rcases k3 with k3 | k3
  · exact Or.inl k3
  · refine Or.inr (le_trans (le_of_eq ?_) k3)
    rw [List.length_replicate]
    unfold odds
    norm_num

/-- An exact sensor on an exact position. -/
example : ∃ m d', new 16 (.fin (1 / 10)) = .ok m ∧ detectAndUpdate exact (convertF Converter.default 16 demoSort) 16 (Detector.new m)
    [⟨⟨0, 0, 0⟩, some (.fin (42 / 1000), .fin 0), held 16 [], held 16 []⟩] (stateAt (centre 0) 0 0) = .ok (d', ⟨.nan, .nan, .nan, .nan, 0⟩) := by
  have hW : Supported 16 := ⟨4, by decide, rfl⟩
  obtain ⟨see, hs, hsee⟩ := demo_sees hW
  obtain ⟨m, h1, h2, h3⟩ := C89_new hW (.fin (1 / 10))
  obtain ⟨b, hb⟩ := hsee 0 (by decide)
  obtain ⟨d', k1, -⟩ := C91_nan hW hs h3 (p := centre 0) (mount := ⟨0, 0, 0⟩) ((congrArg see (aimed_zero (centre 0))).trans hb)
    (show atFirst 16 ⟨0, 0, false⟩ = .fin 1 by simp [atFirst]) (42 / 1000)
  exact ⟨m, d', h1, k1⟩

/-- Two sensors, the second of which has been waiting since the first call. -/
example (p q : Pose) : waitingSince [(q, false), (p, false)] = some p ∧ waitingSince [(q, true), (p, false)] = none ∧
    waitingSince [(q, false), (p, true)] = some q := ⟨rfl, rfl, rfl⟩

end Verif.Props
