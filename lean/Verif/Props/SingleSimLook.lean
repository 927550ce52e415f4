import Verif.Props.SingleSimRun
import Verif.Props.SingleLookDemo
import Verif.Props.Walls
/-!
# C131: what the simulated distance sensors teach; examples
-/
namespace Verif.Props
open Verif Verif.Spec Verif.Convert Verif.Single Verif.Binary32 Verif.Search Verif.Detect Verif.Proof

variable {exp : F → F}

/-- The pose of a sensor is of moderate size: coordinates up to 11 m, an angle up to 100 rad of which the library knows sine and cosine. -/
def FairPose (L : Lib) (ε : ℝ) (p : Pose) : Prop := |p.x| ≤ 11 ∧ |p.y| ≤ 11 ∧ |p.theta| ≤ 100 ∧ TrigNear L ε p.theta

/-- A map that knows nothing wrong. -/
def MapRight (W : Nat) (truth : Coord → Bool) (w : Walls.Walls) : Prop :=
  ∀ c, Valid W c → Walls.wallState W w c = .ok .unchecked ∨ Walls.wallState W w c = .ok (.checked (truth c))

/-- What the detector holds for sure is in the map. -/
def Written (exp : F → F) (W : Nat) (d : Detector) (w : Walls.Walls) : Prop :=
  ∀ c, Valid W c → isZero (d (c.asIndex W)) ∨ isOne (arith exp) (d (c.asIndex W)) → ∃ b, Walls.wallState W w c = .ok (.checked b)

/-- The deviation that the simulator returns. -/
theorem deviation : ∃ σ, rnd (2 / 1000) = .fin σ ∧ 1 / 10 ^ 6 ≤ σ ∧ σ ≤ 201 / 100000 := by
  obtain ⟨σ, e, b⟩ := rnd_rel (z := 2 / 1000) (by norm_num)
  have b' := abs_le.1 b
  norm_num at b'
  exact ⟨σ, e, by norm_num; linarith, by norm_num; linarith⟩

theorem update_right {W : Nat} (hW : Supported W) {truth : Coord → Bool} {w : Walls.Walls} (hw : MapRight W truth w) {c : Coord} (hc : Valid W c) :
    ∃ w', Walls.update W w c (.checked (truth c)) = .ok w' ∧ MapRight W truth w' ∧
      Walls.wallState W w' c = .ok (.checked (truth c)) ∧ ∀ d, Valid W d → Walls.wallState W w d = .ok (.checked (truth d)) →
        Walls.wallState W w' d = .ok (.checked (truth d)) := by
  obtain ⟨w', e, h⟩ := C03_history hW w [(c, .checked (truth c))] (by simpa using hc)
  have e' : Walls.update W w c (.checked (truth c)) = .ok w' := by
    simp only [updateAll] at e
    cases hu : Walls.update W w c (.checked (truth c)) with
    | error x => rw [hu] at e; cases e
    | ok y => rw [hu] at e; exact e
  have key : ∀ d, Valid W d → (d = c ∧ Walls.wallState W w' d = .ok (.checked (truth d))) ∨ Walls.wallState W w' d = Walls.wallState W w d := by
    intro d hd
    have := h d hd
    by_cases hdc : d = c
    · subst hdc
      left
      refine ⟨rfl, ?_⟩
      simpa [lastFor] using this
    · right
      have hcd : ¬ c = d := fun x => hdc x.symm
      simpa [lastFor, hcd] using this
  refine ⟨w', e', ?_, ?_, ?_⟩
  · intro d hd
    rcases key d hd with ⟨-, k⟩ | k
    · exact .inr k
    · rw [k]; exact hw d hd
  · rcases key c hc with ⟨-, k⟩ | k
    · exact k
    · have := h c hc
      simpa [lastFor] using this
  · intro d hd hk
    rcases key d hd with ⟨-, k⟩ | k
    · exact k
    · rw [k]; exact hk

/-- **C131**, the distance sensors in single precision. Over any number of sensor poses of moderate size, whatever maze the simulator
holds: no call panics, the detector is never settled against the maze, the map never holds anything wrong and never loses
anything, and every wall that the converter returned for one of the poses is in the map. -/
theorem C131_inspect (hg : GoodExp exp) (he : Steep exp) {L : Lib} {ε : ℝ} (hε : ε ≤ 1 / 1000) {W : Nat} (hW : Supported W)
    {sort : List (Dir × F) → List (Dir × F)} (hs : Sorts sort) (truth : Coord → Bool) (s : Simulator)
    (ht : ∀ c, Valid W c → Walls.wallState W s.walls c = .ok (.checked (truth c))) (ps : List Pose) (hp : ∀ p ∈ ps, FairPose L ε p)
    (d : Detector) (hd : NoError W truth d) (w : Walls.Walls) (hw : MapRight W truth w) (hdw : Written exp W d w) :
    ∃ d' w', s.inspect (arith exp) L W sort ps d w = .ok (d', w') ∧ NoError W truth d' ∧ MapRight W truth w' ∧ Written exp W d' w' ∧
      (∀ c, Valid W c → Walls.wallState W w c = .ok (.checked (truth c)) → Walls.wallState W w' c = .ok (.checked (truth c))) ∧
      ∀ p ∈ ps, ∀ info, lookAt (arith exp) L W sort p = some info → Walls.wallState W w' info.coord = .ok (.checked (truth info.coord)) := by
  induction ps generalizing d w with
  | nil => exact ⟨d, w, rfl, hd, hw, hdw, fun _ _ h => h, by simp⟩
  | cons p ps ih =>
    obtain ⟨hx, hy, hθ, hT⟩ := hp p (by simp)
    have hp' : ∀ q ∈ ps, FairPose L ε q := fun q hq => hp q (by simp [hq])
    obtain ⟨σ, eσ, s0, s1⟩ := deviation
    cases h : (Finder.default (arith exp)).convert (arith exp) L W sort (.fin p.x) (.fin p.y) (.fin p.theta) with
    | none =>
      obtain ⟨d', w', e, k1, k2, k3, k4, k5⟩ := ih hp' d hd w hw hdw
      refine ⟨d', w', ?_, k1, k2, k3, k4, ?_⟩
      · rw [Simulator.inspect]
        unfold Simulator.distanceFromWall
        rw [h]
        exact e
      · intro q hq info hi
        rcases List.mem_cons.1 hq with rfl | hq
        · exact absurd (show some info = none from hi.symm.trans h) (by simp)
        · exact k5 q hq info hi
    | some info =>
      obtain ⟨hv, a, b, ea, eb, a0, hab, hb⟩ := C130_gap (exp := exp) hx hy hθ hT hε hW hs info h
      have hlt : info.coord.asIndex W < LEN := Grid.asIndex_lt_que hW hv
      obtain ⟨q, eq, hq⟩ := hd _ hv
      obtain ⟨v, ev⟩ : ∃ v, (if truth info.coord then info.existing else info.notExisting) = .fin v := by
        cases truth info.coord
        · exact ⟨b, by simpa using eb⟩
        · exact ⟨a, by simpa using ea⟩
      have ed : s.distanceFromWall (arith exp) L W sort (.fin p.x) (.fin p.y) (.fin p.theta) = .ok (some (.fin v, .fin σ)) := by
        unfold Simulator.distanceFromWall
        rw [h]
        simp only [ht _ hv, bind, Except.bind, pure, Except.pure]
        have : (if (WallState.checked (truth info.coord)) = .checked true then info.existing else info.notExisting) = .fin v := by
          rw [← ev]
          cases truth info.coord <;> simp
        rw [this, if_neg (show ¬ (F.fin v).isNan from fun h => h)]
        show Except.ok (some (F.fin v, rnd (2 / 1000))) = _
        rw [eσ]
      have seen : ∀ {w'' : Walls.Walls}, Walls.wallState W w'' info.coord = .ok (.checked (truth info.coord)) →
          (∀ q ∈ ps, ∀ i, lookAt (arith exp) L W sort q = some i → Walls.wallState W w'' i.coord = .ok (.checked (truth i.coord))) →
          ∀ q ∈ p :: ps, ∀ i, lookAt (arith exp) L W sort q = some i → Walls.wallState W w'' i.coord = .ok (.checked (truth i.coord)) := by
        intro w'' h1 h2 q hq i hi
        rcases List.mem_cons.1 hq with rfl | hq
        · have : some i = some info := hi.symm.trans h
          cases this
          exact h1
        · exact h2 q hq i hi
      by_cases hz : isZero (d (info.coord.asIndex W)) ∨ isOne (arith exp) (d (info.coord.asIndex W))
      · have g : detectAndUpdate (arith exp) (fun p => (Finder.default (arith exp)).convert (arith exp) L W sort (.fin p.x) (.fin p.y) (.fin p.theta)) W d
          (.fin v) (.fin σ) p = .ok (d, none) := detect_settled _ hW _ _ _ h hv hz
        obtain ⟨d', w', e, k1, k2, k3, k4, k5⟩ := ih hp' d hd w hw hdw
        refine ⟨d', w', ?_, k1, k2, k3, k4, seen ?_ k5⟩
        · rw [Simulator.inspect, ed]
          simp only [bind, Except.bind]
          rw [g]
          exact e
        · refine k4 _ hv ?_
          obtain ⟨b, hb⟩ := hdw _ hv hz
          rcases hw _ hv with k | k
          · rw [k] at hb; cases hb
          · exact k
      · have look := C130_look hg he hε hW hs truth ⟨v, σ, p⟩ ⟨hx, hy, hθ, hT, s0, s1⟩ info h
          ⟨v, ev, by show |v - v| ≤ _; rw [sub_self, abs_zero]; norm_num⟩ d q eq hq
        obtain ⟨q', hr, g⟩ : ∃ q', SettledRight (truth info.coord) q' ∧
            detectAndUpdate (arith exp) (lookAt (arith exp) L W sort) W d (.fin v) (.fin σ) p =
              .ok (Function.update d (info.coord.asIndex W) (.fin q'), some (info.coord, .checked (truth info.coord))) := by
          obtain ⟨q', hr, g | ⟨rfl, g⟩⟩ := look
          · exact ⟨q', hr, g⟩
          · exfalso
            have hi : lookAt (arith exp) L W sort p = some info := h
            unfold detectAndUpdate at g
            rw [hi] at g
            simp only [arrGet, arrSet, if_pos hlt, bind, Except.bind, pure, Except.pure] at g
            rw [if_neg hz] at g
            revert g
            cases posterior (arith exp) (d (info.coord.asIndex W)) (score (arith exp) info.existing (.fin v) (.fin σ))
              (score (arith exp) info.notExisting (.fin v) (.fin σ)) <;> simp
        have hd1 : NoError W truth (Function.update d (info.coord.asIndex W) (.fin q')) := by
          intro c hc
          by_cases hcc : c = info.coord
          · subst hcc; exact ⟨q', Function.update_self .., right_notWrong hr⟩
          · rw [Function.update_of_ne (fun hx => hcc (Grid.asIndex_inj hW hc hv hx))]
            exact hd c hc
        obtain ⟨w1, e1, hw1, now, keep1⟩ := update_right hW hw hv
        have hdw1 : Written exp W (Function.update d (info.coord.asIndex W) (.fin q')) w1 := by
          intro c hc hzc
          by_cases hcc : c = info.coord
          · subst hcc; exact ⟨_, now⟩
          · rw [Function.update_of_ne (fun hx => hcc (Grid.asIndex_inj hW hc hv hx))] at hzc
            obtain ⟨b, hb⟩ := hdw c hc hzc
            rcases hw c hc with k | k
            · rw [k] at hb; cases hb
            · exact ⟨_, keep1 c hc k⟩
        obtain ⟨d', w', e, k1, k2, k3, k4, k5⟩ := ih hp' _ hd1 w1 hw1 hdw1
        refine ⟨d', w', ?_, k1, k2, k3, fun c hc hk => k4 c hc (keep1 c hc hk), seen (k4 _ hv now) k5⟩
        rw [Simulator.inspect, ed]
        have g' : detectAndUpdate (arith exp) (fun p => (Finder.default (arith exp)).convert (arith exp) L W sort (.fin p.x) (.fin p.y) (.fin p.theta)) W d
          (.fin v) (.fin σ) p = _ := g
        simp only [bind, Except.bind]
        rw [g']
        dsimp only
        rw [e1]
        exact e

/-! ## Examples -/

/-- Half a chance for every wall: nothing has to be in the map. -/
theorem written_new (W : Nat) (w : Walls.Walls) : Written exp W Detect.new w := by
  intro c _ h
  exfalso
  have hE : EPSILON < 1 / 1000 := by unfold EPSILON; norm_num
  rcases h with h | h
  · have h : |(1 / 2 : ℝ)| < EPSILON := h
    have := (abs_lt.1 h).2
    linarith
  · obtain ⟨q, eq, bq⟩ := rnd_rel (z := 1 / 2 + -1) (by norm_num)
    unfold isOne at h
    have e : (arith exp).sub (.fin (1 / 2)) (.fin 1) = .fin q := eq
    have hn : Detect.new (c.asIndex W) = .fin (1 / 2) := rfl
    rw [hn, e] at h
    have h : |q| < EPSILON := h
    have h1 := abs_lt.1 h
    have b' := abs_le.1 bq
    norm_num at b'
    linarith

/-- Sine and cosine without errors. -/
theorem circle_real (pi : ℝ) : CircleTrig (libOf Control.Trig.real pi) 0 := fun x _ =>
  ⟨Real.cos x, Real.sin x, rfl, rfl, by nlinarith [Real.sin_sq_add_cos_sq x]⟩

/-- The simulator of `search.rs:241-251`, at rest, driven with infinite voltages for as long as one likes. -/
example (n : Nat) (walls : Walls.Walls) :
    let z : AxisState := ⟨.fin (45 / 1000), .fin 0, .fin 0⟩
    let s := Simulator.new walls ⟨z, z, z⟩ ⟨z, z, z⟩ (.fin (37 / 10)) (.fin (1 / 1000)) (.fin (1865 / 1000)) (.fin (4443 / 10000))
      (.fin (8239 / 100)) (.fin (2855 / 10000)) (.fin (335 / 10000))
    Upto 17 (transVel (arith exp) (libOf Control.Trig.real 3)
      (simEvents (arith exp) (libOf Control.Trig.real 3) (.apply .pinf .ninf :: List.replicate n .step) s).current) := by
  intro z s
  have hr : AtRest s.current := ⟨45 / 1000, 45 / 1000, 45 / 1000, by norm_num [abs_le], by norm_num [abs_le], by norm_num [abs_le], rfl⟩
  have H : SimFit s 0 (37 / 10) (1 / 1000) (1865 / 1000) (4443 / 10000) (8239 / 100) (2855 / 10000) (335 / 10000) :=
    ⟨⟨rfl, by norm_num, by norm_num⟩, ⟨rfl, by norm_num, by norm_num⟩, ⟨rfl, by norm_num [abs_le], by norm_num [abs_of_pos]⟩,
      ⟨rfl, by norm_num, by norm_num⟩, ⟨rfl, by norm_num [abs_le], by norm_num [abs_of_pos]⟩, ⟨rfl, by norm_num, by norm_num⟩,
      ⟨rfl, by norm_num [abs_le]⟩, ⟨le_rfl, by norm_num, by norm_num⟩⟩
  have := (C131_bounded (exp := exp) (circle_real 3) s H hr hr ⟨rfl, rfl⟩ (.apply .pinf .ninf :: List.replicate n .step) (by
    intro e he
    rcases List.mem_cons.1 he with rfl | he
    · exact ⟨by simp, by simp⟩
    · rw [List.eq_of_mem_replicate he]; trivial)).2.2.1
  exact Upto.mono this (by norm_num [abs_of_pos])

/-- One voltage that is not a number, then zero for ever. -/
example (s : Simulator) (n : Nat) :
    Lost (simEvents (arith exp) (libOf Control.Trig.real 3) (.apply (.fin 0) .nan :: .step :: .apply (.fin 0) (.fin 0) :: List.replicate n .step)
      s).current :=
  C131_nan _ rfl rfl s _ _ (.inr rfl) _

/-- A look from the centre of the cell `(3, 0)`, in a maze where every wall stands: the wall `(7, 0)` is in the map afterwards. -/
example (s : Simulator) (h : ∀ c, Valid 16 c → Walls.wallState 16 s.walls c = .ok (.checked true)) (w : Walls.Walls)
    (hw : MapRight 16 (fun _ => true) w) :
    ∃ d' w', s.inspect (arith expRounded) (libOf Control.Trig.real 3) 16 demoSort [centre 3] Detect.new w = .ok (d', w') ∧
      Walls.wallState 16 w' ⟨7, 0⟩ = .ok (.checked true) := by
  have hacc := accurateExp_rounded
  have h16 : Supported 16 := ⟨4, by decide⟩
  have h0 : NoError 16 (fun _ => true) Detect.new := (C130_start h16 (fun _ => true)).1
  have hp : ∀ p ∈ [centre 3], FairPose (libOf Control.Trig.real 3) 0 p := by
    intro p hp
    rw [List.mem_singleton.1 hp]
    exact ⟨by simp only [centre]; rw [abs_le]; norm_num, by simp only [centre]; rw [abs_le]; norm_num, by simp [centre], real_trig 3 _⟩
  have key := C131_inspect hacc.toGoodExp (steep_of_accurate hacc (by norm_num)) (by norm_num) h16 demoSort_sorts (fun _ => true) s h
    [centre 3] hp Detect.new h0 w hw (written_new 16 w)
  refine key.imp fun d' g => g.imp fun w' k => ⟨k.1, ?_⟩
  exact (centre_found (exp := expRounded)).elim fun e g => g.elim fun b hc => k.2.2.2.2.2 (centre 3) (List.mem_singleton.2 rfl) ⟨⟨7, 0⟩, .fin e, .fin b⟩ hc.1

end Verif.Props
