import Verif.Spec.ImuInit
import Verif.Props.Imu
/-!
# C97: how the inertial sensor is initialised
-/
namespace Verif.Props
open Verif Verif.Imu Verif.Spec

theorem imu_bind_ok {α β : Type} {m : M α} {f : α → M β} {w : World} {s s' : Imu × Log} {b : β}
    (h : (m >>= f) w s = (.ok b, s')) : ∃ a s1, m w s = (.ok a, s1) ∧ f a w s1 = (.ok b, s') := by
  change M.bind m f w s = _ at h
  unfold M.bind at h
  rcases hm : m w s with ⟨r, s1⟩
  rw [hm] at h
  cases r with
  | ok a => exact ⟨a, s1, rfl, h⟩
  | err => cases h
  | hang => cases h

/-- What one try of an access does to the log, and when it succeeds. -/
def Tries {α : Type} (bytes : List Nat) (P : List Nat → Prop) (m : M α) : Prop :=
  ∀ w s, ∃ t, (m w s).2.2 = s.2 ++ t ∧ (∀ e ∈ t, isPin e.1 ∨ e.1 = .transfer bytes) ∧
    ∀ a, (m w s).1 = .ok a → Done bytes P t

theorem tries_waitOk {α : Type} {bytes : List Nat} {P : List Nat → Prop} {m : M α} (hm : Tries bytes P m) (n : Nat) :
    Tries bytes P (waitOk m n) := by
  induction n with
  | zero => exact fun _ s => ⟨[], by simp [waitOk], by simp, by intro a h; cases h⟩
  | succ n ih =>
    intro w s
    obtain ⟨t, h1, h2, h3⟩ := hm w s
    unfold waitOk
    rcases h : m w s with ⟨r, s'⟩
    rw [h] at h1 h3
    cases r with
    | ok a => exact ⟨t, h1, h2, fun a _ => h3 _ rfl⟩
    | hang => exact ⟨t, h1, h2, by intro a h; cases h⟩
    | err =>
      obtain ⟨t', h4, h5, h6⟩ := ih w s'
      refine ⟨t ++ t', by rw [h4, h1, List.append_assoc], ?_, ?_⟩
      · intro e he
        rcases List.mem_append.mp he with he | he
        · exact h2 e he
        · exact h5 e he
      · intro a ha
        obtain ⟨h7, a', x, v, y, h8, h9⟩ := h6 a ha
        refine ⟨?_, t ++ a', x, v, y, by rw [h8, List.append_assoc], h9⟩
        intro e he
        rcases List.mem_append.mp he with he | he
        · exact h2 e he
        · exact h5 e he

theorem tries_access (bytes : List Nat) :
    ∀ w s, ∃ t, (access bytes w s).2.2 = s.2 ++ t ∧ (∀ e ∈ t, isPin e.1 ∨ e.1 = .transfer bytes) ∧
      ∀ v, (access bytes w s).1 = .ok v → Done bytes (· = v) t := by
  intro w s
  rcases access_cases bytes w s with h | ⟨x, r, hh, h, h'⟩
  · refine ⟨_, by rw [h], ?_, by rw [h]; intro v hv; cases hv⟩
    intro e he
    rw [List.mem_singleton.mp he]
    exact .inl trivial
  · have hall : ∀ e ∈ [((.cs false, some x) : Op × Option (List Nat)), (.transfer bytes, r), (.cs true, hh)],
        isPin e.1 ∨ e.1 = .transfer bytes := by
      intro e he
      simp only [List.mem_cons, List.not_mem_nil, or_false] at he
      rcases he with rfl | rfl | rfl
      · exact .inl trivial
      · exact .inr rfl
      · exact .inl trivial
    refine ⟨_, by rw [h], hall, ?_⟩
    intro v hv
    rw [h'] at hv
    cases hh with
    | none => cases hv
    | some y =>
      cases r with
      | none => cases hv
      | some v' => cases hv; exact ⟨hall, [], x, v, y, rfl, rfl⟩

theorem tries_write (r v : Nat) : Tries [r, v] (fun _ => True) (writeReg r v) := by
  intro w s
  obtain ⟨t, h1, h2, h3⟩ := tries_access [r, v] w s
  refine ⟨t, ?_, h2, ?_⟩
  · rw [← h1]
    show (M.bind (access [r, v]) _ w s).2.2 = _
    unfold M.bind
    rcases access [r, v] w s with ⟨a, s'⟩
    cases a <;> rfl
  · intro a ha
    obtain ⟨b, s1, hb, -⟩ := imu_bind_ok (Prod.ext ha rfl : writeReg r v w s = (.ok a, _))
    obtain ⟨g1, a', x, v', y, g2, -⟩ := h3 b (by rw [hb])
    exact ⟨g1, a', x, v', y, g2, trivial⟩

theorem tries_who : Tries [0x80, 0] (fun v => v.getD 1 0 = 0xE0) checkWhoAmI := by
  intro w s
  obtain ⟨t, h1, h2, h3⟩ := tries_access [0x80, 0] w s
  refine ⟨t, ?_, h2, ?_⟩
  · rw [← h1]
    show (M.bind (M.bind (access [0x80, 0]) _) _ w s).2.2 = _
    unfold M.bind
    rcases access [0x80, 0] w s with ⟨a, s'⟩
    cases a with
    | ok v =>
      dsimp only [pure, M.pure]
      split <;> rfl
    | err => rfl
    | hang => rfl
  · intro a ha
    obtain ⟨b, s1, hb, hc⟩ := imu_bind_ok (Prod.ext ha rfl : checkWhoAmI w s = (.ok a, _))
    obtain ⟨v, s2, hv, hd⟩ := imu_bind_ok hb
    have e : b = v.drop 1 := by
      change (Out.ok (v.drop 1), s2) = (Out.ok b, s1) at hd
      cases hd; rfl
    obtain ⟨g1, a', x, v', y, g2, g3⟩ := h3 v (by
      have : access [0x80, 0] w s = (.ok v, s2) := hv
      rw [this])
    refine ⟨g1, a', x, v', y, g2, ?_⟩
    by_cases hq : b.getD 0 0 = 0xE0
    · rw [g3]
      rw [e] at hq
      simpa [List.getD_eq_getElem?_getD] using hq
    · rw [if_neg hq] at hc
      cases hc

/-- The same for a whole driver function: it adds a stretch of the log with a property if it succeeds. -/
theorem writeWait_ok {fuel r v : Nat} {w : World} {s s' : Imu × Log} (h : writeWait fuel r v w s = (.ok (), s')) :
    ∃ d a, s'.2 = s.2 ++ (.delay 1, d) :: a ∧ Done [r, v] (fun _ => True) a := by
  obtain ⟨u, s1, h1, h2⟩ := imu_bind_ok h
  change (Out.ok (), s.1, s.2 ++ [(.delay 1, w s.2 (.delay 1))]) = (Out.ok u, s1) at h1
  cases h1
  obtain ⟨t, g1, -, g3⟩ := tries_waitOk (tries_write r v) fuel w (s.1, s.2 ++ [(.delay 1, w s.2 (.delay 1))])
  rw [h2] at g1 g3
  exact ⟨w s.2 (.delay 1), t, by dsimp only at g1; rw [g1]; simp, g3 () rfl⟩

/-- Functions whose log consists of measurements. -/
def Measures {α : Type} (m : M α) : Prop := ∀ w s, ∃ t, (m w s).2.2 = s.2 ++ t ∧ OnlyMeasures t

theorem onlyMeasures_append {a b : Log} (ha : OnlyMeasures a) (hb : OnlyMeasures b) : OnlyMeasures (a ++ b) := by
  intro e he
  rcases List.mem_append.mp he with he | he
  · exact ha e he
  · exact hb e he

theorem measures_pure {α : Type} (a : α) : Measures (pure a : M α) :=
  fun _ _ => ⟨[], by simp [pure, M.pure], by intro e he; cases he⟩

theorem measures_bind {α β : Type} {m : M α} {f : α → M β} (hm : Measures m) (hf : ∀ a, Measures (f a)) :
    Measures (m >>= f) := by
  intro w s
  obtain ⟨t, h1, h2⟩ := hm w s
  show ∃ t, (M.bind m f w s).2.2 = _ ∧ _
  unfold M.bind
  rcases h : m w s with ⟨r, s'⟩
  rw [h] at h1
  cases r with
  | ok a =>
    obtain ⟨t', h3, h4⟩ := hf a w s'
    exact ⟨t ++ t', by rw [h3, h1, List.append_assoc], onlyMeasures_append h2 h4⟩
  | err => exact ⟨t, h1, h2⟩
  | hang => exact ⟨t, h1, h2⟩

theorem measures_access {bytes : List Nat} (hb : bytes = [0xAF, 0, 0] ∨ bytes = [0xB7, 0, 0]) :
    Measures (access bytes) := by
  intro w s
  obtain ⟨t, h1, h2, -⟩ := tries_access bytes w s
  refine ⟨t, h1, fun e he => ?_⟩
  rcases h2 e he with h | h
  · exact .inl h
  · rcases hb with rfl | rfl
    · exact .inr (.inl h)
    · exact .inr (.inr (.inl h))

theorem measures_get : Measures Verif.Imu.get := fun _ _ => ⟨[], by simp [Verif.Imu.get], by intro e he; cases he⟩

theorem measures_set (i : Imu) : Measures (Verif.Imu.set i) :=
  fun _ _ => ⟨[], by simp [Verif.Imu.set], by intro e he; cases he⟩

theorem measures_gyro : Measures angularVelocity :=
  measures_bind (measures_bind (measures_access (.inr rfl)) fun _ => measures_pure _) fun _ =>
    measures_bind measures_get fun _ => measures_pure _

theorem measures_accel : Measures translationalAcceleration :=
  measures_bind (measures_bind (measures_access (.inl rfl)) fun _ => measures_pure _) fun _ =>
    measures_bind measures_get fun _ => measures_pure _

theorem measures_timer : Measures (note .timer) := fun w s => ⟨[(.timer, w s.2 .timer)], rfl, by
  intro e he
  rw [List.mem_singleton.mp he]
  exact .inr (.inr (.inr rfl))⟩

theorem measures_loop (n : Nat) : ∀ a g, Measures (calibrateLoop n a g) := by
  induction n with
  | zero => intro a g; exact measures_pure _
  | succ n ih =>
    intro a g
    exact measures_bind measures_accel fun _ => measures_bind measures_gyro fun _ =>
      measures_bind measures_timer fun _ => ih _ _

theorem measures_calibrate : Measures calibrate :=
  measures_bind (measures_loop _ _ _) fun _ => measures_bind measures_get fun _ => measures_set _

theorem measures_waitOk {α : Type} {m : M α} (hm : Measures m) (n : Nat) : Measures (waitOk m n) := by
  induction n with
  | zero => exact fun _ s => ⟨[], by simp [waitOk], by intro e he; cases he⟩
  | succ n ih =>
    intro w s
    obtain ⟨t, h1, h2⟩ := hm w s
    unfold waitOk
    rcases h : m w s with ⟨r, s'⟩
    rw [h] at h1
    cases r with
    | ok a => exact ⟨t, h1, h2⟩
    | hang => exact ⟨t, h1, h2⟩
    | err =>
      obtain ⟨t', h3, h4⟩ := ih w s'
      exact ⟨t ++ t', by rw [h3, h1, List.append_assoc], onlyMeasures_append h2 h4⟩

/-- **C97.** When `init` returns, the following was done, in this order and nothing else, whatever failed in between: the
sensor was reset (register 6 := 0x80); ten milliseconds passed; register 0 was read until it answered 0xE0; the six
registers were set, each at least a millisecond after what came before; then only measurements were read. -/
theorem C97_init (w : World) (fuel : Nat) (s s' : Imu × Log) (h : init fuel w s = (.ok (), s')) :
    ∃ reset d who conf rest, s'.2 = s.2 ++ reset ++ (.delay 10, d) :: who ++ conf ++ rest ∧
      Done [0x06, 0x80] (fun _ => True) reset ∧ Done [0x80, 0x00] (fun v => v.getD 1 0 = 0xE0) who ∧
      Configured [(0x06, 0x01), (0x05, 0x00), (0x7F, 0x20), (0x01, 0x06), (0x14, 0x00), (0x7F, 0x00)] conf ∧
      OnlyMeasures rest := by
  obtain ⟨u1, s1, h1, h⟩ := imu_bind_ok h
  obtain ⟨u, s2, h2, h⟩ := imu_bind_ok h
  obtain ⟨u, s3, h3, h⟩ := imu_bind_ok h
  obtain ⟨u, s4, h4, h⟩ := imu_bind_ok h
  obtain ⟨u, s5, h5, h⟩ := imu_bind_ok h
  obtain ⟨u, s6, h6, h⟩ := imu_bind_ok h
  obtain ⟨u, s7, h7, h⟩ := imu_bind_ok h
  obtain ⟨u, s8, h8, h⟩ := imu_bind_ok h
  obtain ⟨u, s9, h9, h⟩ := imu_bind_ok h
  obtain ⟨u, s10, h10, h⟩ := imu_bind_ok h
  obtain ⟨u, s11, h11, h12⟩ := imu_bind_ok h
  obtain ⟨t1, e1, -, g1⟩ := tries_waitOk (tries_write 0x06 0x80) fuel w s
  rw [h1] at e1 g1
  have e2 : s2.2 = s1.2 ++ [(.delay 10, w s1.2 (.delay 10))] := by
    have := congrArg (fun r => r.2.2) h2
    exact this.symm
  obtain ⟨t3, e3, -, g3⟩ := tries_waitOk tries_who fuel w s2
  rw [h3] at e3 g3
  obtain ⟨d4, t4, e4, g4⟩ := writeWait_ok h4
  obtain ⟨d5, t5, e5, g5⟩ := writeWait_ok h5
  obtain ⟨d6, t6, e6, g6⟩ := writeWait_ok h6
  obtain ⟨d7, t7, e7, g7⟩ := writeWait_ok h7
  obtain ⟨d8, t8, e8, g8⟩ := writeWait_ok h8
  obtain ⟨d9, t9, e9, g9⟩ := writeWait_ok h9
  have e10 : s10.2 = s9.2 := by
    have := congrArg (fun r => r.2.2) h10
    exact this.symm
  obtain ⟨t11, e11, g11⟩ := measures_waitOk measures_calibrate fuel w s10
  rw [h11] at e11
  obtain ⟨t12, e12, g12⟩ := measures_waitOk measures_calibrate fuel w s11
  rw [h12] at e12
  dsimp only at e1 e3 e11 e12
  refine ⟨t1, w s1.2 (.delay 10), t3, (.delay 1, d4) :: t4 ++ ((.delay 1, d5) :: t5 ++ ((.delay 1, d6) :: t6 ++ ((.delay 1, d7) :: t7 ++
    ((.delay 1, d8) :: t8 ++ ((.delay 1, d9) :: t9 ++ []))))), t11 ++ t12, ?_, g1 _ rfl, g3 _ rfl,
    ⟨d4, t4, _, rfl, g4, d5, t5, _, rfl, g5, d6, t6, _, rfl, g6, d7, t7, _, rfl, g7, d8, t8, _, rfl, g8, d9, t9, _, rfl,
      g9, rfl⟩, onlyMeasures_append g11 g12⟩
  rw [e12, e11, e10, e9, e8, e7, e6, e5, e4, e3, e2, e1]
  simp

/-! ## When it returns -/

theorem who_stranger {w : World} (hw : ∀ log v, w log (.transfer [0x80, 0x00]) = some v → v.getD 1 0 ≠ 0xE0)
    (s : Imu × Log) : ∀ a s', checkWhoAmI w s ≠ (.ok a, s') := by
  intro a s' h
  obtain ⟨b, s1, hb, hc⟩ := imu_bind_ok h
  obtain ⟨v, s2, hv, hd⟩ := imu_bind_ok hb
  obtain ⟨x, y, -, hv2⟩ := access_ok (show access [0x80, 0] w s = (.ok v, s2) from hv)
  have e : b = v.drop 1 := by
    change (Out.ok (v.drop 1), s2) = (Out.ok b, s1) at hd
    cases hd; rfl
  rw [if_neg (by rw [e]; simpa [List.getD_eq_getElem?_getD] using hw _ _ hv2)] at hc
  cases hc

/-- **C97**: as long as register 0 never answers 0xE0, `init` does not return, however often it tries. -/
theorem C97_stranger (w : World) (fuel : Nat) (s s' : Imu × Log)
    (hw : ∀ log v, w log (.transfer [0x80, 0x00]) = some v → v.getD 1 0 ≠ 0xE0) : init fuel w s ≠ (.ok (), s') := by
  intro h
  obtain ⟨u1, s1, -, h⟩ := imu_bind_ok h
  obtain ⟨u2, s2, -, h⟩ := imu_bind_ok h
  obtain ⟨u3, s3, h3, -⟩ := imu_bind_ok h
  have key : ∀ n s a s', waitOk checkWhoAmI n w s ≠ (.ok a, s') := by
    intro n
    induction n with
    | zero => intro s a s' h; cases h
    | succ n ih =>
      intro s a s' h
      unfold waitOk at h
      rcases hc : checkWhoAmI w s with ⟨r, s1⟩
      rw [hc] at h
      cases r with
      | ok b => exact who_stranger hw s b s1 hc
      | hang => cases h
      | err => exact ih _ _ _ h
  exact key _ _ _ _ h3

/-- Functions that succeed. -/
def Works {α : Type} (w : World) (m : M α) : Prop := ∀ s, ∃ a s', m w s = (.ok a, s')

theorem works_bind {α β : Type} {w : World} {m : M α} {f : α → M β} (hm : Works w m) (hf : ∀ a, Works w (f a)) :
    Works w (m >>= f) := by
  intro s
  obtain ⟨a, s1, h1⟩ := hm s
  obtain ⟨b, s2, h2⟩ := hf a s1
  refine ⟨b, s2, ?_⟩
  show M.bind m f w s = _
  unfold M.bind
  rw [h1]
  exact h2

theorem works_pure {α : Type} (w : World) (a : α) : Works w (pure a : M α) := fun s => ⟨a, s, rfl⟩

theorem works_note (w : World) (op : Op) : Works w (note op) := fun s => ⟨(), _, rfl⟩

theorem works_get (w : World) : Works w Verif.Imu.get := fun s => ⟨_, _, rfl⟩

theorem works_set (w : World) (i : Imu) : Works w (Verif.Imu.set i) := fun s => ⟨_, _, rfl⟩

theorem works_access {w : World} (hw : ∀ log op, (w log op).isSome) (bytes : List Nat) : Works w (access bytes) := by
  intro s
  have hp : ∀ op s, ∃ v s', perform op w s = (.ok v, s') := by
    intro op ⟨self, log⟩
    obtain ⟨v, hv⟩ := Option.isSome_iff_exists.mp (hw log op)
    refine ⟨v, (self, log ++ [(op, some v)]), ?_⟩
    unfold perform
    dsimp only
    rw [hv]
  unfold access
  obtain ⟨v1, s1, h1⟩ := hp (.cs false) s
  obtain ⟨v2, s2, h2⟩ := hp (.transfer bytes) s1
  obtain ⟨v3, s3, h3⟩ := hp (.cs true) s2
  refine ⟨v2, s3, ?_⟩
  rw [h1]
  dsimp only
  rw [h2]
  dsimp only
  rw [h3]

theorem works_waitOk {α : Type} {w : World} {m : M α} (hm : Works w m) (n : Nat) : Works w (waitOk m (n + 1)) := by
  intro s
  obtain ⟨a, s', h⟩ := hm s
  refine ⟨a, s', ?_⟩
  unfold waitOk
  rw [h]

/-- **C97**: if nothing fails and register 0 answers 0xE0, `init` returns at the first try of everything. -/
theorem C97_returns (w : World) (n : Nat) (s : Imu × Log) (hw : ∀ log op, (w log op).isSome)
    (hid : ∀ log v, w log (.transfer [0x80, 0x00]) = some v → v.getD 1 0 = 0xE0) :
    ∃ s', init (n + 1) w s = (.ok (), s') := by
  have hwr : ∀ r v, Works w (waitOk (writeReg r v) (n + 1)) := fun r v =>
    works_waitOk (works_bind (works_access hw _) fun _ => works_pure w _) n
  have hww : ∀ r v, Works w (writeWait (n + 1) r v) := fun r v => works_bind (works_note w _) fun _ => hwr r v
  have hg : Works w angularVelocity :=
    works_bind (works_bind (works_access hw _) fun _ => works_pure w _) fun _ => works_bind (works_get w) fun _ => works_pure w _
  have ha : Works w translationalAcceleration :=
    works_bind (works_bind (works_access hw _) fun _ => works_pure w _) fun _ => works_bind (works_get w) fun _ => works_pure w _
  have hl : ∀ k a g, Works w (calibrateLoop k a g) := by
    intro k
    induction k with
    | zero => intro a g; exact works_pure w _
    | succ k ih => intro a g; exact works_bind ha fun _ => works_bind hg fun _ => works_bind (works_note w _) fun _ => ih _ _
  have hc : Works w calibrate := works_bind (hl _ _ _) fun _ => works_bind (works_get w) fun _ => works_set w _
  have hwho : Works w checkWhoAmI := by
    intro s
    obtain ⟨v, s1, h1⟩ := works_access hw [0x80, 0] s
    obtain ⟨x, y, -, hv⟩ := access_ok h1
    have hv := hid _ _ hv
    refine ⟨(), s1, ?_⟩
    show M.bind (M.bind (access [0x80, 0]) _) _ w s = _
    unfold M.bind
    rw [h1]
    dsimp only [pure, M.pure]
    rw [if_pos (by simpa [List.getD_eq_getElem?_getD] using hv)]
    rfl
  obtain ⟨a, s', h⟩ : ∃ a s', init (n + 1) w s = (.ok a, s') :=
    works_bind (hwr _ _) (fun _ => works_bind (works_note w _) fun _ => works_bind (works_waitOk hwho n) fun _ =>
      works_bind (hww _ _) fun _ => works_bind (hww _ _) fun _ => works_bind (hww _ _) fun _ => works_bind (hww _ _) fun _ =>
      works_bind (hww _ _) fun _ => works_bind (hww _ _) fun _ => works_bind (works_set w _) fun _ =>
      works_bind (works_waitOk hc n) fun _ => works_waitOk hc n) s
  exact ⟨s', h⟩

/-- Such a sensor: it answers 0xE0 to everything. -/
example : ∃ s', init 1 (fun _ _ => some [0, 0xE0]) (⟨0, 0⟩, []) = (.ok (), s') :=
  C97_returns _ 0 _ (fun _ _ => rfl) (fun _ _ h => by cases h; rfl)

/-- And one that answers zeros. -/
example (fuel : Nat) (s' : Imu × Log) : init fuel (fun _ _ => some [0, 0]) (⟨0, 0⟩, []) ≠ (.ok (), s') :=
  C97_stranger _ _ _ _ (fun _ _ h => by cases h; decide)

end Verif.Props
