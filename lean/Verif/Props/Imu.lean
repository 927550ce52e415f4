import Verif.Spec.Imu
import Mathlib.Tactic.Ring
import Mathlib.Tactic.Linarith
import Mathlib.Tactic.NormNum
/-!
# C61, C62: the inertial sensor
-/
namespace Verif.Props
open Verif Verif.Imu Verif.Spec

/-! ## C61 -/

/-- Logs made of complete accesses, failed attempts to start one, and other operations. -/
inductive Chunks : Log → Prop
  | nil : Chunks []
  | other (op : Op) (r : Option (List Nat)) (m : Log) (h1 : ¬ isPin op) (h2 : ∀ b, op ≠ .transfer b) :
      Chunks m → Chunks ((op, r) :: m)
  | fail (m : Log) : Chunks m → Chunks ((.cs false, none) :: m)
  | full (x : List Nat) (b : List Nat) (r h : Option (List Nat)) (m : Log) :
      Chunks m → Chunks ((.cs false, some x) :: (.transfer b, r) :: (.cs true, h) :: m)

theorem Chunks.append {a b : Log} (ha : Chunks a) (hb : Chunks b) : Chunks (a ++ b) := by
  induction ha with
  | nil => exact hb
  | other op r m h1 h2 _ ih => exact .other op r _ h1 h2 ih
  | fail m _ ih => exact .fail _ ih
  | full x b r h m _ ih => exact .full x b r h _ ih

theorem Chunks.framed {m : Log} (hm : Chunks m) : TransfersFramed m := by
  induction hm with
  | nil => intro a b r c h; exact absurd h (by simp)
  | other op r m h1 h2 _ ih =>
    intro a b r' c h
    match a with
    | [] => simp only [List.nil_append, List.cons.injEq, Prod.mk.injEq] at h; exact absurd h.1.1 (h2 b)
    | p :: a =>
      simp only [List.cons_append, List.cons.injEq] at h
      obtain ⟨⟨a', x, rfl⟩, h'⟩ := ih a b r' c h.2
      exact ⟨⟨p :: a', x, rfl⟩, h'⟩
  | fail m _ ih =>
    intro a b r' c h
    match a with
    | [] => simp at h
    | p :: a =>
      simp only [List.cons_append, List.cons.injEq] at h
      obtain ⟨⟨a', x, rfl⟩, h'⟩ := ih a b r' c h.2
      exact ⟨⟨p :: a', x, rfl⟩, h'⟩
  | full x b r hh m _ ih =>
    intro a b' r' c h
    match a with
    | [] => simp at h
    | [p] =>
      simp only [List.cons_append, List.nil_append, List.cons.injEq] at h
      exact ⟨⟨[], x, by rw [← h.1]; rfl⟩, hh, m, h.2.2.symm⟩
    | [p, q] => simp at h
    | p :: q :: s :: a =>
      simp only [List.cons_append, List.cons.injEq] at h
      obtain ⟨⟨a', y, rfl⟩, h'⟩ := ih a b' r' c h.2.2.2
      exact ⟨⟨p :: q :: s :: a', y, rfl⟩, h'⟩

theorem Chunks.released {m : Log} (hm : Chunks m) : Released m := by
  induction hm with
  | nil => intro a e c h; exact absurd h (by simp)
  | other op r m h1 h2 _ ih =>
    intro a e c h hp hc hs
    match a with
    | [] => simp only [List.nil_append, List.cons.injEq] at h; rw [← h.1] at hp; exact absurd hp h1
    | p :: a =>
      simp only [List.cons_append, List.cons.injEq] at h
      exact ih a e c h.2 hp hc hs
  | fail m _ ih =>
    intro a e c h hp hc hs
    match a with
    | [] => simp only [List.nil_append, List.cons.injEq] at h; rw [← h.1] at hs; cases hs
    | p :: a =>
      simp only [List.cons_append, List.cons.injEq] at h
      exact ih a e c h.2 hp hc hs
  | full x b r hh m _ ih =>
    intro a e c h hp hc hs
    match a with
    | [] =>
      simp only [List.nil_append, List.cons.injEq] at h
      exact absurd trivial (hc (.cs true, hh) (by rw [← h.2]; simp))
    | [p] =>
      simp only [List.cons_append, List.nil_append, List.cons.injEq] at h
      rw [← h.2.1] at hp
      exact absurd hp id
    | [p, q] =>
      simp only [List.cons_append, List.nil_append, List.cons.injEq] at h
      rw [← h.2.2.1]
    | p :: q :: s :: a =>
      simp only [List.cons_append, List.cons.injEq] at h
      exact ih a e c h.2.2.2 hp hc hs

/-- A driver function that only adds such operations to the log. -/
def Tidy {α : Type} (m : M α) : Prop := ∀ w s, ∃ t, (m w s).2.2 = s.2 ++ t ∧ Chunks t

theorem tidy_pure {α : Type} (a : α) : Tidy (pure a : M α) := fun _ _ => ⟨[], by simp [pure, M.pure], .nil⟩

theorem tidy_bind {α β : Type} {m : M α} {f : α → M β} (hm : Tidy m) (hf : ∀ a, Tidy (f a)) : Tidy (m >>= f) := by
  intro w s
  obtain ⟨t, h1, h2⟩ := hm w s
  show ∃ t, (M.bind m f w s).2.2 = _ ∧ _
  unfold M.bind
  rcases h : m w s with ⟨r, s'⟩
  rw [h] at h1
  cases r with
  | ok a =>
    obtain ⟨t', h3, h4⟩ := hf a w s'
    exact ⟨t ++ t', by rw [h3, h1, List.append_assoc], h2.append h4⟩
  | err => exact ⟨t, h1, h2⟩
  | hang => exact ⟨t, h1, h2⟩

theorem tidy_note {op : Op} (h1 : ¬ isPin op) (h2 : ∀ b, op ≠ .transfer b) : Tidy (note op) :=
  fun w s => ⟨[(op, w s.2 op)], rfl, .other _ _ _ h1 h2 .nil⟩

theorem tidy_get : Tidy get := fun _ s => ⟨[], by simp [Verif.Imu.get], .nil⟩

theorem tidy_set (i : Imu) : Tidy (set i) := fun _ s => ⟨[], by simp [Verif.Imu.set], .nil⟩

/-- What one access does. -/
theorem access_cases (bytes : List Nat) (w : World) (s : Imu × Log) :
    (access bytes w s = (.err, s.1, s.2 ++ [(.cs false, none)])) ∨
    ∃ x r h, (access bytes w s).2 = (s.1, s.2 ++ [(.cs false, some x), (.transfer bytes, r), (.cs true, h)]) ∧
      (access bytes w s).1 = (match h, r with
        | some _, some v => .ok v
        | _, _ => .err) := by
  obtain ⟨self, log⟩ := s
  unfold access perform
  dsimp only
  cases h1 : w log (.cs false) with
  | none => left; rfl
  | some x =>
    right
    dsimp only
    cases h2 : w (log ++ [(.cs false, some x)]) (.transfer bytes) with
    | none =>
      dsimp only
      cases h3 : w (log ++ [(.cs false, some x)] ++ [(.transfer bytes, none)]) (.cs true) with
      | none => exact ⟨x, none, none, by simp, rfl⟩
      | some y => exact ⟨x, none, some y, by simp, rfl⟩
    | some v =>
      dsimp only
      cases h3 : w (log ++ [(.cs false, some x)] ++ [(.transfer bytes, some v)]) (.cs true) with
      | none => exact ⟨x, some v, none, by simp, rfl⟩
      | some y => exact ⟨x, some v, some y, by simp, rfl⟩

theorem tidy_access (bytes : List Nat) : Tidy (access bytes) := by
  intro w s
  rcases access_cases bytes w s with h | ⟨x, r, hh, h, -⟩
  · exact ⟨_, by rw [h], .fail _ .nil⟩
  · exact ⟨_, by rw [h], .full x bytes r hh _ .nil⟩

theorem tidy_waitOk {α : Type} {m : M α} (hm : Tidy m) (n : Nat) : Tidy (waitOk m n) := by
  induction n with
  | zero => exact fun _ s => ⟨[], by simp [waitOk], .nil⟩
  | succ n ih =>
    intro w s
    obtain ⟨t, h1, h2⟩ := hm w s
    unfold waitOk
    rcases h : m w s with ⟨r, s'⟩
    rw [h] at h1
    cases r with
    | ok a => exact ⟨t, h1, h2⟩
    | hang => exact ⟨t, h1, h2⟩
    | err =>
      obtain ⟨t', h3, h4⟩ := ih w s'
      exact ⟨t ++ t', by rw [h3, h1, List.append_assoc], h2.append h4⟩

theorem tidy_writeReg (a d : Nat) : Tidy (writeReg a d) := tidy_bind (tidy_access _) fun _ => tidy_pure _

theorem tidy_readReg (a n : Nat) : Tidy (readReg a n) := tidy_bind (tidy_access _) fun _ => tidy_pure _

theorem tidy_gyro : Tidy angularVelocity := tidy_bind (tidy_readReg _ _) fun _ => tidy_bind tidy_get fun _ => tidy_pure _

theorem tidy_accel : Tidy translationalAcceleration :=
  tidy_bind (tidy_readReg _ _) fun _ => tidy_bind tidy_get fun _ => tidy_pure _

theorem tidy_loop (n : Nat) : ∀ a g, Tidy (calibrateLoop n a g) := by
  induction n with
  | zero => intro a g; exact tidy_pure _
  | succ n ih =>
    intro a g
    exact tidy_bind tidy_accel fun _ => tidy_bind tidy_gyro fun _ => tidy_bind (tidy_note id (by simp)) fun _ => ih _ _

theorem tidy_calibrate : Tidy calibrate :=
  tidy_bind (tidy_loop _ _ _) fun _ => tidy_bind tidy_get fun _ => tidy_set _

theorem tidy_writeWait (f r v : Nat) : Tidy (writeWait f r v) :=
  tidy_bind (tidy_note id (by simp)) fun _ => tidy_waitOk (tidy_writeReg _ _) _

theorem tidy_who : Tidy checkWhoAmI := by
  refine tidy_bind (tidy_readReg _ _) fun b => ?_
  split
  · exact tidy_pure _
  · exact fun _ s => ⟨[], by simp, .nil⟩

theorem tidy_init (fuel : Nat) : Tidy (init fuel) :=
  tidy_bind (tidy_waitOk (tidy_writeReg _ _) _) fun _ => tidy_bind (tidy_note id (by simp)) fun _ =>
  tidy_bind (tidy_waitOk tidy_who _) fun _ => tidy_bind (tidy_writeWait _ _ _) fun _ =>
  tidy_bind (tidy_writeWait _ _ _) fun _ => tidy_bind (tidy_writeWait _ _ _) fun _ =>
  tidy_bind (tidy_writeWait _ _ _) fun _ => tidy_bind (tidy_writeWait _ _ _) fun _ =>
  tidy_bind (tidy_writeWait _ _ _) fun _ => tidy_bind (tidy_set _) fun _ =>
  tidy_bind (tidy_waitOk tidy_calibrate _) fun _ => tidy_waitOk tidy_calibrate _

theorem run_chunks (w : World) (calls : List ImuCall) (s : Imu × Log) :
    ∃ m, (imuRun w calls s).2 = s.2 ++ m ∧ Chunks m := by
  induction calls generalizing s with
  | nil => exact ⟨[], by simp [imuRun], .nil⟩
  | cons c l ih =>
    have h1 : ∃ t, (imuStep w s c).2 = s.2 ++ t ∧ Chunks t := by
      cases c with
      | gyro => exact tidy_gyro w s
      | accel => exact tidy_accel w s
      | calibrate => exact tidy_calibrate w s
      | init fuel => exact tidy_init fuel w s
    obtain ⟨t, h2, h3⟩ := h1
    obtain ⟨t', h4, h5⟩ := ih (imuStep w s c)
    exact ⟨t ++ t', by rw [← List.append_assoc, ← h2]; exact h4, h3.append h5⟩

/-- **C61.** Over any sequence of calls, whatever fails: every transfer happens directly after chip select was driven low
and is directly followed by driving it high, and when the calls have returned the last operation on chip select was to
drive it high, unless the last attempt to drive it failed. (Also in the middle of an initialisation that never ends: take
any fuel.) -/
theorem C61_chip_select (w : World) (calls : List ImuCall) (s : Imu × Log) :
    ∃ m, (imuRun w calls s).2 = s.2 ++ m ∧ TransfersFramed m ∧ Released m := by
  obtain ⟨m, h1, h2⟩ := run_chunks w calls s
  exact ⟨m, h1, h2.framed, h2.released⟩

/-- **C61**, one access: a failed transfer is reported as an error, but only after chip select was driven high. -/
theorem C61_failed_transfer (w : World) (bytes : List Nat) (i : Imu) (log : Log) (x : List Nat)
    (h1 : w log (.cs false) = some x) (h2 : w (log ++ [(.cs false, some x)]) (.transfer bytes) = none) :
    ∃ h, access bytes w (i, log) = (.err, i, log ++ [(.cs false, some x), (.transfer bytes, none), (.cs true, h)]) := by
  refine ⟨w (log ++ [(.cs false, some x)] ++ [(.transfer bytes, none)]) (.cs true), ?_⟩
  unfold access perform
  dsimp only
  rw [h1]
  dsimp only
  rw [h2]
  dsimp only
  cases w (log ++ [(.cs false, some x)] ++ [(.transfer bytes, none)]) (.cs true) <;> simp

/-- A world in which every transfer fails but the pin works. -/
example : (access [0x37] (fun _ op => match op with | .transfer _ => none | _ => some []) (⟨0, 0⟩, [])).2.2 =
    [(.cs false, some []), (.transfer [0x37], none), (.cs true, some [])] := rfl

/-! ## C62 -/

/-- The bytes the world answers are bytes. -/
def BytesWorld (w : World) : Prop := ∀ log op r, w log op = some r → IsBytes r

theorem connect_eq {h l : Nat} (hh : h < 256) (hl : l < 256) : connect h l = signed16 h l := by
  unfold connect signed16
  have e : (h <<< 8 ||| l) = h * 256 + l := by
    rw [← Nat.shiftLeft_add_eq_or_of_lt (by omega : l < 2 ^ 8), Nat.shiftLeft_eq]
  have e2 : (h <<< 8 ||| l) % 2 ^ 16 = h * 256 + l := by rw [e]; omega
  simp only [e2]
  split <;> split <;> omega

theorem getD_lt {r : List Nat} (hr : IsBytes r) (k : Nat) : r.getD k 0 < 256 := by
  rw [List.getD_eq_getElem?_getD]
  cases h : r[k]? with
  | none => simp
  | some b => exact hr b (List.mem_of_getElem? h)

/-- Results of the world recorded by one access. -/
theorem access_ok {bytes : List Nat} {w : World} {s s' : Imu × Log} {v : List Nat} (h : access bytes w s = (.ok v, s')) :
    ∃ x y, s' = (s.1, s.2 ++ [(.cs false, some x), (.transfer bytes, some v), (.cs true, some y)]) ∧
      w (s.2 ++ [(.cs false, some x)]) (.transfer bytes) = some v := by
  obtain ⟨self, log⟩ := s
  revert h
  unfold access perform
  dsimp only
  cases h1 : w log (.cs false) with
  | none => intro h; cases h
  | some x =>
    dsimp only
    cases h2 : w (log ++ [(.cs false, some x)]) (.transfer bytes) with
    | none =>
      dsimp only
      cases h3 : w (log ++ [(.cs false, some x)] ++ [(.transfer bytes, none)]) (.cs true) <;> intro h <;> cases h
    | some v' =>
      dsimp only
      cases h3 : w (log ++ [(.cs false, some x)] ++ [(.transfer bytes, some v')]) (.cs true) with
      | none => intro h; cases h
      | some y => intro h; cases h; exact ⟨x, y, by simp, h2⟩

/-- Reading two bytes: nothing but the log changes; when it succeeds the log has the answer. -/
theorem read_cases (a b : Nat) (hb : a ||| 0x80 = b) (w : World) (s : Imu × Log) :
    ((readReg a 2 w s).1 = .err ∧ (readReg a 2 w s).2.1 = s.1) ∨
    ∃ x v y, readReg a 2 w s = (.ok (v.drop 1), s.1, s.2 ++ [(.cs false, some x), (.transfer [b, 0, 0], some v),
      (.cs true, some y)]) ∧ w (s.2 ++ [(.cs false, some x)]) (.transfer [b, 0, 0]) = some v := by
  have e : readReg a 2 w s = match access [b, 0, 0] w s with
      | (.ok v, s) => (.ok (v.drop 1), s)
      | (.err, s) => (.err, s)
      | (.hang, s) => (.hang, s) := by
    show M.bind (access [a ||| 0x80, 0, 0]) _ w s = _
    rw [hb]
    unfold M.bind
    rcases access [b, 0, 0] w s with ⟨r, s'⟩
    cases r <;> rfl
  rw [e]
  rcases h : access [b, 0, 0] w s with ⟨r, s'⟩
  rcases access_cases [b, 0, 0] w s with h1 | ⟨x, r', h', h1, h2⟩
  · rw [h] at h1; cases h1; left; exact ⟨rfl, rfl⟩
  · cases r with
    | ok v =>
      right
      obtain ⟨x, y, h3, h4⟩ := access_ok h
      exact ⟨x, v, y, by rw [h3], h4⟩
    | err => rw [h] at h1; left; exact ⟨rfl, by have := congrArg Prod.fst h1; exact this⟩
    | hang => rw [h] at h2; revert h2; cases h' <;> cases r' <;> intro h2 <;> cases h2

theorem connect_drop {w : World} (hw : BytesWorld w) {log : Log} {op : Op} {v : List Nat} (h : w log op = some v) :
    connect ((v.drop 1).getD 0 0) ((v.drop 1).getD 1 0) = signed16 (v.getD 1 0) (v.getD 2 0) := by
  have e0 : (v.drop 1).getD 0 0 = v.getD 1 0 := by simp [List.getD_eq_getElem?_getD]
  have e1 : (v.drop 1).getD 1 0 = v.getD 2 0 := by simp [List.getD_eq_getElem?_getD]
  rw [e0, e1]
  exact connect_eq (getD_lt (hw _ _ _ h) 1) (getD_lt (hw _ _ _ h) 2)

theorem gyro_cases {w : World} (hw : BytesWorld w) (s : Imu × Log) :
    ((angularVelocity w s).1 = .err ∧ (angularVelocity w s).2.1 = s.1) ∨
    ∃ t v, angularVelocity w s = (.ok (gyroValue v - s.1.gyroOffset), s.1, s.2 ++ t) ∧
      answers 0xB7 t = [v] ∧ answers 0xAF t = [] ∧ ∃ l, w l (.transfer [0xB7, 0, 0]) = some v := by
  have e : angularVelocity w s = match readReg 0x37 2 w s with
      | (.ok b, s) => (.ok (toGyro (connect (b.getD 0 0) (b.getD 1 0)) - s.1.gyroOffset), s)
      | (.err, s) => (.err, s)
      | (.hang, s) => (.hang, s) := by
    show M.bind _ _ w s = _
    unfold M.bind
    rcases readReg 0x37 2 w s with ⟨r, s'⟩
    cases r <;> rfl
  rcases read_cases 0x37 0xB7 rfl w s with ⟨h1, h2⟩ | ⟨x, v, y, h1, h2⟩
  · left
    rw [e]
    rcases h : readReg 0x37 2 w s with ⟨r, s'⟩
    rw [h] at h1 h2
    cases h1
    exact ⟨rfl, h2⟩
  · right
    refine ⟨[(.cs false, some x), (.transfer [0xB7, 0, 0], some v), (.cs true, some y)], v, ?_, ?_, ?_, _, h2⟩
    · rw [e, h1]
      dsimp only
      rw [connect_drop hw h2]
      unfold toGyro gyroValue
      congr 2
      ring
    · simp [answers]
    · simp [answers]

theorem accel_cases {w : World} (hw : BytesWorld w) (s : Imu × Log) :
    ((translationalAcceleration w s).1 = .err ∧ (translationalAcceleration w s).2.1 = s.1) ∨
    ∃ t v, translationalAcceleration w s = (.ok (accelValue v - s.1.accelOffset), s.1, s.2 ++ t) ∧
      answers 0xAF t = [v] ∧ answers 0xB7 t = [] ∧ ∃ l, w l (.transfer [0xAF, 0, 0]) = some v := by
  have e : translationalAcceleration w s = match readReg 0x2F 2 w s with
      | (.ok b, s) => (.ok (-toAccel (connect (b.getD 0 0) (b.getD 1 0)) - s.1.accelOffset), s)
      | (.err, s) => (.err, s)
      | (.hang, s) => (.hang, s) := by
    show M.bind _ _ w s = _
    unfold M.bind
    rcases readReg 0x2F 2 w s with ⟨r, s'⟩
    cases r <;> rfl
  rcases read_cases 0x2F 0xAF rfl w s with ⟨h1, h2⟩ | ⟨x, v, y, h1, h2⟩
  · left
    rw [e]
    rcases h : readReg 0x2F 2 w s with ⟨r, s'⟩
    rw [h] at h1 h2
    cases h1
    exact ⟨rfl, h2⟩
  · right
    refine ⟨[(.cs false, some x), (.transfer [0xAF, 0, 0], some v), (.cs true, some y)], v, ?_, ?_, ?_, _, h2⟩
    · rw [e, h1]
      dsimp only
      rw [connect_drop hw h2]
      unfold toAccel accelValue
      congr 2
      ring
    · simp [answers]
    · simp [answers]

theorem answers_append (f : Nat) (a b : Log) : answers f (a ++ b) = answers f a ++ answers f b := by
  simp [answers]

/-- The loop: it ends, changes nothing but the log, and adds up what it reads. -/
theorem loop_cases {w : World} (hw : BytesWorld w) (n : Nat) : ∀ (a g : ℝ) (s : Imu × Log),
    ((calibrateLoop n a g w s).1 = .err ∧ (calibrateLoop n a g w s).2.1 = s.1) ∨
    ∃ t, calibrateLoop n a g w s = (.ok (a + ((answers 0xAF t).map accelValue).sum - n * s.1.accelOffset,
        g + ((answers 0xB7 t).map gyroValue).sum - n * s.1.gyroOffset), s.1, s.2 ++ t) ∧
      (answers 0xAF t).length = n ∧ (answers 0xB7 t).length = n ∧
      (∀ v ∈ answers 0xAF t, ∃ l, w l (.transfer [0xAF, 0, 0]) = some v) ∧
      (∀ v ∈ answers 0xB7 t, ∃ l, w l (.transfer [0xB7, 0, 0]) = some v) := by
  induction n with
  | zero =>
    intro a g s
    right
    refine ⟨[], ?_, rfl, rfl, by simp [answers], by simp [answers]⟩
    show (Out.ok (a, g), s) = _
    simp [answers]
  | succ n ih =>
    intro a g s
    have e : calibrateLoop (n + 1) a g w s = match translationalAcceleration w s with
        | (.ok x, s) => (match angularVelocity w s with
          | (.ok y, s) => calibrateLoop n (a + x) (g + y) w (s.1, s.2 ++ [(.timer, w s.2 .timer)])
          | (.err, s) => (.err, s)
          | (.hang, s) => (.hang, s))
        | (.err, s) => (.err, s)
        | (.hang, s) => (.hang, s) := by
      show M.bind _ _ w s = _
      unfold M.bind
      rcases translationalAcceleration w s with ⟨r, s'⟩
      cases r with
      | ok x =>
        show M.bind _ _ w s' = _
        unfold M.bind
        dsimp only
        rcases angularVelocity w s' with ⟨r2, s''⟩
        cases r2 <;> rfl
      | err => rfl
      | hang => rfl
    rw [e]
    rcases accel_cases hw s with ⟨h1, h2⟩ | ⟨t1, v1, h1, h2, h3, h4⟩
    · left
      rcases h : translationalAcceleration w s with ⟨r, s'⟩
      rw [h] at h1 h2
      cases h1
      exact ⟨rfl, h2⟩
    · rw [h1]
      dsimp only
      rcases gyro_cases hw (s.1, s.2 ++ t1) with ⟨h5, h6⟩ | ⟨t2, v2, h5, h6, h7, h8⟩
      · left
        rcases h : angularVelocity w (s.1, s.2 ++ t1) with ⟨r, s'⟩
        rw [h] at h5 h6
        cases h5
        exact ⟨rfl, h6⟩
      · rw [h5]
        dsimp only
        rcases ih (a + (accelValue v1 - s.1.accelOffset)) (g + (gyroValue v2 - s.1.gyroOffset))
          (s.1, s.2 ++ t1 ++ t2 ++ [(.timer, w (s.2 ++ t1 ++ t2) .timer)]) with h9 | ⟨t, h9, h10, h11, h12, h13⟩
        · left; exact h9
        · right
          have ea : answers 0xAF (t1 ++ (t2 ++ ((.timer, w (s.2 ++ t1 ++ t2) .timer) :: t))) = v1 :: answers 0xAF t := by
            rw [answers_append, answers_append, h2, h7]; rfl
          have eg : answers 0xB7 (t1 ++ (t2 ++ ((.timer, w (s.2 ++ t1 ++ t2) .timer) :: t))) = v2 :: answers 0xB7 t := by
            rw [answers_append, answers_append, h3, h6]; rfl
          refine ⟨t1 ++ (t2 ++ ((.timer, w (s.2 ++ t1 ++ t2) .timer) :: t)), ?_, ?_, ?_, ?_, ?_⟩
          · rw [h9, ea, eg, List.map_cons, List.map_cons, List.sum_cons, List.sum_cons]
            refine Prod.ext (congrArg Out.ok (Prod.ext ?_ ?_)) (Prod.ext rfl ?_)
            · push_cast; ring
            · push_cast; ring
            · simp
          · rw [ea]; simpa using h10
          · rw [eg]; simpa using h11
          · rw [ea]; intro v hv
            rcases List.mem_cons.1 hv with rfl | hv
            · exact h4
            · exact h12 v hv
          · rw [eg]; intro v hv
            rcases List.mem_cons.1 hv with rfl | hv
            · exact h8
            · exact h13 v hv

theorem calibrate_eq (w : World) (s : Imu × Log) :
    calibrate w s = match calibrateLoop 1000 0 0 w s with
    | (.ok (a, g), s) => (.ok (), ⟨s.1.accelOffset + a / 1000, s.1.gyroOffset + g / 1000⟩, s.2)
    | (.err, s) => (.err, s)
    | (.hang, s) => (.hang, s) := by
  show M.bind _ _ w s = _
  unfold M.bind
  rcases calibrateLoop 1000 0 0 w s with ⟨r, s'⟩
  cases r <;> rfl

theorem calibrate_cases {w : World} (hw : BytesWorld w) (s : Imu × Log) :
    ((calibrate w s).1 = .err ∧ (calibrate w s).2.1 = s.1) ∨
    ∃ t, calibrate w s = (.ok (), ⟨((answers 0xAF t).map accelValue).sum / 1000, ((answers 0xB7 t).map gyroValue).sum / 1000⟩,
        s.2 ++ t) ∧ (answers 0xAF t).length = 1000 ∧ (answers 0xB7 t).length = 1000 ∧
      (∀ v ∈ answers 0xAF t, ∃ l, w l (.transfer [0xAF, 0, 0]) = some v) ∧
      (∀ v ∈ answers 0xB7 t, ∃ l, w l (.transfer [0xB7, 0, 0]) = some v) := by
  rw [calibrate_eq]
  rcases loop_cases hw 1000 0 0 s with ⟨h1, h2⟩ | ⟨t, h1, h2, h3, h4, h5⟩
  · left
    rcases h : calibrateLoop 1000 0 0 w s with ⟨r, s'⟩
    rw [h] at h1 h2
    cases h1
    exact ⟨rfl, h2⟩
  · right
    refine ⟨t, ?_, h2, h3, h4, h5⟩
    rw [h1]
    dsimp only
    refine Prod.ext rfl (Prod.ext ?_ rfl)
    dsimp only
    rw [Imu.mk.injEq]
    constructor <;> (push_cast; ring)

/-- **C62, calibration.** A successful calibration makes exactly 1000 readings of each quantity and sets each offset to the
mean of the uncorrected values read, whatever the offsets were before. -/
theorem C62_mean {w : World} (hw : BytesWorld w) {i i' : Imu} {log log' : Log}
    (h : calibrate w (i, log) = (.ok (), i', log')) :
    ∃ t, log' = log ++ t ∧ (answers 0xAF t).length = 1000 ∧ (answers 0xB7 t).length = 1000 ∧
      i'.accelOffset = ((answers 0xAF t).map accelValue).sum / 1000 ∧
      i'.gyroOffset = ((answers 0xB7 t).map gyroValue).sum / 1000 := by
  rcases calibrate_cases hw (i, log) with ⟨h1, -⟩ | ⟨t, h1, h2, h3, -, -⟩
  · rw [h] at h1; cases h1
  · rw [h] at h1
    cases h1
    exact ⟨t, rfl, h2, h3, rfl, rfl⟩

/-- **C62, failure.** A calibration always ends; one that does not succeed leaves both offsets as they were. -/
theorem C62_atomic {w : World} (hw : BytesWorld w) (s : Imu × Log) :
    (calibrate w s).1 = .ok () ∨ ((calibrate w s).1 = .err ∧ (calibrate w s).2.1 = s.1) := by
  rcases calibrate_cases hw s with h | ⟨t, h, -⟩
  · right; exact h
  · left; rw [h]

/-- **C62, reading.** A reading is the value answered minus the offset, and changes no offset. -/
theorem C62_gyro {w : World} (hw : BytesWorld w) {s s' : Imu × Log} {v : ℝ} (h : angularVelocity w s = (.ok v, s')) :
    s'.1 = s.1 ∧ ∃ t r, s'.2 = s.2 ++ t ∧ answers 0xB7 t = [r] ∧ v = gyroValue r - s.1.gyroOffset := by
  rcases gyro_cases hw s with ⟨h1, -⟩ | ⟨t, r, h1, h2, -⟩
  · rw [h] at h1; cases h1
  · rw [h] at h1; cases h1; exact ⟨rfl, t, r, rfl, h2, rfl⟩

theorem C62_accel {w : World} (hw : BytesWorld w) {s s' : Imu × Log} {v : ℝ}
    (h : translationalAcceleration w s = (.ok v, s')) :
    s'.1 = s.1 ∧ ∃ t r, s'.2 = s.2 ++ t ∧ answers 0xAF t = [r] ∧ v = accelValue r - s.1.accelOffset := by
  rcases accel_cases hw s with ⟨h1, -⟩ | ⟨t, r, h1, h2, -⟩
  · rw [h] at h1; cases h1
  · rw [h] at h1; cases h1; exact ⟨rfl, t, r, rfl, h2, rfl⟩

theorem sum_const {f : List Nat → ℝ} {c : ℝ} {l : List (List Nat)} (h : ∀ v ∈ l, f v = c) : (l.map f).sum = l.length * c := by
  induction l with
  | nil => simp
  | cons a l ih =>
    rw [List.map_cons, List.sum_cons, ih (fun v hv => h v (List.mem_cons_of_mem _ hv)), h a List.mem_cons_self,
      List.length_cons]
    push_cast
    ring

/-- **C62, at rest.** If the sensor always answers the same, then after a successful calibration, whatever the offsets
were, both quantities read zero. -/
theorem C62_zero {w : World} (hw : BytesWorld w) {rg ra : List Nat}
    (hg : ∀ l v, w l (.transfer [0xB7, 0, 0]) = some v → v = rg)
    (ha : ∀ l v, w l (.transfer [0xAF, 0, 0]) = some v → v = ra) {s s' : Imu × Log} (h : calibrate w s = (.ok (), s'))
    (log : Log) {v : ℝ} :
    (∀ s'', angularVelocity w (s'.1, log) = (.ok v, s'') → v = 0) ∧
    (∀ s'', translationalAcceleration w (s'.1, log) = (.ok v, s'') → v = 0) := by
  rcases calibrate_cases hw s with ⟨h1, -⟩ | ⟨t, h1, h2, h3, h4, h5⟩
  · rw [h] at h1; cases h1
  rw [h] at h1
  have e : s' = _ := congrArg Prod.snd h1
  have eg : s'.1.gyroOffset = gyroValue rg := by
    rw [e]
    show (List.map gyroValue (answers 0xB7 t)).sum / 1000 = _
    rw [sum_const (c := gyroValue rg) fun v hv => by obtain ⟨l, hl⟩ := h5 v hv; rw [hg l v hl], h3]
    push_cast; ring
  have ea : s'.1.accelOffset = accelValue ra := by
    rw [e]
    show (List.map accelValue (answers 0xAF t)).sum / 1000 = _
    rw [sum_const (c := accelValue ra) fun v hv => by obtain ⟨l, hl⟩ := h4 v hv; rw [ha l v hl], h2]
    push_cast; ring
  constructor
  · intro s'' h
    rcases gyro_cases hw (s'.1, log) with ⟨h6, -⟩ | ⟨t, r, h6, -, -, l, hl⟩
    · rw [h] at h6; cases h6
    · rw [h] at h6
      have ev := congrArg Prod.fst h6
      dsimp only at ev
      rw [Out.ok.injEq] at ev
      rw [ev, hg l r hl, eg, sub_self]
  · intro s'' h
    rcases accel_cases hw (s'.1, log) with ⟨h6, -⟩ | ⟨t, r, h6, -, -, l, hl⟩
    · rw [h] at h6; cases h6
    · rw [h] at h6
      have ev := congrArg Prod.fst h6
      dsimp only at ev
      rw [Out.ok.injEq] at ev
      rw [ev, ha l r hl, ea, sub_self]

theorem bind_ok {α β : Type} {m : M α} {f : α → M β} {w : World} {s s' : Imu × Log} {b : β}
    (h : (m >>= f) w s = (.ok b, s')) : ∃ a s1, m w s = (.ok a, s1) ∧ f a w s1 = (.ok b, s') := by
  change M.bind m f w s = _ at h
  unfold M.bind at h
  rcases hm : m w s with ⟨r, s1⟩
  rw [hm] at h
  cases r with
  | ok a => exact ⟨a, s1, rfl, h⟩
  | err => cases h
  | hang => cases h

theorem waitOk_ok {α : Type} {m : M α} {w : World} {s' : Imu × Log} {a : α} (n : Nat) : ∀ {s : Imu × Log},
    waitOk m n w s = (.ok a, s') → ∃ s1, m w s1 = (.ok a, s') := by
  induction n with
  | zero => intro s h; cases h
  | succ n ih =>
    intro s h
    unfold waitOk at h
    rcases hm : m w s with ⟨r, s1⟩
    rw [hm] at h
    cases r with
    | ok a' => cases h; exact ⟨s, hm⟩
    | err => exact ih h
    | hang => cases h

/-- **C62, initialisation.** When `init` returns, the offsets are the means of the last 1000 readings it made. -/
theorem C62_init {w : World} (hw : BytesWorld w) {fuel : Nat} {s s' : Imu × Log} (h : init fuel w s = (.ok (), s')) :
    ∃ pre t, s'.2 = pre ++ t ∧ (answers 0xAF t).length = 1000 ∧ (answers 0xB7 t).length = 1000 ∧
      s'.1.accelOffset = ((answers 0xAF t).map accelValue).sum / 1000 ∧
      s'.1.gyroOffset = ((answers 0xB7 t).map gyroValue).sum / 1000 := by
  obtain ⟨_, _, -, h⟩ := bind_ok h
  obtain ⟨_, _, -, h⟩ := bind_ok h
  obtain ⟨_, _, -, h⟩ := bind_ok h
  obtain ⟨_, _, -, h⟩ := bind_ok h
  obtain ⟨_, _, -, h⟩ := bind_ok h
  obtain ⟨_, _, -, h⟩ := bind_ok h
  obtain ⟨_, _, -, h⟩ := bind_ok h
  obtain ⟨_, _, -, h⟩ := bind_ok h
  obtain ⟨_, _, -, h⟩ := bind_ok h
  obtain ⟨_, _, -, h⟩ := bind_ok h
  obtain ⟨_, _, -, h⟩ := bind_ok h
  obtain ⟨⟨i1, log1⟩, h⟩ := waitOk_ok _ h
  obtain ⟨i', log'⟩ := s'
  obtain ⟨t, h1, h2⟩ := C62_mean hw h
  exact ⟨log1, t, h1, h2⟩

/-- A sensor at rest that answers −2 for the turn rate and 256 for the acceleration, and reports the right identity. -/
def restWorld : World := fun _ op => match op with
  | .transfer (0xB7 :: _) => some [0, 255, 254]
  | .transfer (0xAF :: _) => some [0, 1, 0]
  | .transfer _ => some [0, 0xE0]
  | _ => some []

theorem rest_bytes : BytesWorld restWorld := by
  intro log op r h
  unfold restWorld at h
  split at h <;> cases h <;> intro b hb <;> simp at hb <;> omega

theorem rest_loop (n : Nat) : ∀ (a g : ℝ) (s : Imu × Log), ∃ p, (calibrateLoop n a g restWorld s).1 = .ok p := by
  induction n with
  | zero => intro a g s; exact ⟨_, rfl⟩
  | succ n ih => intro a g s; exact ih _ _ _

/-- The calibration succeeds there from any offsets, so `C62_zero` applies to it. -/
example (s : Imu × Log) : (calibrate restWorld s).1 = .ok () := by
  rcases C62_atomic rest_bytes s with h | ⟨h, -⟩
  · exact h
  · exfalso
    obtain ⟨p, hp⟩ := rest_loop 1000 0 0 s
    rw [calibrate_eq] at h
    rcases hc : calibrateLoop 1000 0 0 restWorld s with ⟨r, s'⟩
    rw [hc] at hp h
    cases hp
    cases h

example : (∀ l v, restWorld l (.transfer [0xB7, 0, 0]) = some v → v = [0, 255, 254]) ∧
    gyroValue [0, 255, 254] = 0.0010642251 * 0.99 * (-2) := by
  constructor
  · intro l v h; cases h; rfl
  · norm_num [gyroValue, signed16]

end Verif.Props
