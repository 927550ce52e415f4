import Verif.Spec.Tof
import Mathlib.Tactic.Ring
import Mathlib.Data.List.TakeWhile
/-!
# C59, C60: the distance sensor
-/
namespace Verif.Props
open Verif Verif.Tof Verif.Spec

/-! ## C59 -/

theorem split_eq (r : Nat) (h : r < 65536) : [(split r).1, (split r).2] = regBytes r := by
  unfold split regBytes
  rw [Nat.shiftRight_eq_div_pow]
  congr 1
  simp only
  omega

theorem perform_ok {w : World} {log log' : Log} {op : Op} {v : Nat} (h : perform w log op = (.ok v, log')) :
    w log op = some v ∧ log' = log ++ [(op, some v)] := by
  unfold perform at h
  split at h
  · cases h
  · cases h; exact ⟨by assumption, rfl⟩

theorem perform_error {w : World} {log log' : Log} {op : Op} {e : Err} (h : perform w log op = (.error e, log')) :
    w log op = none ∧ log' = log ++ [(op, none)] ∧ e = .other := by
  unfold perform at h
  split at h
  · cases h; exact ⟨by assumption, rfl, rfl⟩
  · cases h

theorem writeReg_ok {t : Tof} {w : World} {log log' : Log} {r v : Nat} (hr : r < 65536)
    (h : t.writeReg w log r v = (.ok (), log')) :
    ∃ x, w log (.write t.address (regBytes r ++ [v])) = some x ∧
      log' = log ++ [(.write t.address (regBytes r ++ [v]), some x)] := by
  rw [← split_eq r hr]
  unfold Tof.writeReg at h
  dsimp only at h
  split at h
  · next x l hp => cases h; exact ⟨x, perform_ok hp⟩
  · cases h

theorem readReg_ok {t : Tof} {w : World} {log log' : Log} {r v : Nat} (hr : r < 65536)
    (h : t.readReg w log r = (.ok v, log')) :
    w log (.writeRead t.address (regBytes r)) = some v ∧ log' = log ++ [(.writeRead t.address (regBytes r), some v)] := by
  rw [← split_eq r hr]
  exact perform_ok h

/-- **C59.** A successful measurement: a request was pending, the device said that the result is ready, the value is the
content of the range register read after that, the interrupt was cleared, and no request is pending any more. -/
theorem C59_reading (w : World) (t t' : Tof) (log log' : Log) (v : Nat) (h : t.distance w log = (.ok v, t', log')) :
    t.isPollingRequested = true ∧ t'.isPollingRequested = false ∧ t'.address = t.address ∧
    ∃ s x, (s / 4) % 2 = 1 ∧ log' = log ++ [(.writeRead t.address (regBytes 0x004F), some s),
      (.writeRead t.address (regBytes 0x0062), some v), (.write t.address (regBytes 0x0015 ++ [7]), some x)] := by
  unfold Tof.distance at h
  split at h
  · cases h
  next hs =>
    split at h
    · cases h
    next s l1 h1 =>
      split at h
      · cases h
      next hbit =>
        split at h
        · cases h
        next d l2 h2 =>
          split at h
          · cases h
          next l3 h3 =>
            cases h
            obtain ⟨-, rfl⟩ := readReg_ok (by omega) h1
            obtain ⟨-, rfl⟩ := readReg_ok (by omega) h2
            obtain ⟨x, -, rfl⟩ := writeReg_ok (by omega) h3
            refine ⟨?_, rfl, rfl, s, x, ?_, by simp⟩
            · unfold Tof.isPollingRequested
              cases h : t.state
              · exact absurd h hs
              · rfl
            · have hbit : s &&& 4 = 4 := not_not.mp hbit
              have := Nat.testBit_and s 4 2
              rw [hbit] at this
              have h2 : s.testBit 2 = true := by
                have e : Nat.testBit 4 2 = true := by decide
                rw [e, Bool.and_true] at this
                exact this.symm
              rw [Nat.testBit_eq_decide_div_mod_eq] at h2
              simpa using h2

/-- **C59**, in metres: the distance reported is as many thousandths of a metre as the device's range register said. -/
theorem C59_metres (w : World) (t t' : Tof) (log log' : Log) (v : Nat) (h : t.distance w log = (.ok v, t', log')) :
    ∃ r : Nat, metres v * 1000 = r ∧ (.writeRead t.address (regBytes 0x0062), some r) ∈ log' := by
  obtain ⟨-, -, -, s, x, -, hl⟩ := C59_reading w t t' log log' v h
  refine ⟨v, ?_, by rw [hl]; simp⟩
  unfold metres
  ring

/-- **C59.** A successful request: the start register was written and a request is pending. -/
theorem C59_request (w : World) (t t' : Tof) (log log' : Log) (h : t.requestPolling w log = (.ok (), t', log')) :
    t'.isPollingRequested = true ∧ t'.address = t.address ∧
    ∃ x, log' = log ++ [(.write t.address (regBytes 0x0018 ++ [1]), some x)] := by
  unfold Tof.requestPolling at h
  split at h
  · cases h
  next l1 h1 =>
    cases h
    obtain ⟨x, -, rfl⟩ := writeReg_ok (by omega) h1
    exact ⟨rfl, rfl, x, rfl⟩

/-- **C59.** Without a pending request, `distance` answers `WouldBlock` and does nothing on the bus. -/
theorem C59_idle (w : World) (t : Tof) (log : Log) (h : t.isPollingRequested = false) :
    t.distance w log = (.error .wouldBlock, t, log) := by
  have hs : t.state = .idle := by
    cases hs : t.state
    · rfl
    · unfold Tof.isPollingRequested at h; rw [hs] at h; cases h
  unfold Tof.distance
  rw [if_pos hs]

/-- **C59.** A call that fails leaves the driver as it was. -/
theorem C59_failed (w : World) (t t' : Tof) (log log' : Log) (c : Call) (e : Err) (k : Call)
    (h : tofStep w t log c = ((k, .error e), t', log')) : t' = t := by
  cases c with
  | request =>
    unfold tofStep Tof.requestPolling at h
    dsimp only at h
    rcases hw : t.writeReg w log 0x0018 0x01 with ⟨r, l⟩
    rw [hw] at h
    cases r with
    | error e' => cases h; rfl
    | ok _ => cases h
  | distance =>
    unfold tofStep at h
    dsimp only at h
    unfold Tof.distance at h
    split at h
    · cases h; rfl
    · rcases h1 : t.readReg w log 0x004F with ⟨r1, l1⟩
      rw [h1] at h
      cases r1 with
      | error e' => cases h; rfl
      | ok s =>
        dsimp only at h
        split at h
        · cases h; rfl
        · rcases h2 : t.readReg w l1 0x0062 with ⟨r2, l2⟩
          rw [h2] at h
          cases r2 with
          | error e' => cases h; rfl
          | ok d =>
            dsimp only at h
            rcases h3 : t.writeReg w l2 0x0015 0x07 with ⟨r3, l3⟩
            rw [h3] at h
            cases r3 with
            | error e' => cases h; rfl
            | ok _ => cases h

theorem tofStep_state (w : World) (t t' : Tof) (log log' : Log) (c : Call) (e : Event)
    (h : tofStep w t log c = (e, t', log')) :
    (e.requested → t'.state = .waiting) ∧ (e.measured → t.state = .waiting ∧ t'.state = .idle) ∧
    (¬ e.requested → ¬ e.measured → t' = t) := by
  obtain ⟨k, r⟩ := e
  cases r with
  | error er =>
    refine ⟨fun h' => ?_, fun h' => ?_, fun _ _ => C59_failed w t t' log log' c er k h⟩
    · obtain ⟨-, v, hv⟩ := h'; cases hv
    · obtain ⟨-, v, hv⟩ := h'; cases hv
  | ok v =>
    have wt : ∀ t : Tof, t.isPollingRequested = true → t.state = .waiting := by
      intro t h; unfold Tof.isPollingRequested at h; simpa using h
    have idl : ∀ t : Tof, t.isPollingRequested = false → t.state = .idle := by
      intro t h; unfold Tof.isPollingRequested at h
      cases hs : t.state
      · rfl
      · rw [hs] at h; cases h
    cases c with
    | request =>
      unfold tofStep at h
      dsimp only at h
      rcases hq : t.requestPolling w log with ⟨r, t1, l1⟩
      rw [hq] at h
      cases r with
      | error _ => cases h
      | ok _ =>
        cases h
        have := C59_request w t _ log _ hq
        refine ⟨fun _ => wt _ this.1, fun h' => ?_, fun h' => absurd ⟨rfl, _, rfl⟩ h'⟩
        cases h'.1
    | distance =>
      unfold tofStep at h
      dsimp only at h
      rcases hq : t.distance w log with ⟨r, t1, l1⟩
      rw [hq] at h
      cases h
      have := C59_reading w t _ log _ v hq
      refine ⟨fun h' => ?_, fun _ => ⟨wt _ this.1, idl _ this.2.1⟩, fun _ h' => absurd ⟨rfl, _, rfl⟩ h'⟩
      cases h'.1

theorem tofRun_cons {w : World} {c : Call} {l : List Call} {t t' : Tof} {log log' : Log} {es : List Event}
    (h : tofRun w (c :: l) t log = (es, t', log')) :
    ∃ e t1 log1 es', tofStep w t log c = (e, t1, log1) ∧ tofRun w l t1 log1 = (es', t', log') ∧ es = e :: es' := by
  unfold tofRun at h
  rcases h1 : tofStep w t log c with ⟨e, t1, log1⟩
  rw [h1] at h
  dsimp only at h
  rcases h2 : tofRun w l t1 log1 with ⟨es', t2, log2⟩
  rw [h2] at h
  cases h
  exact ⟨e, t1, log1, es', rfl, h2, rfl⟩

theorem paired_aux (w : World) (calls : List Call) : ∀ (t t' : Tof) (log log' : Log) (es : List Event),
    tofRun w calls t log = (es, t', log') →
    ∀ k (hk : k < es.length), Event.measured es[k] →
      (t.state = .waiting ∧ ∀ q (hq : q < es.length), q < k → ¬ Event.measured es[q]) ∨
      ∃ m, ∃ hm : m < k, Event.requested (es[m]'(by omega)) ∧
        ∀ q (hq : q < es.length), m < q → q < k → ¬ Event.measured es[q] := by
  induction calls with
  | nil => intro t t' log log' es h k hk; cases h; simp at hk
  | cons c l ih =>
    intro t t' log log' es h k hk hmeas
    obtain ⟨e, t1, log1, es', h1, h2, rfl⟩ := tofRun_cons h
    obtain ⟨s1, s2, s3⟩ := tofStep_state w t t1 log log1 c e h1
    cases k with
    | zero => left; exact ⟨(s2 hmeas).1, fun q _ hq => absurd hq (by omega)⟩
    | succ k =>
      simp only [List.length_cons] at hk
      rcases ih t1 t' log1 log' es' h2 k (by omega) hmeas with ⟨hw, hno⟩ | ⟨m, hm, hr, hno⟩
      · by_cases hreq : e.requested
        · right
          refine ⟨0, by omega, hreq, ?_⟩
          intro q hq h0 hk'
          match q, h0 with
          | q + 1, _ => exact hno q (by simpa using hq) (by omega)
        · have hnm : ¬ e.measured := by
            intro hm; rw [(s2 hm).2] at hw; cases hw
          left
          rw [s3 hreq hnm] at hw
          refine ⟨hw, ?_⟩
          intro q hq hk'
          match q with
          | 0 => exact hnm
          | q + 1 => exact hno q (by simpa using hq) (by omega)
      · right
        refine ⟨m + 1, by omega, hr, ?_⟩
        intro q hq h0 hk'
        match q, h0 with
        | q + 1, h0 => exact hno q (by simpa using hq) (by omega) (by omega)

/-- **C59.** Over any sequence of calls on an idle driver, with any device and any failures: every successful measurement
comes after a successful request with no other successful measurement in between. -/
theorem C59_paired (w : World) (calls : List Call) (t t' : Tof) (log log' : Log) (es : List Event)
    (ht : t.isPollingRequested = false) (h : tofRun w calls t log = (es, t', log')) (k : Nat) (hk : k < es.length)
    (hmeas : Event.measured es[k]) :
    ∃ m, ∃ hm : m < k, Event.requested (es[m]'(by omega)) ∧
      ∀ q (hq : q < es.length), m < q → q < k → ¬ Event.measured es[q] := by
  rcases paired_aux w calls t t' log log' es h k hk hmeas with ⟨hw, -⟩ | h
  · unfold Tof.isPollingRequested at ht
    rw [hw] at ht
    cases ht
  · exact h

/-- **C59.** `is_polling_requested` says whether a successful request has not been followed by a successful measurement. -/
theorem C59_flag (w : World) (calls : List Call) (t t' : Tof) (log log' : Log) (es : List Event)
    (ht : t.isPollingRequested = false) (h : tofRun w calls t log = (es, t', log')) :
    t'.isPollingRequested = true ↔ ∃ m, ∃ hm : m < es.length, Event.requested es[m] ∧
      ∀ q (hq : q < es.length), m < q → ¬ Event.measured es[q] := by
  have gen : ∀ (calls : List Call) (t : Tof) (log : Log) (es : List Event), tofRun w calls t log = (es, t', log') →
      (t'.state = .waiting ↔ (t.state = .waiting ∧ ∀ q (hq : q < es.length), ¬ Event.measured es[q]) ∨
        ∃ m, ∃ hm : m < es.length, Event.requested es[m] ∧ ∀ q (hq : q < es.length), m < q → ¬ Event.measured es[q]) := by
    intro calls
    induction calls with
    | nil =>
      intro t log es h
      cases h
      constructor
      · intro h; left; exact ⟨h, fun q hq => absurd hq (by simp)⟩
      · rintro (h | ⟨m, hm, -⟩)
        · exact h.1
        · simp at hm
    | cons c l ih =>
      intro t log es h
      obtain ⟨e, t1, log1, es', h1, h2, rfl⟩ := tofRun_cons h
      obtain ⟨s1, s2, s3⟩ := tofStep_state w t t1 log log1 c e h1
      rw [ih t1 log1 es' h2]
      constructor
      · rintro (⟨hw, hno⟩ | ⟨m, hm, hr, hno⟩)
        · by_cases hreq : e.requested
          · right
            refine ⟨0, by simp, hreq, ?_⟩
            intro q hq h0
            match q, h0 with
            | q + 1, _ => exact hno q (by simpa using hq)
          · have hnm : ¬ e.measured := by
              intro hm; rw [(s2 hm).2] at hw; cases hw
            left
            rw [s3 hreq hnm] at hw
            refine ⟨hw, ?_⟩
            intro q hq
            match q with
            | 0 => exact hnm
            | q + 1 => exact hno q (by simpa using hq)
        · right
          refine ⟨m + 1, by simpa using hm, hr, ?_⟩
          intro q hq h0
          match q, h0 with
          | q + 1, h0 => exact hno q (by simpa using hq) (by omega)
      · rintro (⟨hw, hno⟩ | ⟨m, hm, hr, hno⟩)
        · left
          have h0 : ¬ e.measured := hno 0 (by simp)
          refine ⟨?_, fun q hq => hno (q + 1) (by simpa using hq)⟩
          by_cases hreq : e.requested
          · exact s1 hreq
          · rw [s3 hreq h0]; exact hw
        · match m with
          | 0 => left; exact ⟨s1 hr, fun q hq => hno (q + 1) (by simpa using hq) (by omega)⟩
          | m + 1 =>
            right
            exact ⟨m, by simpa using hm, hr, fun q hq h0 => hno (q + 1) (by simpa using hq) (by omega)⟩
  have e : t'.isPollingRequested = true ↔ t'.state = .waiting := by unfold Tof.isPollingRequested; simp
  rw [e, gen calls t log es h]
  constructor
  · rintro (⟨hw, -⟩ | h)
    · unfold Tof.isPollingRequested at ht; rw [hw] at ht; cases ht
    · exact h
  · exact Or.inr

/-- A working device whose result is ready at once: request, measurement (120 mm), measurement without request. -/
example : ∃ log, tofRun (fun _ op => match op with | .writeRead _ [0, 0x62] => some 120 | _ => some 4)
      [.request, .distance, .distance] ⟨0x30, .idle⟩ [] =
    ([(.request, .ok 0), (.distance, .ok 120), (.distance, .error .wouldBlock)], ⟨0x30, .idle⟩, log) := ⟨_, rfl⟩

/-! ## C60 -/

theorem waitOk_error {α : Type} {f : Log → Res α} {n : Nat} {log : Log} (P : Log → Prop) (h0 : P log)
    (h : ∀ log, P log → ∃ e log', f log = (.error e, log') ∧ P log') : waitOk f n log = .error .diverge := by
  induction n generalizing log with
  | zero => rfl
  | succ n ih =>
    obtain ⟨e, log', h1, h2⟩ := h log h0
    unfold waitOk
    rw [h1]
    exact ih h2

theorem waitOk_cases {α : Type} (f : Log → Res α) (n : Nat) (log : Log) :
    waitOk f n log = .error .diverge ∨ ∃ a log1 log2, waitOk f n log = .ok (a, log2) ∧ f log1 = (.ok a, log2) := by
  induction n generalizing log with
  | zero => left; rfl
  | succ n ih =>
    unfold waitOk
    rcases h : f log with ⟨r, l⟩
    cases r with
    | ok a => right; exact ⟨a, log, l, rfl, h⟩
    | error e => exact ih l

theorem waitOk_perform {w : World} {op : Op} {n v : Nat} {log log2 : Log}
    (h : waitOk (fun log => perform w log op) n log = .ok (v, log2)) :
    ∃ tries, (∀ e ∈ tries, e = (op, none)) ∧ log2 = log ++ tries ++ [(op, some v)] := by
  induction n generalizing log with
  | zero => cases h
  | succ n ih =>
    unfold waitOk at h
    rcases h1 : perform w log op with ⟨r, l⟩
    rw [h1] at h
    cases r with
    | ok b =>
      cases h
      exact ⟨[], by simp, by rw [(perform_ok h1).2]; simp⟩
    | error e =>
      obtain ⟨-, rfl, -⟩ := perform_error h1
      obtain ⟨tries, h2, rfl⟩ := ih h
      exact ⟨(op, none) :: tries, by simpa using h2, by simp⟩

/-- **C60.** On a driver whose address is not the default one, `init` never returns, for every device that forgets its
address when it is switched off, however long one waits, whatever else fails. -/
theorem C60_hangs (w : World) (hw : ForgetsAddress w) (t : Tof) (ht : t.address ≠ 0x29) (fuel newAddress : Nat) (log : Log) :
    t.init w fuel newAddress log = .error .diverge := by
  unfold Tof.init
  rcases waitOk_cases (fun log => perform w log (.enable false)) fuel log with h | ⟨x, -, l2, h, -⟩
  · simp only [h, bind, Except.bind]
  obtain ⟨t0, -, rfl⟩ := waitOk_perform h
  simp only [h, bind, Except.bind]
  rcases waitOk_cases (fun log => perform w log (.enable true)) fuel (log ++ t0 ++ [(.enable false, some x)]) with
    h' | ⟨y, -, l4, h', -⟩
  · simp only [h']
  obtain ⟨t1, ht1, rfl⟩ := waitOk_perform h'
  simp only [h']
  rw [waitOk_error (P := fun l => ∃ since, l = (log ++ t0) ++ (.enable false, some x) :: t1 ++ (.enable true, some y) :: since ∧
    ∀ e ∈ since, ¬ isEnable e.1 ∧ ∀ a bs, e.1 ≠ .write a bs)]
  · refine ⟨[(.delay 1, some 0)], by simp, ?_⟩
    intro e he
    rw [List.mem_singleton.mp he]
    exact ⟨id, by simp⟩
  · rintro l ⟨since, rfl, hm⟩
    have hnone := hw (log ++ t0) t1 since x y (.writeRead t.address [(split 0x0016).1, (split 0x0016).2]) t.address ht1
      (fun e he => ⟨(hm e he).1, fun a' v' x' hc => (hm e he).2 a' (regBytes 0x0212 ++ [v']) (congrArg Prod.fst hc)⟩) rfl ht
    refine ⟨.other, _, ?_, since ++ [(.writeRead t.address [(split 0x0016).1, (split 0x0016).2], none)], rfl, ?_⟩
    · unfold Tof.checkIfWorking Tof.readReg perform
      dsimp only
      rw [hnone]
      simp
    · intro e he
      rcases List.mem_append.mp he with he | he
      · exact hm e he
      · rw [List.mem_singleton.mp he]
        exact ⟨id, by simp⟩

/-- The acknowledged writes of a list of register values. -/
def acked (a : Nat) (l : List (Nat × Nat)) (xs : List Nat) : Log :=
  List.zipWith (fun p x => (.write a (regBytes p.1 ++ [p.2]), some x)) l xs

theorem writeAll_ok {t : Tof} {w : World} : ∀ {l : List (Nat × Nat)} {log log' : Log}, (∀ p ∈ l, p.1 < 65536) →
    t.writeAll w l log = (.ok (), log') → ∃ xs, xs.length = l.length ∧ log' = log ++ acked t.address l xs
  | [], log, log', _, h => by cases h; exact ⟨[], rfl, by simp [acked]⟩
  | (r, v) :: l, log, log', hr, h => by
    unfold Tof.writeAll at h
    rcases h1 : t.writeReg w log r v with ⟨res, l1⟩
    rw [h1] at h
    cases res with
    | error e => cases h
    | ok _ =>
      obtain ⟨x, -, rfl⟩ := writeReg_ok (hr (r, v) (by simp)) h1
      obtain ⟨xs, hx, rfl⟩ := writeAll_ok (fun p hp => hr p (by simp [hp])) h
      exact ⟨x :: xs, by simp [hx], by simp [acked]⟩

theorem tuning_lt : ∀ p ∈ tuning, p.1 < 65536 := by decide

theorem waitOk_extends {α : Type} {f : Log → Res α} (hf : ∀ log r log', f log = (r, log') → ∃ m, log' = log ++ m)
    {n : Nat} {log log2 : Log} {a : α} (h : waitOk f n log = .ok (a, log2)) :
    ∃ m, f (log ++ m) = (.ok a, log2) := by
  induction n generalizing log with
  | zero => cases h
  | succ n ih =>
    unfold waitOk at h
    rcases h1 : f log with ⟨r, l⟩
    rw [h1] at h
    cases r with
    | ok b => cases h; exact ⟨[], by rw [List.append_nil]; exact h1⟩
    | error e =>
      obtain ⟨m, rfl⟩ := hf _ _ _ h1
      obtain ⟨m', h'⟩ := ih h
      exact ⟨m ++ m', by rw [← List.append_assoc]; exact h'⟩

theorem perform_extends {w : World} {op : Op} {log log' : Log} {r : Except Err Nat} (h : perform w log op = (r, log')) :
    ∃ m, log' = log ++ m := by
  cases r with
  | ok v => exact ⟨_, (perform_ok h).2⟩
  | error e => exact ⟨_, (perform_error h).2.1⟩

theorem writeReg_extends {t : Tof} {w : World} {a v : Nat} {log log' : Log} {r : Except Err Unit}
    (h : t.writeReg w log a v = (r, log')) : ∃ m, log' = log ++ m := by
  unfold Tof.writeReg at h
  dsimp only at h
  split at h
  · next hp => cases h; exact perform_extends hp
  · next hp => cases h; exact perform_extends hp

theorem writeAll_extends {t : Tof} {w : World} : ∀ {l : List (Nat × Nat)} {log log' : Log} {r : Except Err Unit},
    t.writeAll w l log = (r, log') → ∃ m, log' = log ++ m
  | [], log, log', r, h => by cases h; exact ⟨[], by simp⟩
  | (a, v) :: l, log, log', r, h => by
    unfold Tof.writeAll at h
    rcases h1 : t.writeReg w log a v with ⟨res, l1⟩
    obtain ⟨m, rfl⟩ := writeReg_extends h1
    rw [h1] at h
    cases res with
    | error e => cases h; exact ⟨m, rfl⟩
    | ok _ =>
      obtain ⟨m', rfl⟩ := writeAll_extends h
      exact ⟨m ++ m', by simp⟩

theorem check_extends {t : Tof} {w : World} {log log' : Log} {r : Except Err Unit}
    (h : t.checkIfWorking w log = (r, log')) : ∃ m, log' = log ++ m := by
  unfold Tof.checkIfWorking at h
  split at h
  · next hp => cases h; exact perform_extends hp
  · next hp =>
      split at h <;> cases h <;> exact perform_extends hp

/-- **C60.** Whenever `init` returns, with any device and after any failures: the device was switched off and on, then said
that it is fresh out of reset, then all the tuning values were written in one go and acknowledged, then the interrupt
configuration, and last the new address, all at the old address; the driver uses the new address from then on. A pending
request is not forgotten. -/
theorem C60_returns (w : World) (t t' : Tof) (fuel newAddress : Nat) (log log' : Log)
    (h : t.init w fuel newAddress log = .ok (t', log')) :
    t' = ⟨newAddress, t.state⟩ ∧
    ∃ l0 l1 l2 l3 l4 l5 x0 x1 xs x4 x5, xs.length = 43 ∧
      log' = log ++ l0 ++ [(.enable false, some x0)] ++ l1 ++ [(.enable true, some x1), (.delay 1, some 0)] ++ l2 ++
        [(.writeRead t.address (regBytes 0x0016), some 1)] ++ l3 ++ acked t.address tuning xs ++ l4 ++
        [(.write t.address (regBytes 0x0014 ++ [4]), some x4)] ++ l5 ++
        [(.write t.address (regBytes 0x0212 ++ [newAddress]), some x5)] := by
  unfold Tof.init at h
  simp only [bind, Except.bind, pure, Except.pure] at h
  split at h
  · cases h
  next a0 e0 =>
    obtain ⟨v0, L0⟩ := a0
    simp only at h
    split at h
    · cases h
    next a1 e1 =>
      obtain ⟨v1, L1⟩ := a1
      simp only at h
      split at h
      · cases h
      next a2 e2 =>
        obtain ⟨v2, L2⟩ := a2
        simp only at h
        split at h
        · cases h
        next a3 e3 =>
          obtain ⟨v3, L3⟩ := a3
          simp only at h
          split at h
          · cases h
          next a4 e4 =>
            obtain ⟨v4, L4⟩ := a4
            simp only at h
            split at h
            · cases h
            next a5 e5 =>
              obtain ⟨v5, L5⟩ := a5
              cases h
              obtain ⟨l0, h0⟩ := waitOk_extends (fun _ _ _ h => perform_extends h) e0
              obtain ⟨-, rfl⟩ := perform_ok h0
              obtain ⟨l1, h1⟩ := waitOk_extends (fun _ _ _ h => perform_extends h) e1
              obtain ⟨-, rfl⟩ := perform_ok h1
              obtain ⟨l2, h2⟩ := waitOk_extends (fun _ _ _ h => check_extends h) e2
              obtain ⟨l3, h3⟩ := waitOk_extends (fun _ _ _ h => writeAll_extends h) e3
              obtain ⟨xs, hxs, rfl⟩ := writeAll_ok tuning_lt h3
              obtain ⟨l4, h4⟩ := waitOk_extends (fun _ _ _ h => writeReg_extends h) e4
              obtain ⟨x4, -, rfl⟩ := writeReg_ok (by omega) h4
              obtain ⟨l5, h5⟩ := waitOk_extends (fun _ _ _ h => writeReg_extends h) e5
              obtain ⟨x5, -, rfl⟩ := writeReg_ok (by omega) h5
              unfold Tof.checkIfWorking at h2
              split at h2
              · cases h2
              next data L hr =>
                split at h2
                next hd =>
                  cases h2
                  obtain ⟨-, rfl⟩ := readReg_ok (by omega) hr
                  subst hd
                  exact ⟨rfl, l0, l1, l2, l3, l4, l5, v0, v1, xs, x4, x5, hxs, by simp⟩
                · cases h2

/-! ## C60: the working device -/

theorem replay_append (d : Dev) (a b : Log) : d.replay (a ++ b) = (d.replay a).replay b := by
  simp [Dev.replay, List.foldl_append]

theorem replay_one (d : Dev) (op : Op) (x : Nat) : d.replay [(op, some x)] = d.after op := rfl

theorem world_writeReg (d : Dev) (t : Tof) (log : Log) (r v : Nat) (hr : r < 65536) (hon : (d.replay log).on = true)
    (ha : (d.replay log).address = t.address) :
    ∃ log', t.writeReg d.world log r v = (.ok (), log') ∧ (d.replay log').on = true ∧
      (d.replay log').address = (if r = 0x0212 then v else t.address) ∧
      (d.replay log').regs = fun q => if q = r then v else (d.replay log).regs q := by
  have hb := split_eq r hr
  have hw : d.world log (.write t.address [(split r).1, (split r).2, v]) = some 0 := by
    unfold Dev.world Dev.answer
    dsimp only
    rw [if_pos ⟨hon, ha.symm⟩]
  have hnum : 256 * (split r).1 + (split r).2 = r := by
    have h1 := congrArg (fun l => l[0]?) hb
    have h2 := congrArg (fun l => l[1]?) hb
    simp only [regBytes, List.getElem?_cons_zero, List.getElem?_cons_succ, Option.some.injEq] at h1 h2
    omega
  have hadr : ([(split r).1, (split r).2] = regBytes 0x0212) ↔ r = 0x0212 := by
    rw [hb]
    unfold regBytes
    simp only [List.cons.injEq, and_true]
    omega
  refine ⟨log ++ [(.write t.address [(split r).1, (split r).2, v], some 0)], ?_, ?_⟩
  · unfold Tof.writeReg perform
    dsimp only
    rw [hw]
  · rw [replay_append, replay_one]
    unfold Dev.after
    dsimp only
    rw [if_pos ⟨hon, ha.symm⟩]
    refine ⟨hon, ?_, ?_⟩
    · dsimp only
      by_cases h : r = 0x0212
      · rw [if_pos h, if_pos (hadr.mpr h)]
      · rw [if_neg h, if_neg (fun h' => h (hadr.mp h')), ha]
    · dsimp only
      rw [hnum]

/-- The content of a register after a list of writes. -/
def written (l : List (Nat × Nat)) (regs : Nat → Nat) : Nat → Nat :=
  l.foldl (fun regs p q => if q = p.1 then p.2 else regs q) regs

theorem world_writeAll (d : Dev) (t : Tof) : ∀ (l : List (Nat × Nat)) (log : Log),
    (∀ p ∈ l, p.1 < 65536 ∧ p.1 ≠ 0x0212) → (d.replay log).on = true → (d.replay log).address = t.address →
    ∃ log', t.writeAll d.world l log = (.ok (), log') ∧ (d.replay log').on = true ∧
      (d.replay log').address = t.address ∧ (d.replay log').regs = written l (d.replay log).regs
  | [], log, _, hon, ha => ⟨log, rfl, hon, ha, rfl⟩
  | (r, v) :: l, log, hl, hon, ha => by
    obtain ⟨log1, h1, h2, h3, h4⟩ := world_writeReg d t log r v (hl (r, v) (by simp)).1 hon ha
    rw [if_neg (hl (r, v) (by simp)).2] at h3
    obtain ⟨log2, g1, g2, g3, g4⟩ := world_writeAll d t l log1 (fun p hp => hl p (by simp [hp])) h2 h3
    refine ⟨log2, ?_, g2, g3, ?_⟩
    · unfold Tof.writeAll
      rw [h1]
      exact g1
    · rw [g4, h4]
      rfl

theorem waitOk_now {α : Type} {f : Log → Res α} {log log' : Log} {a : α} (n : Nat) (h : f log = (.ok a, log')) :
    waitOk f (n + 1) log = .ok (a, log') := by
  unfold waitOk
  rw [h]

theorem tuning_ok : ∀ p ∈ tuning, p.1 < 65536 ∧ p.1 ≠ 0x0212 := by decide

theorem written_tuning (regs : Nat → Nat) : ∀ p ∈ tuning, written tuning regs p.1 = p.2 := by
  simp [tuning, written]

/-- **C60.** With a working device, in whatever state it was, `init` on a driver with the default address returns at once,
and the device is on, at the new address, with all the tuning values and the interrupt configuration in its registers. -/
theorem C60_first (d : Dev) (t : Tof) (ht : t.address = 0x29) (fuel newAddress : Nat) (log : Log) :
    ∃ log', t.init d.world (fuel + 1) newAddress log = .ok (⟨newAddress, t.state⟩, log') ∧
      (d.replay log').on = true ∧ (d.replay log').address = newAddress ∧
      (∀ p ∈ tuning, p.1 ≠ 0x0014 → (d.replay log').regs p.1 = p.2) ∧ (d.replay log').regs 0x0014 = 4 := by
  have s1 : perform d.world log (.enable false) = (.ok 0, log ++ [(.enable false, some 0)]) := rfl
  have s2 : ∀ log, perform d.world log (.enable true) = (.ok 0, log ++ [(.enable true, some 0)]) := fun _ => rfl
  obtain ⟨L, hL⟩ : ∃ L, L = log ++ [(.enable false, some 0)] ++ [(.enable true, some 0)] ++ [(Op.delay 1, some 0)] := ⟨_, rfl⟩
  have hd : d.replay L = Dev.reset := by
    rw [hL]
    simp only [replay_append, replay_one]
    simp [Dev.after]
  have s3 : ∃ L', t.checkIfWorking d.world L = (.ok (), L') ∧ d.replay L' = Dev.reset := by
    refine ⟨L ++ [(.writeRead t.address [(split 0x0016).1, (split 0x0016).2], some 1)], ?_, ?_⟩
    · unfold Tof.checkIfWorking Tof.readReg perform Dev.world
      dsimp only
      rw [hd, ht]
      rfl
    · rw [replay_append, hd]
      rfl
  obtain ⟨L1, c1, c2⟩ := s3
  obtain ⟨L2, e1, e2, e3, e4⟩ := world_writeAll d t tuning L1 tuning_ok (by rw [c2]; rfl) (by rw [c2, ht]; rfl)
  obtain ⟨L3, f1, f2, f3, f4⟩ := world_writeReg d t L2 0x0014 0x04 (by omega) e2 e3
  obtain ⟨L4, g1, g2, g3, g4⟩ := world_writeReg d t L3 0x0212 newAddress (by omega) f2 (by rw [f3]; rfl)
  refine ⟨L4, ?_, g2, by rw [g3]; rfl, ?_, ?_⟩
  · unfold Tof.init
    simp only [bind, Except.bind, pure, Except.pure]
    rw [waitOk_now (f := fun log => perform d.world log (.enable false)) fuel s1]
    simp only
    rw [waitOk_now (f := fun log => perform d.world log (.enable true)) fuel (s2 _)]
    simp only
    rw [← hL, waitOk_now (f := fun log => t.checkIfWorking d.world log) fuel c1]
    simp only
    rw [waitOk_now (f := fun log => t.writeAll d.world tuning log) fuel e1]
    simp only
    rw [waitOk_now (f := fun log => t.writeReg d.world log 0x0014 0x04) fuel f1]
    simp only
    rw [waitOk_now (f := fun log => t.writeReg d.world log 0x0212 newAddress) fuel g1]
  · intro p hp h14
    rw [g4]
    dsimp only
    rw [if_neg (tuning_ok p hp).2, f4]
    dsimp only
    rw [if_neg h14, e4, written_tuning _ p hp]
  · rw [g4]
    dsimp only
    rw [if_neg (by omega), f4]
    rfl

/-- The working device forgets its address. -/
theorem dev_forgets (d : Dev) : ForgetsAddress d.world := by
  intro before tries since x y op a ht hs ho ha
  have h1 : ∀ (l : Log) (d : Dev), (∀ e ∈ l, e = (.enable true, none)) → d.replay l = d := by
    intro l
    induction l with
    | nil => intro d _; rfl
    | cons e l ih =>
      intro d h
      have := h e (by simp)
      subst this
      exact ih d (fun e he => h e (by simp [he]))
  have h2 : ∀ (l : Log) (d : Dev), (∀ e ∈ l, ¬ isEnable e.1 ∧ ∀ a' v x, e ≠ (.write a' (regBytes 0x0212 ++ [v]), some x)) →
      d.on = true → d.address = 0x29 → (d.replay l).address = 0x29 ∧ (d.replay l).on = true := by
    intro l
    induction l with
    | nil => intro d _ h h'; exact ⟨h', h⟩
    | cons e l ih =>
      intro d h hon hadr
      obtain ⟨hne, hnw⟩ := h e (by simp)
      have key : (if e.2.isSome then d.after e.1 else d).on = true ∧ (if e.2.isSome then d.after e.1 else d).address = 0x29 := by
        rcases e with ⟨op, none | v⟩
        · exact ⟨hon, hadr⟩
        · simp only [Option.isSome_some, if_true]
          cases op with
          | enable b => exact absurd trivial hne
          | delay ms => exact ⟨hon, hadr⟩
          | writeRead a b => exact ⟨hon, hadr⟩
          | write a b =>
            match b with
            | [] => exact ⟨hon, hadr⟩
            | [_] => exact ⟨hon, hadr⟩
            | [_, _] => exact ⟨hon, hadr⟩
            | [h, l, v'] =>
              unfold Dev.after
              dsimp only
              split
              · refine ⟨hon, ?_⟩
                dsimp only
                rw [if_neg, hadr]
                intro hc
                apply hnw a v' v
                rw [← hc]
                rfl
              · exact ⟨hon, hadr⟩
            | _ :: _ :: _ :: _ :: _ => exact ⟨hon, hadr⟩
      exact ih _ (fun e he => h e (by simp [he])) key.1 key.2
  have h3 : (d.replay (before ++ (.enable false, some x) :: tries ++ (.enable true, some y) :: since)).address = 0x29 := by
    rw [show before ++ (Op.enable false, some x) :: tries ++ (Op.enable true, some y) :: since =
      before ++ [(Op.enable false, some x)] ++ tries ++ [(Op.enable true, some y)] ++ since by simp]
    simp only [replay_append, replay_one, h1 tries _ ht]
    exact (h2 since _ hs (by simp [Dev.after, Dev.reset]) (by simp [Dev.after, Dev.reset])).1
  unfold Dev.world
  cases op with
  | enable b => cases ho
  | delay ms => cases ho
  | write a' b =>
    cases ho
    unfold Dev.answer
    dsimp only
    rw [h3, if_neg (fun h => ha h.2)]
  | writeRead a' b =>
    cases ho
    unfold Dev.answer
    split
    · next h => cases h
    · next h => cases h
    · next h => cases h
    · next h =>
        cases h
        rw [h3, if_neg (fun h => ha h.2)]
    · rfl

/-- So a sensor made with `new` at another address works, and cannot be initialised again. -/
example (d : Dev) (fuel : Nat) : ∃ t log, Tof.new d.world 1 0x30 = .ok (t, log) ∧ t.address = 0x30 ∧
    t.init d.world fuel 0x31 log = .error .diverge := by
  obtain ⟨log, h, -⟩ := C60_first d ⟨Tof.defaultAddress, .idle⟩ rfl 0 0x30 []
  exact ⟨_, log, h, rfl, C60_hangs _ (dev_forgets d) _ (by decide) fuel 0x31 log⟩

end Verif.Props
