import Verif.Model.Tof
/-!
# Specification of the distance sensor
-/
namespace Verif.Spec
open Verif Verif.Tof

/-- The two calls used while running. -/
inductive Call where
  | request | distance
  deriving DecidableEq, Repr

/-- A call and what it returned (`request_polling` returns no value, `0` stands for it). -/
abbrev Event := Call × Except Err Nat

def tofStep (w : World) (t : Tof) (log : Log) : Call → Event × Tof × Log
  | .request =>
    match t.requestPolling w log with
    | (.ok _, t, log) => ((.request, .ok 0), t, log)
    | (.error e, t, log) => ((.request, .error e), t, log)
  | .distance =>
    match t.distance w log with
    | (r, t, log) => ((.distance, r), t, log)

/-- Any sequence of calls. -/
def tofRun (w : World) : List Call → Tof → Log → List Event × Tof × Log
  | [], t, log => ([], t, log)
  | c :: l, t, log =>
    match tofStep w t log c with
    | (e, t, log) =>
      match tofRun w l t log with
      | (es, t, log) => (e :: es, t, log)

/-- A successful request. -/
def Event.requested (e : Event) : Prop := e.1 = .request ∧ ∃ v, e.2 = .ok v

/-- A successful measurement. -/
def Event.measured (e : Event) : Prop := e.1 = .distance ∧ ∃ v, e.2 = .ok v

/-- A register as the two bytes sent on the bus. -/
def regBytes (r : Nat) : List Nat := [r / 256, r % 256]

/-! ## A power cycle -/

/-- The address an operation is sent to. -/
def addressOf : Op → Option Nat
  | .write a _ => some a
  | .writeRead a _ => some a
  | _ => none

/-- Switching off or on. -/
def isEnable : Op → Prop
  | .enable _ => True
  | _ => False

/-- A device that, after it was switched off (and possibly failed attempts to switch it on) and on, answers at the default
address only, until its address register (0x0212) has been written. This is what the data sheet of the VL6180X says. -/
def ForgetsAddress (w : World) : Prop :=
  ∀ (before tries since : Log) x y op a, (∀ e ∈ tries, e = (.enable true, none)) →
    (∀ e ∈ since, ¬ isEnable e.1 ∧ ∀ a' v x, e ≠ (.write a' (regBytes 0x0212 ++ [v]), some x)) →
    addressOf op = some a → a ≠ 0x29 →
    w (before ++ (.enable false, some x) :: tries ++ (.enable true, some y) :: since) op = none

/-! ## A working device -/

/-- A device that always works. -/
structure Dev where
  on : Bool
  address : Nat
  regs : Nat → Nat

def Dev.reset : Dev := ⟨true, 0x29, fun r => if r = 0x0016 then 1 else 0⟩

/-- The device after an operation. -/
def Dev.after (d : Dev) : Op → Dev
  | .enable false => { d with on := false }
  | .enable true => if d.on then d else Dev.reset
  | .write a [h, l, v] =>
    if d.on ∧ a = d.address then
      { d with regs := fun r => if r = 256 * h + l then v else d.regs r,
               address := if [h, l] = regBytes 0x0212 then v else d.address }
    else d
  | _ => d

/-- Its answer. -/
def Dev.answer (d : Dev) : Op → Option Nat
  | .enable _ => some 0
  | .delay _ => some 0
  | .write a _ => if d.on ∧ a = d.address then some 0 else none
  | .writeRead a [h, l] => if d.on ∧ a = d.address then some (d.regs (256 * h + l)) else none
  | .writeRead _ _ => none

/-- The device after a log, starting from `d`; operations that failed have not reached it. -/
def Dev.replay (d : Dev) (log : Log) : Dev := log.foldl (fun d e => if e.2.isSome then d.after e.1 else d) d

/-- The world made of this device alone. -/
def Dev.world (d : Dev) : World := fun log op => (d.replay log).answer op

end Verif.Spec
