import Verif.Model.Basic
import Mathlib.Data.Real.Basic
/-!
# Model of the distance sensor driver, `sensors2/src/tof.rs`

The world (bus, device, enable pin) is an arbitrary function of everything the driver has done so far: it answers each
operation with an error or with a byte (meaningful for reads only). So every device and every pattern of failures is
covered. The operations done so far, with their answers, are the log, newest last.
-/
namespace Verif.Tof
open Verif

/-- What the driver does to the outside world. -/
inductive Op where
  /-- `enable_pin.set_low()`, `enable_pin.set_high()` -/
  | enable (high : Bool)
  /-- `delay.delay_ms(..)`, which cannot fail -/
  | delay (ms : Nat)
  /-- `i2c.write(address, bytes)` -/
  | write (address : Nat) (bytes : List Nat)
  /-- `i2c.write_read(address, bytes, &mut [0])` -/
  | writeRead (address : Nat) (bytes : List Nat)
  deriving DecidableEq, Repr

/-- The answer to an operation: `none` is an error. -/
abbrev Log := List (Op × Option Nat)

abbrev World := Log → Op → Option Nat

/-- `tof.rs:10-14` `State`. -/
inductive State where
  | idle | waiting
  deriving DecidableEq, Repr

/-- `tof.rs:19-26` `VL6180X` without the pin. -/
structure Tof where
  address : Nat
  state : State
  deriving DecidableEq, Repr

/-- `nb::Error<VL6180XError>`. -/
inductive Err where
  | wouldBlock | other
  deriving DecidableEq, Repr

/-- Result of a driver call: a value or an error, and the log afterwards. -/
abbrev Res (α : Type) := Except Err α × Log

def perform (w : World) (log : Log) (op : Op) : Res Nat :=
  match w log op with
  | none => (.error .other, log ++ [(op, none)])
  | some v => (.ok v, log ++ [(op, some v)])

/-- `tof.rs:181-184` `split_register_address`. -/
def split (register : Nat) : Nat × Nat := ((register >>> 8) % 256, register % 256)

/-- `tof.rs:157-167` `write_to_register`. -/
def Tof.writeReg (self : Tof) (w : World) (log : Log) (register data : Nat) : Res Unit :=
  let (h, l) := split register
  match perform w log (.write self.address [h, l, data]) with
  | (.ok _, log) => (.ok (), log)
  | (.error e, log) => (.error e, log)

/-- `tof.rs:169-179` `read_from_registers`. -/
def Tof.readReg (self : Tof) (w : World) (log : Log) (register : Nat) : Res Nat :=
  let (h, l) := split register
  perform w log (.writeRead self.address [h, l])

/-- `tof.rs:186-193` `request_polling`. -/
def Tof.requestPolling (self : Tof) (w : World) (log : Log) : Except Err Unit × Tof × Log :=
  match self.writeReg w log 0x0018 0x01 with
  | (.error e, log) => (.error e, self, log)
  | (.ok _, log) => (.ok (), { self with state := .waiting }, log)

/-- `tof.rs:195-197` `is_polling_requested`. -/
def Tof.isPollingRequested (self : Tof) : Bool := self.state = .waiting

/-- `tof.rs:199-220` `distance`, as the value of the range register (millimetres). -/
def Tof.distance (self : Tof) (w : World) (log : Log) : Except Err Nat × Tof × Log :=
  if self.state = .idle then (.error .wouldBlock, self, log)
  else
    match self.readReg w log 0x004F with
    | (.error e, log) => (.error e, self, log)
    | (.ok data, log) =>
      if data &&& 0x04 ≠ 0x04 then (.error .wouldBlock, self, log)
      else
        match self.readReg w log 0x0062 with
        | (.error e, log) => (.error e, self, log)
        | (.ok distance, log) =>
          match self.writeReg w log 0x0015 0x07 with
          | (.error e, log) => (.error e, self, log)
          | (.ok _, log) => (.ok distance, { self with state := .idle }, log)

/-- `tof.rs:219` the reading in metres. -/
noncomputable def metres (distance : Nat) : ℝ := distance / 1000

/-! ## Initialisation -/

/-- `tof.rs:111-153` the registers and values written by `configure_tuning`. -/
def tuning : List (Nat × Nat) :=
  [(0x0207, 0x01), (0x0208, 0x01), (0x0133, 0x01), (0x0096, 0x00), (0x0097, 0xfd), (0x00e3, 0x00), (0x00e4, 0x04),
   (0x00e5, 0x02), (0x00e6, 0x01), (0x00e7, 0x03), (0x00f5, 0x02), (0x00d9, 0x05), (0x00db, 0xce), (0x00dc, 0x03),
   (0x00dd, 0xf8), (0x009f, 0x00), (0x00a3, 0x3c), (0x00b7, 0x00), (0x00bb, 0x3c), (0x00b2, 0x09), (0x00ca, 0x09),
   (0x0198, 0x01), (0x01b0, 0x17), (0x01ad, 0x00), (0x00ff, 0x05), (0x0100, 0x05), (0x0199, 0x05), (0x0109, 0x07),
   (0x010a, 0x30), (0x003f, 0x46), (0x01a6, 0x1b), (0x01ac, 0x3e), (0x01a7, 0x1f), (0x0103, 0x01), (0x0030, 0x00),
   (0x001b, 0x0a), (0x003e, 0x0a), (0x0131, 0x04), (0x0011, 0x10), (0x0014, 0x24), (0x0031, 0xff), (0x00d2, 0x01),
   (0x00f2, 0x01)]

/-- `tof.rs:110-155` `configure_tuning`: stops at the first error. -/
def Tof.writeAll (self : Tof) (w : World) : List (Nat × Nat) → Log → Res Unit
  | [], log => (.ok (), log)
  | (r, v) :: l, log =>
    match self.writeReg w log r v with
    | (.error e, log) => (.error e, log)
    | (.ok _, log) => self.writeAll w l log

/-- `tof.rs:95-102` `check_if_working`. -/
def Tof.checkIfWorking (self : Tof) (w : World) (log : Log) : Res Unit :=
  match self.readReg w log 0x0016 with
  | (.error e, log) => (.error e, log)
  | (.ok data, log) => if data = 0x01 then (.ok (), log) else (.error .wouldBlock, log)

/-- `lib.rs:9-14` `wait_ok!` around a call, also around a `block!`ed one: repeat until it succeeds. -/
def waitOk {α : Type} (f : Log → Res α) : Nat → Log → R (α × Log)
  | 0, _ => .error .diverge
  | n + 1, log =>
    match f log with
    | (.ok a, log) => .ok (a, log)
    | (.error _, log) => waitOk f n log

/-- `tof.rs:64-83` `init`. Fuel for each of the loops. `state` is not reset. -/
def Tof.init (self : Tof) (w : World) (fuel newAddress : Nat) (log : Log) : R (Tof × Log) := do
  let (_, log) ← waitOk (fun log => perform w log (.enable false)) fuel log
  let (_, log) ← waitOk (fun log => perform w log (.enable true)) fuel log
  let log := log ++ [(.delay 1, some 0)]
  let (_, log) ← waitOk (fun log => self.checkIfWorking w log) fuel log
  let (_, log) ← waitOk (fun log => self.writeAll w tuning log) fuel log
  let (_, log) ← waitOk (fun log => self.writeReg w log 0x0014 0x04) fuel log
  let (_, log) ← waitOk (fun log => self.writeReg w log 0x0212 newAddress) fuel log
  return ({ self with address := newAddress }, log)

/-- `tof.rs:41-42` `DEFAULT_ADDRESS`. -/
def defaultAddress : Nat := 0x29

/-- `tof.rs:47-62` `new`. -/
def new (w : World) (fuel newAddress : Nat) : R (Tof × Log) :=
  Tof.init ⟨defaultAddress, .idle⟩ w fuel newAddress []

end Verif.Tof
