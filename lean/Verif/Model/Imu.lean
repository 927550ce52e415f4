import Verif.Model.Basic
import Mathlib.Data.Real.Basic
/-!
# Model of the inertial sensor driver, `sensors2/src/imu.rs`

As in the model of the distance sensor the world is an arbitrary function of everything done so far, answering each
operation with an error or with bytes. Simplifications: `spi.transfer` returns as many bytes as it was given (the contract
of `embedded_hal`), so missing bytes are read as 0 instead of panicking; waiting for the timer is one operation whose
result is ignored, as in the code; offsets are real numbers.
-/
namespace Verif.Imu
open Verif

inductive Op where
  /-- `cs.set_low()`, `cs.set_high()` -/
  | cs (high : Bool)
  /-- `spi.transfer(bytes)` -/
  | transfer (bytes : List Nat)
  /-- `delay.delay_ms(..)` -/
  | delay (ms : Nat)
  /-- `block!(timer.wait())` -/
  | timer
  deriving DecidableEq, Repr

abbrev Log := List (Op × Option (List Nat))

abbrev World := Log → Op → Option (List Nat)

/-- `imu.rs:21-25` `ICM20648` without the pin. -/
structure Imu where
  accelOffset : ℝ
  gyroOffset : ℝ

/-- How a driver function ends: a value, an error, or (in the model) out of fuel in a `wait_ok!` loop. -/
inductive Out (α : Type) where
  | ok (a : α)
  | err
  | hang

/-- A driver function. -/
abbrev M (α : Type) := World → Imu × Log → Out α × (Imu × Log)

def M.pure {α : Type} (a : α) : M α := fun _ s => (.ok a, s)

/-- Sequencing with `?`. -/
def M.bind {α β : Type} (m : M α) (f : α → M β) : M β := fun w s =>
  match m w s with
  | (.ok a, s) => f a w s
  | (.err, s) => (.err, s)
  | (.hang, s) => (.hang, s)

instance : Monad M where
  pure := M.pure
  bind := M.bind

def perform (op : Op) : M (List Nat) := fun w (self, log) =>
  match w log op with
  | none => (.err, self, log ++ [(op, none)])
  | some v => (.ok v, self, log ++ [(op, some v)])

/-- Operations whose result is ignored or that cannot fail. -/
def note (op : Op) : M Unit := fun w (self, log) => (.ok (), self, log ++ [(op, w log op)])

def get : M Imu := fun _ (self, log) => (.ok self, self, log)

def set (i : Imu) : M Unit := fun _ (_, log) => (.ok (), i, log)

/-- `imu.rs:153-163` and `176-186`, the common part of `write_to_register` and `read_from_registers`: the result of the
transfer is returned only after chip select has been released. -/
def access (bytes : List Nat) : M (List Nat) := fun w s =>
  match perform (.cs false) w s with
  | (.ok _, s) =>
    let (res, s) := perform (.transfer bytes) w s
    match perform (.cs true) w s with
    | (.ok _, s) => (res, s)
    | (.err, s) => (.err, s)
    | (.hang, s) => (.hang, s)
  | (.err, s) => (.err, s)
  | (.hang, s) => (.hang, s)

/-- `imu.rs:153-173` `write_to_register`. -/
def writeReg (address data : Nat) : M Unit := do
  let _ ← access [address, data]
  return ()

/-- `imu.rs:176-196` `read_from_registers` with a buffer for `n` bytes of data. -/
def readReg (address n : Nat) : M (List Nat) := do
  let bytes ← access ((address ||| 0x80) :: List.replicate n 0)
  return bytes.drop 1

/-- `imu.rs:198-201` `connect_raw_data`. -/
def connect (higher lower : Nat) : Int :=
  let v : Nat := (higher <<< 8 ||| lower) % 2 ^ 16
  if v < 2 ^ 15 then (v : Int) else (v : Int) - 2 ^ 16

/-- `imu.rs:203-205`. -/
noncomputable def toGyro (raw : Int) : ℝ := 0.0010642251 * raw * 0.99

/-- `imu.rs:207-209`. -/
noncomputable def toAccel (raw : Int) : ℝ := 0.0005985504 * raw

/-- `imu.rs:211-221` `angular_velocity`. -/
noncomputable def angularVelocity : M ℝ := do
  let buffer ← readReg 0x37 2
  let self ← get
  return toGyro (connect (buffer.getD 0 0) (buffer.getD 1 0)) - self.gyroOffset

/-- `imu.rs:223-233` `translational_acceleration`. -/
noncomputable def translationalAcceleration : M ℝ := do
  let buffer ← readReg 0x2F 2
  let self ← get
  return -toAccel (connect (buffer.getD 0 0) (buffer.getD 1 0)) - self.accelOffset

/-- `imu.rs:123-129` the loop of `calibrate`, with the two sums. -/
noncomputable def calibrateLoop : Nat → ℝ → ℝ → M (ℝ × ℝ)
  | 0, a, g => return (a, g)
  | n + 1, a, g => do
    let accel ← translationalAcceleration
    let gyro ← angularVelocity
    note .timer
    calibrateLoop n (a + accel) (g + gyro)

/-- `imu.rs:116-133` `calibrate`. -/
noncomputable def calibrate : M Unit := do
  let (a, g) ← calibrateLoop 1000 0 0
  let self ← get
  set ⟨self.accelOffset + a / 1000, self.gyroOffset + g / 1000⟩

/-- `imu.rs:135-143` `check_who_am_i`; `WouldBlock` and errors are both repeated by the caller. -/
def checkWhoAmI : M Unit := do
  let buffer ← readReg 0x00 1
  if buffer.getD 0 0 = 0xE0 then return () else (fun _ s => (.err, s) : M Unit)

/-- `lib.rs:9-14` `wait_ok!`. -/
def waitOk {α : Type} (m : M α) : Nat → M α
  | 0 => fun _ s => (.hang, s)
  | n + 1 => fun w s =>
    match m w s with
    | (.ok a, s) => (.ok a, s)
    | (.hang, s) => (.hang, s)
    | (.err, s) => waitOk m n w s

/-- `imu.rs:90-93` the closure `write`. -/
def writeWait (fuel register value : Nat) : M Unit := do
  note (.delay 1)
  waitOk (writeReg register value) fuel

/-- `imu.rs:78-114` `init`. -/
noncomputable def init (fuel : Nat) : M Unit := do
  waitOk (writeReg 0x06 0x80) fuel
  note (.delay 10)
  waitOk checkWhoAmI fuel
  writeWait fuel 0x06 0x01
  writeWait fuel 0x05 0x00
  writeWait fuel 0x7F 0x20
  writeWait fuel 0x01 0x06
  writeWait fuel 0x14 0x00
  writeWait fuel 0x7F 0x00
  set ⟨0, 0⟩
  waitOk calibrate fuel
  waitOk calibrate fuel

end Verif.Imu
