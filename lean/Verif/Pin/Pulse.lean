import Verif.Base

/-!
# Measuring pulses: `pulseIn` and the DHT sensors

Modelled: lpc11xx/digital_pin_pulse.cpp and sensors/dht.cpp up to the values as integers (hundredths).

Simplifications: `σ i` is the level of the pin at the `i`-th time the loops read it, an arbitrary function; the configuration of the pin (`pinMode`,
C74) and the delays of the start signal (C72) are left out; the differences of `int` times wrap around; floating point numbers are not
modelled: temperature and humidity are kept in hundredths, as the integers the code computes before dividing by 100.
-/

namespace Verif.Pulse

open Verif

/-! ## pulseIn -/

/-- One of the loops of `pulseIn`, digital_pin_pulse.cpp:27-40: while the reading equals `state` (or does not, if `same` is false) count; `left` is how
many more readings are allowed. Result: readings counted, readings left, next reading; `none` if the limit is reached. -/
def pulseLoop (σ : Nat → Bool) (state same : Bool) : Nat → Nat → Nat → Option (Nat × Nat × Nat)
  | 0, count, i => if (σ i == state) = same then none else some (count, 0, i + 1)
  | left + 1, count, i => if (σ i == state) = same then pulseLoop σ state same left (count + 1) (i + 1) else some (count, left + 1, i + 1)

/-- `pulseIn`, digital_pin_pulse.cpp:18-47, with `perUs` clocks per microsecond (timer.h:84-102). -/
def pulseIn (σ : Nat → Bool) (perUs : U32) (state : Bool) (timeout : U32) : U32 :=
  let maxloops := timeout * perUs
  match pulseLoop σ state true maxloops.toNat 0 0 with
  | none => 0#32
  | some (_, left, i) =>
    match pulseLoop σ state false left 0 i with
    | none => 0#32
    | some (_, left, i) =>
      match pulseLoop σ state true left 0 i with
      | none => 0#32
      | some (width, _, _) => (BitVec.ofNat 32 width * 21#32 + 16#32) / perUs

/-! ## DHT -/

inductive Err where
  | none | notPresent | dataTimeout | checksum | timerNotReached
  deriving DecidableEq, Repr

structure Dht where
  dht22 : Bool
  lastRead : U32
  error : Err
  data : Nat → Byte
  /-- Hundredths of a degree. -/
  temperature : Int
  /-- Hundredths of a percent. -/
  humidity : Int
  /-- The interrupt of the pin is enabled. -/
  pinInt : Bool
  maxcycles : Nat

/-- `DHT::DHTInit`, dht.cpp:27-38, with `perUs` clocks per microsecond. -/
def dhtInit (dht22 : Bool) (perUs : Nat) (data : Nat → Byte) (pinInt : Bool) : Dht :=
  ⟨dht22, BitVec.ofInt 32 (-2000), .none, data, 0, 0, pinInt, 1000 * perUs⟩

/-- `DHT::expectPulse`, dht.cpp:182-191; the first argument is `_maxcycles - count`. Result: the count, next reading. -/
def expectPulse (σ : Nat → Bool) (level : Bool) : Nat → Nat → Nat → Nat × Nat
  | 0, count, i => if σ i = level then (0, i + 1) else (count, i + 1)
  | left + 1, count, i => if σ i = level then expectPulse σ level left (count + 1) (i + 1) else (count, i + 1)

/-- Reading the pulses into bytes, dht.cpp:99-102. -/
def readPulses (σ : Nat → Bool) (max : Nat) : Nat → Nat → List (Byte × Byte)
  | 0, _ => []
  | n + 1, i =>
    let l := expectPulse σ false max 0 i
    let h := expectPulse σ true max 0 l.2
    (BitVec.ofNat 8 l.1, BitVec.ofNat 8 h.1) :: readPulses σ max n h.2

/-- Evaluating the pulses, dht.cpp:108-122. -/
def evalPulses : List (Byte × Byte) → Nat → (Nat → Byte) → (Nat → Byte) × Err
  | [], _, data => (data, .none)
  | (low, high) :: l, i, data =>
    if low = 0#8 ∨ high = 0#8 then (data, .dataTimeout)
    else
      let b := data (i / 8) <<< 1
      let b := if high > low then b ||| 1#8 else b
      evalPulses l (i + 1) (fun k => if k = i / 8 then b else data k)

/-- The values, dht.cpp:133-149. -/
def values (d : Dht) : Dht :=
  let n := fun k => ((d.data k).toNat : Int)
  let neg := d.data 2 &&& 0x80#8 ≠ 0#8
  let abs : Int := ((0x7f#8 &&& d.data 2).toNat : Int)
  if d.dht22 then
    { d with
      temperature := if neg then (abs * 256 + n 3) * -10 else (n 2 * 256 + n 3) * 10
      humidity := (n 0 * 256 + n 1) * 10 }
  else
    { d with
      temperature := if neg then abs * -100 else n 2 * 100
      humidity := n 0 * 100 }

/-- The critical section, dht.cpp:77-123. -/
def acquire (d : Dht) (σ : Nat → Bool) : Dht :=
  let d := { d with pinInt := false }
  let a := expectPulse σ false d.maxcycles 0 0
  if a.1 = 0 then { d with error := .dataTimeout }
  else
    let b := expectPulse σ true d.maxcycles 0 a.2
    if b.1 = 0 then { d with error := .notPresent }
    else
      let cycles := readPulses σ d.maxcycles 40 b.2
      let d := { d with pinInt := true }
      let r := evalPulses cycles 0 d.data
      { d with data := r.1, error := r.2 }

/-- `DHT::readData`, dht.cpp:51-153. -/
def readData (d : Dht) (now : U32) (force : Bool) (σ : Nat → Bool) : Bool × Dht :=
  let d := { d with error := .none }
  if !force && decide ((now - d.lastRead).toInt < 2000) then (false, { d with error := .timerNotReached })
  else
    let d := { d with lastRead := now, data := fun k => if k < 5 then 0#8 else d.data k }
    let d := acquire d σ
    if d.error ≠ .none then (false, d)
    else if d.data 4 ≠ d.data 0 + d.data 1 + d.data 2 + d.data 3 then (false, { d with error := .checksum })
    else (true, values d)

end Verif.Pulse
