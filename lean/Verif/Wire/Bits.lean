import Verif.Base

/-!
# 1-Wire: what is on the wire

Modelled: the bit and byte functions and the reset of `OneWire` (onewire.cpp:51-304).

The time line is a list of segments: what the master does to the line, and for how long. `dur i n` is the time the `i`-th call of
`delayMicroseconds(n)` takes (C72), interrupts included: `pinDisableInterrupt` disables only the interrupt of the pin itself, not those of
the processor. `σ trace` is the level of the line when the master does not drive it, an arbitrary function of all that was done before.

Simplifications: statements other than delays take no time (it is part of the delays); `pinMode(OUTPUT)` followed by `digitalWrite(0)` is one step;
`digitalWrite` to an input changes nothing; the configuration registers of the pin are those of C74; `ONEWIRE_INTERNAL_PULLUP` is 1 (onewire.h:27).
-/

namespace Verif.Wire.Bits

open Verif

/-- What the master does to the line. -/
inductive Drive where
  | low | high | up | float
  deriving DecidableEq, Repr

abbrev Trace := List (Drive × Nat)

structure St where
  trace : Trace
  drive : Drive
  /-- The interrupt of the pin is enabled. -/
  irq : Bool
  /-- Number of delays done. -/
  nd : Nat
  /-- `m_bParasitePowerMode` -/
  parasite : Bool

/-- `delayMicroseconds(n)`, timer.cpp:66-96. -/
def wait (dur : Nat → Nat → Nat) (n : Nat) (s : St) : St := { s with trace := s.trace ++ [(s.drive, dur s.nd n)], nd := s.nd + 1 }

/-- `digitalRead`, digital_pin.h:344-347. -/
def level (σ : Trace → Bool) (s : St) : Bool :=
  match s.drive with
  | .low => false
  | .high => true
  | .up => σ s.trace
  | .float => σ s.trace

/-- The loop onewire.cpp:62-65, with `retries` left; false: given up. -/
def resetLoop (σ : Trace → Bool) (dur : Nat → Nat → Nat) : Nat → St → Bool × St
  | 0, s => (false, s)
  | retries + 1, s =>
    if retries = 0 then (false, s)
    else
      let s := wait dur 2 s
      if level σ s = false then resetLoop σ dur retries s else (true, s)

/-- `OneWireReset`, onewire.cpp:51-81. -/
def reset (σ : Trace → Bool) (dur : Nat → Nat → Nat) (s : St) : Bool × St :=
  let s := { s with irq := false }
  let bHigh := level σ s
  let r := resetLoop σ dur 125 { s with drive := .up }
  if r.1 = false then (false, r.2)
  else
    let s := if !bHigh then wait dur 60 r.2 else r.2
    let s := wait dur 480 { s with drive := .low }
    let s := wait dur 70 { s with drive := .up }
    let ret := !level σ s
    let s := wait dur 410 s
    (ret, { s with irq := true })

/-- `OneWireWriteBit`, onewire.cpp:95-112. -/
def writeBit (dur : Nat → Nat → Nat) (v : Byte) (s : St) : St :=
  let s := { s with irq := false, drive := .low }
  let s :=
    if v &&& 1#8 ≠ 0#8 then wait dur 55 { wait dur 10 s with drive := .high }
    else wait dur 5 { wait dur 65 s with drive := .high }
  { s with irq := true }

/-- `OneWireReadBit`, onewire.cpp:125-142. -/
def readBit (σ : Trace → Bool) (dur : Nat → Nat → Nat) (s : St) : Bool × St :=
  let s := wait dur 3 { s with irq := false, drive := .low }
  let s := wait dur 10 { s with drive := .up }
  let ret := level σ s
  (ret, { wait dur 53 s with irq := true })

/-- onewire.cpp:170-178, 198-206: let the pin float unless the devices take their power from the line. -/
def depowerUnless (s : St) : St := if s.parasite then s else { s with drive := .float, irq := true }

/-- The loop onewire.cpp:165-168, over the values of `bitMask`. -/
def writeLoop (dur : Nat → Nat → Nat) (v : Byte) : List Byte → St → St
  | [], s => s
  | m :: l, s => writeLoop dur v l (writeBit dur (if m &&& v ≠ 0#8 then 1#8 else 0#8) s)

/-- The values of `bitMask` in onewire.cpp:165 and 223. -/
def masks : List Byte := [0x01#8, 0x02#8, 0x04#8, 0x08#8, 0x10#8, 0x20#8, 0x40#8, 0x80#8]

/-- `OneWireWrite`, onewire.cpp:162-179. -/
def write (dur : Nat → Nat → Nat) (v : Byte) (s : St) : St := depowerUnless (writeLoop dur v masks s)

/-- `OneWireWriteBytes`, onewire.cpp:195-207. -/
def writeBytes (dur : Nat → Nat → Nat) (buf : List Byte) (s : St) : St := depowerUnless (buf.foldl (fun s v => write dur v s) s)

/-- The loop onewire.cpp:223-226. -/
def readLoop (σ : Trace → Bool) (dur : Nat → Nat → Nat) : List Byte → Byte → St → Byte × St
  | [], v, s => (v, s)
  | m :: l, v, s =>
    let r := readBit σ dur s
    readLoop σ dur l (if r.1 then v ||| m else v) r.2

/-- `OneWireRead`, onewire.cpp:219-228. -/
def read (σ : Trace → Bool) (dur : Nat → Nat → Nat) (s : St) : Byte × St := readLoop σ dur masks 0#8 s

/-- `OneWireReadBytes`, onewire.cpp:240-246. -/
def readBytes (σ : Trace → Bool) (dur : Nat → Nat → Nat) : Nat → St → List Byte × St
  | 0, s => ([], s)
  | n + 1, s =>
    let r := read σ dur s
    let q := readBytes σ dur n r.2
    (r.1 :: q.1, q.2)

/-- `OneWireSelect`, onewire.cpp:259-266. -/
def select (dur : Nat → Nat → Nat) (rom : List Byte) (s : St) : St := rom.foldl (fun s v => write dur v s) (write dur 0x55#8 s)

/-- `OneWireSkip`, onewire.cpp:279-282. -/
def skip (dur : Nat → Nat → Nat) (s : St) : St := write dur 0xcc#8 s

/-- `OneWireDePower`, onewire.cpp:298-304. -/
def dePower (s : St) : St := { s with drive := .float, irq := true }

end Verif.Wire.Bits
