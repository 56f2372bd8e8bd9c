import Verif.Knx.Frame
import Verif.MemMap.Model

/-!
# The memories of a device and the memory services

Models the user EEPROM (without its flash image, which is the subject of `Verif.Eeprom`), the user
RAM, the virtual flash memory (`Verif.MemMap`) and `BcuDefault::processApciMemoryOperation`
(`sblib/src/eib/bcu_default.cpp`) for the five device types of the library.
-/

namespace Verif.Dev

open Verif.Knx

/-- The device types: classes `BCU1`, `BCU2`, `MASK0701`, `MASK0705`, `SYSTEMB`. -/
inductive Kind
  | bcu1 | bcu2 | mask0701 | mask0705 | systemb
  deriving DecidableEq, Repr

/-- Start address of the user EEPROM: userEepromBCU1.h:18, userEepromBCU2.h:18,
userEepromMASK0701.h:19, userEepromMASK0705.h:13, userEepromSYSTEMB.h:13. -/
def Kind.eeStart : Kind → Nat
  | .bcu1 | .bcu2 => 0x100
  | .mask0701 | .mask0705 => 0x3f00
  | .systemb => 0x3300

/-- Size of the user EEPROM (same lines). -/
def Kind.eeSize : Kind → Nat
  | .bcu1 => 256
  | .bcu2 => 1024
  | _ => 3072

/-- Start address of the user RAM: userRamBCU1.h:24, userRamBCU2.h:21, userRamMASK0701.h:20,
userRamMASK0705.h:20, userRamSYSTEMB.h:20.  The user can move it with `setUserRamStart`
(userRam.cpp:109-113), which is not modelled. -/
def Kind.ramStart : Kind → Nat
  | .bcu1 | .bcu2 => 0
  | _ => 0x5fc

/-- Size of the user RAM without the three shadow bytes (same lines; userRam.cpp:25-34). -/
def Kind.ramSize : Kind → Nat
  | .bcu1 | .bcu2 => 0x100
  | _ => 0x304

/-- `getMaskVersion`: bcu1.h:48, bcu2.h:86, mask0701.h:37, mask0705.h:37, systemb.h:37. -/
def Kind.maskVersion : Kind → Word
  | .bcu1 => 0x12#16
  | .bcu2 => 0x20#16
  | .mask0701 => 0x701#16
  | .mask0705 => 0x705#16
  | .systemb => 0x7B0#16

/-- `BcuBase::RestartType`, bcu_base.h:122-128. -/
inductive RestartType
  | none | basic | master | masterIntoBootloader
  deriving DecidableEq, Repr

/-- The part of a device that does not change: type, flash hardware, area of the virtual memory. -/
structure World where
  kind : Kind
  E : Iap.Env
  mc : MemMap.Cfg

/-- The state of a device as far as the management services see it. -/
structure Dev where
  /-- `userEepromData`, by offset -/
  ee : Nat → Byte
  /-- `userRamData`, by offset -/
  ram : Nat → Byte
  /-- `UserRam::_status` -/
  status : Byte
  /-- `UserRam::_runState` -/
  runState : Byte
  /-- `BcuBase::enabled` -/
  enabled : Bool
  /-- the EEPROM was marked with `modified(true)` -/
  eeModified : Bool
  /-- `memMapper`, if the application has set one -/
  mapper : Option MemMap.St
  /-- `TLayer4::_ownAddress` -/
  ownAddr : Word
  /-- `BCU2::commObjectTableAddressStatic` -/
  comTabStatic : Word
  /-- `BcuBase::restartType` -/
  restart : RestartType
  /-- the code has done something the C++ standard leaves undefined (access outside an array, null
  pointer) -/
  undef : Bool

/-- `memcpy(dst + at, src + off, n)`. -/
def blit (dst : Nat → Byte) (at_ : Nat) (src : Nat → Byte) (off n : Nat) : Nat → Byte :=
  fun i => if at_ ≤ i ∧ i < at_ + n then src (off + (i - at_)) else dst i

/-- The bytes of a list, stored one after the other from `at_`. -/
def put (dst : Nat → Byte) (at_ : Nat) (l : List Byte) : Nat → Byte :=
  fun i => if at_ ≤ i ∧ i < at_ + l.length then l.getD (i - at_) 0#8 else dst i

/-- `n` bytes of a buffer from `off`. -/
def slice (b : Nat → Byte) (off n : Nat) : List Byte := (List.range n).map (fun i => b (off + i))

/-- `userEeprom->inRange(address)`, memory.cpp:45-48. -/
def eeIn (k : Kind) (a : Nat) : Bool := decide (k.eeStart ≤ a ∧ a < k.eeStart + k.eeSize)

/-- `userEeprom->inRange(start, end)`, memory.cpp:50-55. -/
def eeInRange (k : Kind) (a b : Nat) : Bool :=
  decide (a ≤ b ∧ k.eeStart ≤ a ∧ b < k.eeStart + k.eeSize)

/-- `userRam->inRange(address)`, memory.cpp:45-48 (`endAddress` without the shadow bytes,
userRam.cpp:32). -/
def ramIn (k : Kind) (a : Nat) : Bool := decide (k.ramStart ≤ a ∧ a < k.ramStart + k.ramSize)

/-- `userRam->inRange(start, end)`, memory.cpp:50-55. -/
def ramInRange (k : Kind) (a b : Nat) : Bool :=
  decide (a ≤ b ∧ k.ramStart ≤ a ∧ b < k.ramStart + k.ramSize)

/-- `statusOffset()`, userRamBCU1.h:41 and :47. -/
def statusOffset : Nat := 0x60

/-- `UserRam::isStatusAddress`, userRam.cpp:46-51. -/
def isStatusAddress (a : Nat) : Bool := a == statusOffset

/-- The loop of `cpyToUserRam`, userRam.cpp:69-77: `count`, `address`, index into the buffer. -/
def ramStore (src : Nat → Byte) : Nat → Nat → Nat → Dev → Dev
  | 0, _, _, d => d
  | n + 1, a, o, d =>
    ramStore src n (a + 1) (o + 1)
      (if a = statusOffset then { d with status := src o }
       else { d with ram := fun i => if i = a then src o else d.ram i })

/-- `UserRam::cpyToUserRam`, userRam.cpp:53-79; the buffer is `src + off`. -/
def cpyToUserRam (k : Kind) (d : Dev) (address : Nat) (src : Nat → Byte) (off count : Nat) : Dev :=
  if address = statusOffset ∧ count = 1 then { d with status := src off }
  else
    let a := address - k.ramStart
    if statusOffset < a ∨ a + count < statusOffset then
      { d with ram := blit d.ram a src off count }
    else ramStore src count a off d

/-- The loop of `cpyFromUserRam`, userRam.cpp:97-105. -/
def ramLoad (d : Dev) : Nat → Nat → Nat → (Nat → Byte) → (Nat → Byte)
  | 0, _, _, b => b
  | n + 1, a, o, b =>
    ramLoad d n (a + 1) (o + 1)
      (fun i => if i = o then (if a = statusOffset then d.status else d.ram a) else b i)

/-- `UserRam::cpyFromUserRam`, userRam.cpp:81-107; the buffer is `dst + off`. -/
def cpyFromUserRam (k : Kind) (d : Dev) (address : Nat) (dst : Nat → Byte) (off count : Nat) :
    Nat → Byte :=
  if address = statusOffset ∧ count = 1 then fun i => if i = off then d.status else dst i
  else
    let a := address - k.ramStart
    if statusOffset < a ∨ a + count < statusOffset then blit dst off d.ram a count
    else ramLoad d count a off dst

/-- The variables of `processApciMemoryOperation`: the device, the buffer `payLoad` points into,
`addressStart`, the index `payLoad` points to, `!startNotFound`. -/
structure Pos where
  d : Dev
  buf : Nat → Byte
  addr : Nat
  off : Nat
  found : Bool

/-- One byte read or written through the mapper, bcu_default.cpp:337-340. -/
def mapOp (W : World) (rd : Bool) (s : MemMap.St) (p : Pos) (n : Nat) : Pos × Bool :=
  if rd then
    let r := MemMap.readMemPtr W.E W.mc false n s (p.addr : Int)
    ({ p with d := { p.d with mapper := some r.1 }, buf := put p.buf p.off r.2.2 }, r.2.1 == 0)
  else
    let r := MemMap.writeMemPtr W.E W.mc s (p.addr : Int) (slice p.buf p.off n)
    ({ p with d := { p.d with mapper := some r.1 } }, r.2 == 0)

/-- The loop byte by byte, bcu_default.cpp:332-355. -/
def mapBytes (W : World) (rd : Bool) : Nat → Pos → Pos
  | 0, p => p
  | n + 1, p =>
    match p.d.mapper with
    | none => p
    | some s =>
      if MemMap.isMapped W.mc s (p.addr : Int) then
        let r := mapOp W rd s p 1
        if r.2 then mapBytes W rd n { r.1 with addr := r.1.addr + 1, off := r.1.off + 1, found := true }
        else r.1
      else p

/-- The mapper part of an iteration, bcu_default.cpp:308-357; `some b` is `return (b)`. -/
def viaMapper (W : World) (rd : Bool) (fin : Nat) (p : Pos) : Pos × Option Bool :=
  match p.d.mapper with
  | none => (p, none)
  | some s =>
    if MemMap.isMapped W.mc s (p.addr : Int) && MemMap.isMapped W.mc s (fin : Int) then
      let r := mapOp W rd s p (fin + 1 - p.addr)
      (r.1, some r.2)
    else if MemMap.isMapped W.mc s (p.addr : Int) then (mapBytes W rd (fin + 1 - p.addr) p, none)
    else (p, none)

/-- `memcpy` between buffer and EEPROM, bcu_default.cpp:363-372 and :380-389; `n` is `copyCount`. -/
def eeCopy (W : World) (rd : Bool) (p : Pos) (n : Nat) : Pos :=
  let at_ := p.addr - W.kind.eeStart
  if rd then { p with buf := blit p.buf p.off p.d.ee at_ n }
  else { p with d := { p.d with ee := blit p.d.ee at_ p.buf p.off n, eeModified := true } }

/-- The EEPROM part of an iteration, bcu_default.cpp:359-394. -/
def viaEeprom (W : World) (rd : Bool) (fin : Nat) (p : Pos) : Pos × Option Bool :=
  if eeInRange W.kind p.addr fin then (eeCopy W rd p (fin - p.addr + 1), some true)
  else if eeIn W.kind p.addr then
    let n := W.kind.eeStart + W.kind.eeSize - 1 - p.addr + 1
    ({ eeCopy W rd p n with addr := p.addr + n, off := p.off + n, found := true }, none)
  else (p, none)

/-- Copy between buffer and RAM, bcu_default.cpp:401-404 and :412-415. -/
def ramCopy (W : World) (rd : Bool) (p : Pos) (n : Nat) : Pos :=
  if rd then { p with buf := cpyFromUserRam W.kind p.d p.addr p.buf p.off n }
  else { p with d := cpyToUserRam W.kind p.d p.addr p.buf p.off n }

/-- The RAM part of an iteration, bcu_default.cpp:396-420. -/
def viaRam (W : World) (rd : Bool) (fin : Nat) (p : Pos) : Pos × Option Bool :=
  if ramInRange W.kind p.addr fin || (isStatusAddress p.addr && isStatusAddress fin) then
    (ramCopy W rd p (fin - p.addr + 1), some true)
  else if ramIn W.kind p.addr then
    let n := W.kind.ramStart + W.kind.ramSize - 1 - p.addr + 1
    ({ ramCopy W rd p n with addr := p.addr + n, off := p.off + n, found := true }, none)
  else (p, none)

/-- One iteration, bcu_default.cpp:306-435. -/
def memIter (W : World) (rd : Bool) (fin : Nat) (p : Pos) : Pos × Option Bool :=
  let r1 := viaMapper W rd fin { p with found := false }
  match r1.2 with
  | some b => (r1.1, some b)
  | none =>
    let r2 := viaEeprom W rd fin r1.1
    match r2.2 with
    | some b => (r2.1, some b)
    | none => viaRam W rd fin r2.1

/-- The loop and the result, bcu_default.cpp:304-451.  Every iteration but the last advances
`addressStart`, so the number of bytes bounds the number of iterations (`memOp` gives one more). -/
def memLoop (W : World) (rd : Bool) (fin : Nat) : Nat → Pos → Pos × Bool
  | 0, p => (p, fin + 1 == p.addr)
  | n + 1, p =>
    if p.found ∧ p.addr ≤ fin then
      let r := memIter W rd fin p
      match r.2 with
      | some b => (r.1, b)
      | none => memLoop W rd fin n r.1
    else (p, fin + 1 == p.addr)

/-- `BcuDefault::processApciMemoryOperation(addressStart, payLoad, lengthPayLoad, readMem)`,
bcu_default.cpp:280-452; `payLoad` is `buf + off`.  The overflow test of the 32 bit address
(lines 290-298) cannot succeed for the 16 bit addresses and lengths of a telegram and is left out.
-/
def memOp (W : World) (rd : Bool) (d : Dev) (start : Nat) (buf : Nat → Byte) (off len : Nat) :
    Dev × (Nat → Byte) × Bool :=
  if len = 0 then (d, buf, false)
  else
    let r := memLoop W rd (start + len - 1) (len + 1) ⟨d, buf, start, off, true⟩
    (r.1.d, r.1.buf, r.2)

end Verif.Dev
