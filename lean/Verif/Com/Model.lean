import Verif.Util.Bytes

/-!
# Model of the communication objects and of the address tables (BCU1, BCU2, masks 0701 and 0705)

Files: sblib/src/eib/com_objects.cpp, com_objectsBCU1.cpp, com_objectsBCU2.cpp, addr_tables.cpp,
addr_tablesBCU1.cpp, addr_tablesBCU2.cpp, apci.cpp, parts of knx_lpdu.h and bcu_default.cpp.

The user memory (user RAM and user EEPROM) is one map from addresses of the device to bytes; a C++ pointer into
`userRamData` or `userEepromData` is the device address of the byte it points to. Simplification: a pointer that
runs out of its array (undefined behaviour in C++) reads or writes the neighbouring device address in the model.
A null pointer is `none`; where the code dereferences it without a test the model uses address 0 (`getD 0`).
-/

namespace Verif.Com

open Verif.Bytes (makeWord)

/-- User memory: device address to byte. -/
abbrev Mem := Nat → Byte

/-- Store a byte. -/
def poke (m : Mem) (a : Nat) (b : Byte) : Mem := fun i => if i = a then b else m i

/-- Which of the two class families (`ComObjectsBCU1`/`AddrTablesBCU1` or `ComObjectsBCU2`/`AddrTablesBCU2`). -/
inductive Kind where
  | bcu1 | bcu2
  deriving DecidableEq, Repr

/-- The device: class family, `le_ptr == LITTLE_ENDIAN` (com_objects.h:362), address ranges of `Memory` (memory.cpp:24-28). -/
structure Bcu where
  kind : Kind
  littleEndian : Bool
  ramStart : Nat
  ramSize : Nat
  eepStart : Nat
  eepSize : Nat

/-- class BCU1: userRamBCU1.h:24, userEepromBCU1.h. -/
def BCU1 : Bcu := ⟨.bcu1, false, 0, 0x100, 0x100, 256⟩
/-- class BCU2: userRamBCU2.h, userEepromBCU2.h. -/
def BCU2 : Bcu := ⟨.bcu2, false, 0, 0x100, 0x100, 1024⟩
/-- class MASK0701 (and MASK0705): userRamMASK0701.h, userEepromMASK0701.h. -/
def MASK0701 : Bcu := ⟨.bcu2, false, 0x5FC, 0x304, 0x3f00, 3072⟩

/-- `Memory::inRange`, memory.cpp:45-48. -/
def inRange (start size a : Nat) : Bool := a ≥ start && a ≤ start + size - 1

/-- `BcuDefault::userMemoryPtr`, bcu_default.cpp:163-174. -/
def userMemoryPtr (B : Bcu) (addr : Nat) : Option Nat :=
  if inRange B.eepStart B.eepSize addr then some addr
  else if inRange B.ramStart B.ramSize addr then some addr
  else none

/-- `makeWord(*(addr + 1), *addr)` for a word of the EEPROM at offset `off` (addr_tablesBCU2.cpp:36-37, 44-45). -/
def eepWord (B : Bcu) (m : Mem) (off : Nat) : Nat :=
  (makeWord (m (B.eepStart + off + 1)) (m (B.eepStart + off))).toNat

/-! ## Address tables -/

/-- `addrTable()`, addr_tablesBCU1.cpp:32-35, addr_tablesBCU2.cpp:33-39. -/
def addrTable (B : Bcu) (m : Mem) : Option Nat :=
  match B.kind with
  | .bcu1 => some (B.eepStart + 0x16)
  | .bcu2 => userMemoryPtr B (eepWord B m 0x378)

/-- `assocTable()`, addr_tablesBCU1.cpp:37-40, addr_tablesBCU2.cpp:41-45. -/
def assocTable (B : Bcu) (m : Mem) : Option Nat :=
  match B.kind with
  | .bcu1 => some (B.eepStart + (m (B.eepStart + 0x11)).toNat)
  | .bcu2 => userMemoryPtr B (eepWord B m 0x37A)

/-- `addrCount()`, addr_tables.cpp:17-21, addr_tablesBCU2.cpp:47-52. -/
def addrCount (B : Bcu) (m : Mem) : Nat :=
  let tab := (addrTable B m).getD 0
  match B.kind with
  | .bcu1 => (m tab).toNat
  | .bcu2 => (makeWord (m (tab + 1)) (m tab)).toNat

/-- The loop of `indexOfAddr`, addr_tablesBCU1.cpp:23-27 (the same in addr_tablesBCU2.cpp:24-28 and
addr_tablesSYSTEMB.cpp:24-28): remaining rounds, `i`, `tab`. -/
def indexLoop (m : Mem) (addr : Word) : Nat → Nat → Nat → Option Nat
  | 0, _, _ => none
  | n + 1, i, tab =>
    if (m tab).toNat = addr.toNat / 256 ∧ (m (tab + 1)).toNat = addr.toNat % 256 then some i
    else indexLoop m addr n (i + 1) (tab + 2)

/-- `indexOfAddr(addr)`, addr_tablesBCU1.cpp:11-30, addr_tablesBCU2.cpp:12-31; `none` is -1. -/
def indexOfAddr (B : Bcu) (m : Mem) (addr : Word) : Option Nat :=
  match addrTable B m with
  | none => none
  | some tab => indexLoop m addr (m tab).toNat 1 (tab + 3)

/-- `AddrTablesSYSTEMB::indexOfAddr`, addr_tablesSYSTEMB.cpp:12-31, for the table at address `tab`. -/
def indexOfAddrSystemB (m : Mem) (tab : Nat) (addr : Word) : Option Nat :=
  indexLoop m addr ((m tab).toNat * 256 + (m (tab + 1)).toNat) 1 (tab + 2)

/-! ## Tables of the communication objects -/

/-- `objectConfigTable()`, com_objectsBCU1.cpp:136-146, com_objectsBCU2.cpp:26-31. -/
def objectConfigTable (B : Bcu) (m : Mem) : Option Nat :=
  match B.kind with
  | .bcu1 =>
    let p := (m (B.eepStart + 0x12)).toNat
    if p = 0 then none else userMemoryPtr B (p + B.eepStart)
  | .bcu2 => userMemoryPtr B (eepWord B m 0x37C)

/-- A 16-bit pointer stored at `a`, com_objectsBCU2.cpp:19-23, 38-45. -/
def dataPtrWord (B : Bcu) (m : Mem) (a : Nat) : Nat :=
  if B.littleEndian then (makeWord (m (a + 1)) (m a)).toNat else (makeWord (m a) (m (a + 1))).toNat

/-- `objectFlagsTable()`, com_objectsBCU1.cpp:148-157, com_objectsBCU2.cpp:33-47. -/
def objectFlagsTable (B : Bcu) (m : Mem) : Option Nat :=
  match objectConfigTable B m with
  | none => none
  | some t =>
    match B.kind with
    | .bcu1 => userMemoryPtr B (m (t + 1)).toNat
    | .bcu2 => userMemoryPtr B (dataPtrWord B m (t + 1))

/-- Address of the table entry of an object (`objectConfigBCU1`, com_objectsBCU1.cpp:161-169; `objectConfigBCU2`,
com_objectsBCU2.cpp:49-58). Entries are `ComConfigBCU1` (3 bytes) and `ComConfigBCU2` (4 bytes). -/
def objectEntry (B : Bcu) (m : Mem) (objno : Nat) : Nat :=
  let t := (objectConfigTable B m).getD 0
  match B.kind with
  | .bcu1 => t + 1 + 1 + objno * 3
  | .bcu2 => t + 1 + 2 + objno * 4

/-- `objectConfig(objno).config` (com_objectsBCU1.cpp:159, com_objectsBCU2.cpp:60-63, eib/types.h:75-82). -/
def objectConfig (B : Bcu) (m : Mem) (objno : Nat) : Byte :=
  match B.kind with
  | .bcu1 => m (objectEntry B m objno + 1)
  | .bcu2 => m (objectEntry B m objno + 2)

/-- `objectType(objno)`, com_objects.h:385-388. -/
def objectType (B : Bcu) (m : Mem) (objno : Nat) : Nat :=
  match B.kind with
  | .bcu1 => (m (objectEntry B m objno + 2)).toNat
  | .bcu2 => (m (objectEntry B m objno + 3)).toNat

/-- `objectTypeSizes` and `objectSize(objno)` as a function of the type, com_objectsBCU1.cpp:17-28. -/
def sizeOfType (type : Nat) : Int :=
  if type < 6 then 1
  else if type ≤ 15 then ([1, 1, 2, 3, 4, 6, 8, 10, 14, 14] : List Int).getD (type - 6) 0
  else -1

/-- `objectSize(objno)`, com_objectsBCU1.cpp:17-28. -/
def objectSize (B : Bcu) (m : Mem) (objno : Nat) : Int := sizeOfType (objectType B m objno)

/-- `telegramObjectSize(objno)`, com_objects.cpp:219-224. -/
def telegramObjectSize (B : Bcu) (m : Mem) (objno : Nat) : Int :=
  if objectType B m objno < 6 then 0 else objectSize B m objno

/-- `objectValuePtr(objno)`, com_objectsBCU1.cpp:30-50, com_objectsBCU2.cpp:12-24. -/
def objectValuePtr (B : Bcu) (m : Mem) (objno : Nat) : Option Nat :=
  let e := objectEntry B m objno
  match B.kind with
  | .bcu1 =>
    if objectConfigTable B m = none then none
    else if objectConfig B m objno &&& 0x20#8 ≠ 0#8 then userMemoryPtr B ((m e).toNat + B.eepStart)
    else userMemoryPtr B (m e).toNat
  | .bcu2 => userMemoryPtr B (dataPtrWord B m e)

/-- `objectCount()`, com_objects.cpp:325-329. -/
def objectCount (B : Bcu) (m : Mem) : Nat := (m ((objectConfigTable B m).getD 0)).toNat

/-! ## Flags -/

/-- `addObjectFlags(objno, flags)`, com_objects.cpp:226-248. -/
def addObjectFlags (B : Bcu) (m : Mem) (objno : Nat) (flags : Byte) : Mem :=
  match objectFlagsTable B m with
  | none => m
  | some tab =>
    let flags := if objno % 2 = 1 then flags <<< 4 else flags
    poke m (tab + objno / 2) (m (tab + objno / 2) ||| flags)

/-- `setObjectFlags(objno, flags)`, com_objects.cpp:250-276. -/
def setObjectFlags (B : Bcu) (m : Mem) (objno : Nat) (flags : Byte) : Mem :=
  match objectFlagsTable B m with
  | none => m
  | some tab =>
    let p := tab + objno / 2
    if objno % 2 = 1 then poke m p ((m p &&& 0x0f#8) ||| (flags <<< 4))
    else poke m p ((m p &&& 0xf0#8) ||| flags)

/-! ## Reading and writing values -/

/-- The loop of `objectRead`, com_objects.cpp:284-288: `sz` rounds downwards from `ptr`. -/
def readLoop (m : Mem) : Nat → Nat → U32 → U32
  | 0, _, value => value
  | sz + 1, ptr, value => readLoop m sz (ptr - 1) ((value <<< 8) ||| (m (ptr - 1)).setWidth 32)

/-- `objectRead(objno)`, com_objects.cpp:278-290. -/
def objectRead (B : Bcu) (m : Mem) (objno : Nat) : U32 :=
  let sz := (objectSize B m objno).toNat
  let ptr := (objectValuePtr B m objno).getD 0 + sz
  readLoop m (sz - 1) (ptr - 1) ((m (ptr - 1)).setWidth 32)

/-- The loop of `_objectWrite`, com_objects.cpp:304-308. -/
def writeLoop : Nat → Mem → Nat → U32 → Mem
  | 0, m, _, _ => m
  | sz + 1, m, ptr, value => writeLoop sz (poke m ptr (value.setWidth 8)) (ptr + 1) (value >>> 8)

/-- `_objectWrite(objno, value, flags)`, com_objects.cpp:292-312. -/
def objectWriteFlags (B : Bcu) (m : Mem) (objno : Nat) (value : U32) (flags : Byte) : Mem :=
  match objectValuePtr B m objno with
  | none => m
  | some ptr =>
    if objectSize B m objno = -1 then m
    else setObjectFlags B (writeLoop (objectSize B m objno).toNat m ptr value) objno flags

/-- `_objectWriteBytes(objno, value, flags)`, com_objects.cpp:314-323; `value` is the caller's array. -/
def objectWriteBytesFlags (B : Bcu) (m : Mem) (objno : Nat) (value : Nat → Byte) (flags : Byte) : Mem :=
  let ptr := (objectValuePtr B m objno).getD 0
  let sz := (objectSize B m objno).toNat
  let m' : Mem := fun a => if ptr ≤ a ∧ a < ptr + sz then value (a - ptr) else m a
  addObjectFlags B m' objno flags

/-- `objectWrite(objno, value)`, com_objects.h:405-408. -/
def objectWrite (B : Bcu) (m : Mem) (objno : Nat) (value : U32) : Mem := objectWriteFlags B m objno value 0x3#8
/-- `objectWrite(objno, bytes)`, com_objects.h:410-413. -/
def objectWriteBytes (B : Bcu) (m : Mem) (objno : Nat) (value : Nat → Byte) : Mem :=
  objectWriteBytesFlags B m objno value 0x3#8
/-- `objectUpdate(objno, value)`, com_objects.h:420-423. -/
def objectUpdate (B : Bcu) (m : Mem) (objno : Nat) (value : U32) : Mem := objectWriteFlags B m objno value 0x8#8
/-- `objectSetValue(objno, value)`, com_objects.h:400-403. -/
def objectSetValue (B : Bcu) (m : Mem) (objno : Nat) (value : U32) : Mem := objectWriteFlags B m objno value 0x0#8
/-- `requestObjectRead(objno)`, com_objects.h:390-393. -/
def requestObjectRead (B : Bcu) (m : Mem) (objno : Nat) : Mem := setObjectFlags B m objno 0x7#8
/-- `objectWritten(objno)`, com_objects.h:395-398. -/
def objectWritten (B : Bcu) (m : Mem) (objno : Nat) : Mem := addObjectFlags B m objno 0x3#8

/-! ## Association of objects and group addresses -/

/-- The loop of `firstObjectAddr`, com_objects.cpp:336-351: remaining entries, `assocTab`. -/
def firstLoop (B : Bcu) (m : Mem) (objno : Nat) : Nat → Nat → Word
  | 0, _ => 0#16
  | n + 1, p =>
    if (m (p + 1)).toNat ≠ objno then firstLoop B m objno n (p + 2)
    else if (m p).toNat + 1 > addrCount B m then firstLoop B m objno n (p + 2)
    else
      let a := (addrTable B m).getD 0 + 1 + (m p).toNat * 2
      makeWord (m a) (m (a + 1))

/-- `firstObjectAddr(objno)`, com_objects.cpp:331-353. -/
def firstObjectAddr (B : Bcu) (m : Mem) (objno : Nat) : Word :=
  let t := (assocTable B m).getD 0
  firstLoop B m objno (m t).toNat (t + 1)

/-! ## Telegrams -/

/-- A telegram buffer. -/
abbrev Tel := Nat → Byte

/-- Store into a telegram buffer. -/
def setByte (t : Tel) (i : Nat) (b : Byte) : Tel := fun j => if j = i then b else t j

/-- `initLpdu(telegram, PRIORITY_LOW, false, FRAME_STANDARD)`, knx_lpdu.h:79-85, 98-109, 117-120, 157-168. -/
def controlLow : Byte := (((3#8 <<< 2) ||| ((0xB0#8 ||| 0x20#8) &&& 0xF3#8)) ||| 0x80#8)

/-- `telegramSize(tel)`, knx_npdu.h:49. -/
def telegramSize (t : Tel) : Nat := 7 + (t 5 &&& 15#8).toNat

/-- What `sendPreparedTelegram` hands to the bus, knx_tlayer4.cpp:580-584; the sender address (bytes 1 and 2) and the
check sum are filled in by the bus. -/
def prepared (t : Tel) : List Byte := (List.range (telegramSize t)).map t

/-- `reverseCopy(dest, tel + src, len)` between a telegram and the memory, utils.cpp:21-29 (remaining length last). -/
def revCopyIn (m : Mem) (tel : Tel) (src : Nat) : Nat → Nat → Mem
  | _, 0 => m
  | dest, len + 1 => revCopyIn (poke m dest (tel (src + len))) tel src (dest + 1) len

/-- `reverseCopy(tel + dest, valuePtr, len)`, utils.cpp:21-29. -/
def revCopyOut (t : Tel) (m : Mem) (src : Nat) : Nat → Nat → Tel
  | _, 0 => t
  | dest, len + 1 => revCopyOut (setByte t dest (m (src + len))) m src (dest + 1) len

/-- `processGroupWriteTelegram(objno, tel)`, com_objects.cpp:547-563. -/
def processGroupWriteTelegram (B : Bcu) (m : Mem) (objno : Nat) (tel : Tel) : Mem :=
  match objectValuePtr B m objno with
  | none => m
  | some v =>
    let count := telegramObjectSize B m objno
    let m' := if count > 0 then revCopyIn m tel 8 v count.toNat else poke m v (tel 7 &&& 0x3f#8)
    addObjectFlags B m' objno 0x8#8

/-- Loop of `processGroupTelegram` (com_objectsBCU1.cpp:97-133) for the services write and response: remaining entries,
address of the entry. -/
def writeAssocLoop (B : Bcu) (tel : Tel) (trg : Option Nat) (gapos : Nat) : Nat → Nat → Mem → Mem
  | 0, _, m => m
  | n + 1, p, m =>
    if gapos ≠ (m p).toNat then writeAssocLoop B tel trg gapos n (p + 2) m
    else
      let objno := (m (p + 1)).toNat
      if some objno = trg then writeAssocLoop B tel trg gapos n (p + 2) m
      else if objectConfig B m objno &&& 0x14#8 = 0x14#8 then
        writeAssocLoop B tel trg gapos n (p + 2) (processGroupWriteTelegram B m objno tel)
      else writeAssocLoop B tel trg gapos n (p + 2) m

/-- `processGroupTelegram(addr, APCI_GROUP_VALUE_WRITE_PDU or APCI_GROUP_VALUE_RESPONSE_PDU, tel, trg_objno)`,
com_objectsBCU1.cpp:68-134; `trg` `none` is `INVALID_OBJECT_NUMBER`. -/
def processGroupWrite (B : Bcu) (m : Mem) (addr : Word) (tel : Tel) (trg : Option Nat) : Mem :=
  match indexOfAddr B m addr with
  | none => m
  | some gapos =>
    let t := (assocTable B m).getD 0
    writeAssocLoop B tel trg gapos (m t).toNat (t + 1) m

/-- The state of `ComObjects`: user memory, the buffer `sendTelegram` of the transport layer, `sendNextObjIndex`. -/
structure St where
  mem : Mem
  buf : Tel
  next : Nat

/-- `sendGroupReadTelegram(objno, addr)`, com_objects.cpp:355-366, 
with `setDestinationAddress` (knx_lpdu.h:139-143) and `setApciCommand` (apci.cpp:40-45). -/
def sendGroupRead (s : St) (addr : Word) : St × List (List Byte) :=
  let t := setByte s.buf 0 controlLow
  let t := setByte t 3 (BitVec.ofNat 8 (addr.toNat / 256))
  let t := setByte t 4 (BitVec.ofNat 8 addr.toNat)
  let t := setByte t 5 0xe1#8
  let t := setByte t 6 0#8
  let t := setByte t 7 0#8
  ({ s with buf := t }, [prepared t])

/-- The telegram built by `sendGroupWriteTelegram(objno, addr, isResponse)`, com_objects.cpp:368-388, on the old contents
`t` of the buffer. -/
def groupWriteTel (B : Bcu) (m : Mem) (t : Tel) (objno : Nat) (addr : Word) (isResponse : Bool) : Tel :=
  let v := (objectValuePtr B m objno).getD 0
  let objSize := telegramObjectSize B m objno
  let t := setByte t 0 controlLow
  let t := setByte t 3 (BitVec.ofNat 8 (addr.toNat / 256))
  let t := setByte t 4 (BitVec.ofNat 8 addr.toNat)
  let t := setByte t 5 (0xe0#8 ||| (BitVec.ofInt 8 (objSize + 1) &&& 0x0f#8))
  let cmd : Byte := if isResponse then 0x40#8 else 0x80#8
  let addData := if objSize ≠ 0 then 0#8 else m v
  let t := if objSize ≠ 0 then revCopyOut t m v 8 objSize.toNat else t
  let t := setByte t 6 0#8
  setByte t 7 (cmd ||| addData)

/-- `sendGroupWriteTelegram(objno, addr, isResponse)`, com_objects.cpp:368-395. -/
def sendGroupWrite (B : Bcu) (s : St) (objno : Nat) (addr : Word) (isResponse : Bool) : St × List (List Byte) :=
  let t := groupWriteTel B s.mem s.buf objno addr isResponse
  ({ s with buf := t, mem := processGroupWrite B s.mem addr t (some objno) }, [prepared t])

/-- Loop of `processGroupTelegram` (com_objectsBCU1.cpp:97-133) for the service read. -/
def readAssocLoop (B : Bcu) (addr : Word) (gapos : Nat) : Nat → Nat → St → St × List (List Byte)
  | 0, _, s => (s, [])
  | n + 1, p, s =>
    if gapos ≠ (s.mem p).toNat then readAssocLoop B addr gapos n (p + 2) s
    else
      let objno := (s.mem (p + 1)).toNat
      if objectConfig B s.mem objno &&& 0x0c#8 = 0x0c#8 then
        let r := sendGroupWrite B s objno addr true
        let q := readAssocLoop B addr gapos n (p + 2) r.1
        (q.1, r.2 ++ q.2)
      else readAssocLoop B addr gapos n (p + 2) s

/-- `processGroupAddressTelegram` (bcu_default.cpp:207-216) with `apciCommand` (apci.cpp:23-38) and
`processGroupTelegram` (com_objectsBCU1.cpp:68-134), for a telegram received from the bus. `apciCommand` returns
`apci` or `apci & APCI_GROUP_MASK`; masked with `APCI_GROUP_MASK` both are the same. -/
def receiveGroup (B : Bcu) (s : St) (tel : Tel) : St × List (List Byte) :=
  let addr := makeWord (tel 3) (tel 4)
  let apci := ((tel 6 &&& 3#8).setWidth 16 <<< 8 ||| (tel 7).setWidth 16) &&& 0x3c0#16
  if apci = 0x080#16 ∨ apci = 0x040#16 then ({ s with mem := processGroupWrite B s.mem addr tel none }, [])
  else if apci = 0x000#16 then
    match indexOfAddr B s.mem addr with
    | none => (s, [])
    | some gapos =>
      let t := (assocTable B s.mem).getD 0
      readAssocLoop B addr gapos (s.mem t).toNat (t + 1) s
  else (s, [])

/-! ## Cyclic functions -/

/-- The flags nibble of an object as read by `sendNextGroupTelegram`, com_objects.cpp:471-475. -/
def flagsOf (m : Mem) (tab objno : Nat) : Byte :=
  if objno % 2 = 1 then m (tab + objno / 2) >>> 4 else m (tab + objno / 2)

/-- The flag update after sending, com_objects.cpp:488-492. -/
def markSent (m : Mem) (tab objno : Nat) : Mem :=
  let p := tab + objno / 2
  let sh := if objno % 2 = 1 then 4 else 0
  let m := poke m p (m p &&& ~~~(0x7#8 <<< sh))
  poke m p (m p ||| (0x1#8 <<< sh))

/-- The loop of `sendNextGroupTelegram`, com_objects.cpp:446-498: remaining objects, `objno`. Result: state, whether an
object was sent, telegrams. -/
def sendLoop (B : Bcu) (tab : Nat) : Nat → Nat → St → St × Bool × List (List Byte)
  | 0, _, s => ({ s with next := s.next + 1 }, false, [])
  | n + 1, objno, s =>
    let config := objectConfig B s.mem objno
    let addr := firstObjectAddr B s.mem objno
    if addr = 0#16 ∨ config &&& 0x04#8 = 0#8 ∨ config &&& 0x40#8 = 0#8 then sendLoop B tab n (objno + 1) s
    else
      let flags := flagsOf s.mem tab objno
      if flags &&& 0x3#8 = 0x3#8 then
        let r := if flags &&& 0x4#8 ≠ 0#8 then sendGroupRead s addr else sendGroupWrite B s objno addr false
        ({ r.1 with mem := markSent r.1.mem tab objno, next := objno + 1 }, true, r.2)
      else sendLoop B tab n (objno + 1) s

/-- `sendNextGroupTelegram()`, com_objects.cpp:397-502. -/
def sendNextGroupTelegram (B : Bcu) (s : St) : St × Bool × List (List Byte) :=
  match objectFlagsTable B s.mem with
  | none => (s, false, [])
  | some tab =>
    let numObjs := objectCount B s.mem
    if numObjs = 0 then (s, false, [])
    else
      let idx := s.next % numObjs
      sendLoop B tab (numObjs - idx) idx { s with next := idx }

/-- The loop of `nextUpdatedObject`, com_objects.cpp:522-542: remaining objects, `objno`. -/
def updatedLoop (tab : Nat) : Nat → Nat → Mem → Mem × Option Nat
  | 0, _, m => (m, none)
  | n + 1, objno, m =>
    let p := tab + objno / 2
    let flags := m p &&& (if objno % 2 = 1 then 0x80#8 else 0x8#8)
    if flags ≠ 0#8 then (poke m p (m p &&& ~~~flags), some objno)
    else updatedLoop tab n (objno + 1) m

/-- `nextUpdatedObject()`, com_objects.cpp:504-545; `none` is `INVALID_OBJECT_NUMBER`. -/
def nextUpdatedObject (B : Bcu) (m : Mem) : Mem × Option Nat :=
  match objectFlagsTable B m with
  | none => (m, none)
  | some tab => updatedLoop tab (objectCount B m) 0 m

end Verif.Com
