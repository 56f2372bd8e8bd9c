import Verif.Com.Model

/-!
# Model of the communication objects of a System B device

Files: sblib/src/eib/com_objectsSYSTEMB.cpp, addr_tablesSYSTEMB.cpp, the functions of com_objects.cpp that they use,
inc/sblib/eib/userRamSYSTEMB.h and userEepromSYSTEMB.h. Memory, pointers and telegram buffers as in `Verif.Com.Model`.
-/

namespace Verif.Com.SysB

open Verif.Bytes (makeWord)

/-- class SYSTEMB: userRamSYSTEMB.h:20, userEepromSYSTEMB.h:13. `le` is `le_ptr == LITTLE_ENDIAN` (com_objects.h:362). Only
the address ranges and the byte order of this record are used here. -/
def dev (le : Bool) : Bcu := ⟨.bcu2, le, 0x5FC, 0x304, 0x3300, 3072⟩

/-! ## Tables -/

/-- `addrTable()`, addr_tablesBCU2.cpp:33-39 with `addrTabAddrOffset` of userEepromSYSTEMB.h:16, 27. -/
def addrTable (m : Mem) : Option Nat := userMemoryPtr (dev false) (eepWord (dev false) m 0x21)

/-- `assocTable()`, addr_tablesBCU2.cpp:41-45 with `assocTabAddrOffset` of userEepromSYSTEMB.h:17, 28. -/
def assocTable (m : Mem) : Option Nat := userMemoryPtr (dev false) (eepWord (dev false) m 0x23)

/-- `addrCount()`, addr_tablesBCU2.cpp:47-52. -/
def addrCount (m : Mem) : Nat :=
  let tab := (addrTable m).getD 0
  (makeWord (m (tab + 1)) (m tab)).toNat

/-- `AddrTablesSYSTEMB::indexOfAddr(addr)`, addr_tablesSYSTEMB.cpp:12-31; `none` is -1. -/
def indexOfAddr (m : Mem) (addr : Word) : Option Nat :=
  match addrTable m with
  | none => none
  | some tab => indexOfAddrSystemB m tab addr

/-- `ComObjectsSYSTEMB::objectConfigTable()`, com_objectsSYSTEMB.cpp:99-103, with `commsTabAddrOffset` of
userEepromBCU2.h:26, 55. -/
def objectConfigTable (m : Mem) : Option Nat := userMemoryPtr (dev false) (eepWord (dev false) m 0x37C)

/-- `ComObjectsSYSTEMB::objectFlagsTable()`, com_objectsSYSTEMB.cpp:105-112. -/
def objectFlagsTable (le : Bool) (m : Mem) : Option Nat :=
  let t := (objectConfigTable m).getD 0
  userMemoryPtr (dev le) (if le then (makeWord (m (t + 2)) (m (t + 1))).toNat else (makeWord (m (t + 1)) (m (t + 2))).toNat)

/-- Address of the entry of an object, `objectConfig`, com_objectsSYSTEMB.cpp:114-117: the table + 2 + (objno - 1) * 2, entries
are `ComConfigSYSTEMB` (typesSYSTEMB.h:18-21), which is a `ComConfig` of two bytes (eib/types.h:75-82). -/
def objectEntry (m : Mem) (objno : Nat) : Nat := (objectConfigTable m).getD 0 + objno * 2

/-- `objectConfig(objno).config`, com_objectsSYSTEMB.cpp:114-117. -/
def objectConfig (m : Mem) (objno : Nat) : Byte := m (objectEntry m objno)

/-- `objectType(objno)`, com_objects.h:385-388. -/
def objectType (m : Mem) (objno : Nat) : Nat := (m (objectEntry m objno + 1)).toNat

/-- `ComObjectsSYSTEMB::objectSize(objno)` as a function of the type, com_objectsSYSTEMB.cpp:14-28. -/
def sizeOfType (type : Nat) : Nat :=
  if type < 6 then 1
  else if type < 21 then [1, 1, 2, 3, 4, 6, 8, 10, 14, 5, 7, 9, 11, 12, 13].getD (type - 6) 0
  else if type < 255 then type - 6
  else 252

/-- `ComObjectsSYSTEMB::objectSize(objno)`, com_objectsSYSTEMB.cpp:14-28. -/
def objectSize (m : Mem) (objno : Nat) : Nat := sizeOfType (objectType m objno)

/-- `telegramObjectSize(objno)`, com_objects.cpp:219-224. -/
def telegramObjectSize (m : Mem) (objno : Nat) : Nat := if objectType m objno < 6 then 0 else objectSize m objno

/-- The loop of `objectValuePtr`, com_objectsSYSTEMB.cpp:33-34: remaining rounds, `i`, `ramAddr`. -/
def valueLoop (m : Mem) : Nat → Nat → Nat → Nat
  | 0, _, a => a
  | n + 1, i, a => valueLoop m n (i + 1) (a + objectSize m i)

/-- `ComObjectsSYSTEMB::objectValuePtr(objno)`, com_objectsSYSTEMB.cpp:30-36. -/
def objectValuePtr (m : Mem) (objno : Nat) : Option Nat :=
  userMemoryPtr (dev false) (valueLoop m (objno - 1) 1 ((dev false).ramStart + 2))

/-- `objectCount()`, com_objects.cpp:325-329. -/
def objectCount (m : Mem) : Nat := (m ((objectConfigTable m).getD 0)).toNat

/-! ## Flags and values -/

/-- `addObjectFlags(objno, flags)`, com_objects.cpp:226-248. -/
def addObjectFlags (le : Bool) (m : Mem) (objno : Nat) (flags : Byte) : Mem :=
  match objectFlagsTable le m with
  | none => m
  | some tab =>
    let flags := if objno % 2 = 1 then flags <<< 4 else flags
    poke m (tab + objno / 2) (m (tab + objno / 2) ||| flags)

/-- `setObjectFlags(objno, flags)`, com_objects.cpp:250-276. -/
def setObjectFlags (le : Bool) (m : Mem) (objno : Nat) (flags : Byte) : Mem :=
  match objectFlagsTable le m with
  | none => m
  | some tab =>
    let p := tab + objno / 2
    if objno % 2 = 1 then poke m p ((m p &&& 0x0f#8) ||| (flags <<< 4))
    else poke m p ((m p &&& 0xf0#8) ||| flags)

/-- `objectRead(objno)`, com_objects.cpp:278-290. -/
def objectRead (m : Mem) (objno : Nat) : U32 :=
  let sz := objectSize m objno
  let ptr := (objectValuePtr m objno).getD 0 + sz
  readLoop m (sz - 1) (ptr - 1) ((m (ptr - 1)).setWidth 32)

/-- `_objectWrite(objno, value, flags)`, com_objects.cpp:292-312. `objectSize` of a System B device is never -1. -/
def objectWriteFlags (le : Bool) (m : Mem) (objno : Nat) (value : U32) (flags : Byte) : Mem :=
  match objectValuePtr m objno with
  | none => m
  | some ptr => setObjectFlags le (writeLoop (objectSize m objno) m ptr value) objno flags

/-- `_objectWriteBytes(objno, value, flags)`, com_objects.cpp:314-323; `value` is the caller's array. -/
def objectWriteBytesFlags (le : Bool) (m : Mem) (objno : Nat) (value : Nat → Byte) (flags : Byte) : Mem :=
  let ptr := (objectValuePtr m objno).getD 0
  let sz := objectSize m objno
  let m' : Mem := fun a => if ptr ≤ a ∧ a < ptr + sz then value (a - ptr) else m a
  addObjectFlags le m' objno flags

/-- `objectWrite(objno, value)`, com_objects.h:405-408. -/
def objectWrite (le : Bool) (m : Mem) (objno : Nat) (value : U32) : Mem := objectWriteFlags le m objno value 0x3#8
/-- `objectWrite(objno, bytes)`, com_objects.h:410-413. -/
def objectWriteBytes (le : Bool) (m : Mem) (objno : Nat) (value : Nat → Byte) : Mem :=
  objectWriteBytesFlags le m objno value 0x3#8
/-- `objectUpdate(objno, value)`, com_objects.h:420-423. -/
def objectUpdate (le : Bool) (m : Mem) (objno : Nat) (value : U32) : Mem := objectWriteFlags le m objno value 0x8#8
/-- `objectSetValue(objno, value)`, com_objects.h:400-403. -/
def objectSetValue (le : Bool) (m : Mem) (objno : Nat) (value : U32) : Mem := objectWriteFlags le m objno value 0x0#8

/-! ## Group telegrams -/

/-- `processGroupWriteTelegram(objno, tel)`, com_objects.cpp:547-563. -/
def processGroupWriteTelegram (le : Bool) (m : Mem) (objno : Nat) (tel : Tel) : Mem :=
  match objectValuePtr m objno with
  | none => m
  | some v =>
    let count := telegramObjectSize m objno
    let m' := if count > 0 then revCopyIn m tel 8 v count else poke m v (tel 7 &&& 0x3f#8)
    addObjectFlags le m' objno 0x8#8

/-- Loop of `ComObjectsSYSTEMB::processGroupTelegram` (com_objectsSYSTEMB.cpp:70-96) for the services write and response:
remaining entries, address of the entry. -/
def writeAssocLoop (le : Bool) (tel : Tel) (trg : Option Nat) (gapos : Nat) : Nat → Nat → Mem → Mem
  | 0, _, m => m
  | n + 1, p, m =>
    if gapos = (makeWord (m p) (m (p + 1))).toNat then
      let objno := (makeWord (m (p + 2)) (m (p + 3))).toNat
      if some objno = trg then writeAssocLoop le tel trg gapos n (p + 4) m
      else if objectConfig m objno &&& 0x14#8 = 0x14#8 then
        writeAssocLoop le tel trg gapos n (p + 4) (processGroupWriteTelegram le m objno tel)
      else writeAssocLoop le tel trg gapos n (p + 4) m
    else writeAssocLoop le tel trg gapos n (p + 4) m

/-- `ComObjectsSYSTEMB::processGroupTelegram(addr, apci, tel, trg_objno)`, com_objectsSYSTEMB.cpp:54-97, for the services write
and response; `trg` `none` is `INVALID_OBJECT_NUMBER`. -/
def processGroupWrite (le : Bool) (m : Mem) (addr : Word) (tel : Tel) (trg : Option Nat) : Mem :=
  match indexOfAddr m addr with
  | none => m
  | some gapos =>
    let t := (assocTable m).getD 0
    writeAssocLoop le tel trg gapos (makeWord (m t) (m (t + 1))).toNat (t + 2) m

/-- The telegram built by `sendGroupWriteTelegram(objno, addr, isResponse)`, com_objects.cpp:368-388, on the old contents
`t` of the buffer. Simplification: `reverseCopy` of a value that is longer than the buffer writes behind its end, which the
model takes as more buffer. -/
def groupWriteTel (m : Mem) (t : Tel) (objno : Nat) (addr : Word) (isResponse : Bool) : Tel :=
  let v := (objectValuePtr m objno).getD 0
  let objSize := telegramObjectSize m objno
  let t := setByte t 0 controlLow
  let t := setByte t 3 (BitVec.ofNat 8 (addr.toNat / 256))
  let t := setByte t 4 (BitVec.ofNat 8 addr.toNat)
  let t := setByte t 5 (0xe0#8 ||| (BitVec.ofNat 8 (objSize + 1) &&& 0x0f#8))
  let cmd : Byte := if isResponse then 0x40#8 else 0x80#8
  let addData := if objSize ≠ 0 then 0#8 else m v
  let t := if objSize ≠ 0 then revCopyOut t m v 8 objSize else t
  let t := setByte t 6 0#8
  setByte t 7 (cmd ||| addData)

/-- `sendGroupWriteTelegram(objno, addr, isResponse)`, com_objects.cpp:368-395. -/
def sendGroupWrite (le : Bool) (s : St) (objno : Nat) (addr : Word) (isResponse : Bool) : St × List (List Byte) :=
  let t := groupWriteTel s.mem s.buf objno addr isResponse
  ({ s with buf := t, mem := processGroupWrite le s.mem addr t (some objno) }, [prepared t])

/-- Loop of `ComObjectsSYSTEMB::processGroupTelegram` (com_objectsSYSTEMB.cpp:70-96) for the service read, which is only
called with `INVALID_OBJECT_NUMBER`. -/
def readAssocLoop (le : Bool) (addr : Word) (gapos : Nat) : Nat → Nat → St → St × List (List Byte)
  | 0, _, s => (s, [])
  | n + 1, p, s =>
    if gapos = (makeWord (s.mem p) (s.mem (p + 1))).toNat then
      let objno := (makeWord (s.mem (p + 2)) (s.mem (p + 3))).toNat
      if objectConfig s.mem objno &&& 0x0c#8 = 0x0c#8 then
        let r := sendGroupWrite le s objno addr true
        let q := readAssocLoop le addr gapos n (p + 4) r.1
        (q.1, r.2 ++ q.2)
      else readAssocLoop le addr gapos n (p + 4) s
    else readAssocLoop le addr gapos n (p + 4) s

/-- `processGroupAddressTelegram` (bcu_default.cpp:207-216) with `apciCommand` (apci.cpp:23-38) and
`ComObjectsSYSTEMB::processGroupTelegram` (com_objectsSYSTEMB.cpp:54-97), for a telegram received from the bus. -/
def receiveGroup (le : Bool) (s : St) (tel : Tel) : St × List (List Byte) :=
  let addr := makeWord (tel 3) (tel 4)
  let apci := ((tel 6 &&& 3#8).setWidth 16 <<< 8 ||| (tel 7).setWidth 16) &&& 0x3c0#16
  if apci = 0x080#16 ∨ apci = 0x040#16 then ({ s with mem := processGroupWrite le s.mem addr tel none }, [])
  else if apci = 0x000#16 then
    match indexOfAddr s.mem addr with
    | none => (s, [])
    | some gapos =>
      let t := (assocTable s.mem).getD 0
      readAssocLoop le addr gapos (makeWord (s.mem t) (s.mem (t + 1))).toNat (t + 2) s
  else (s, [])

/-! ## Cyclic functions -/

/-- The loop of `firstObjectAddr`, com_objects.cpp:336-351: remaining entries, `assocTab`. -/
def firstLoop (m : Mem) (objno : Nat) : Nat → Nat → Word
  | 0, _ => 0#16
  | n + 1, p =>
    if (m (p + 1)).toNat ≠ objno then firstLoop m objno n (p + 2)
    else if (m p).toNat + 1 > addrCount m then firstLoop m objno n (p + 2)
    else
      let a := (addrTable m).getD 0 + 1 + (m p).toNat * 2
      makeWord (m a) (m (a + 1))

/-- `firstObjectAddr(objno)`, com_objects.cpp:331-353. -/
def firstObjectAddr (m : Mem) (objno : Nat) : Word :=
  let t := (assocTable m).getD 0
  firstLoop m objno (m t).toNat (t + 1)

/-- The loop of `sendNextGroupTelegram`, com_objects.cpp:446-498: remaining objects, `objno`. Result: state, whether an
object was sent, telegrams. -/
def sendLoop (le : Bool) (tab : Nat) : Nat → Nat → St → St × Bool × List (List Byte)
  | 0, _, s => ({ s with next := s.next + 1 }, false, [])
  | n + 1, objno, s =>
    let config := objectConfig s.mem objno
    let addr := firstObjectAddr s.mem objno
    if addr = 0#16 ∨ config &&& 0x04#8 = 0#8 ∨ config &&& 0x40#8 = 0#8 then sendLoop le tab n (objno + 1) s
    else
      let flags := flagsOf s.mem tab objno
      if flags &&& 0x3#8 = 0x3#8 then
        let r := if flags &&& 0x4#8 ≠ 0#8 then sendGroupRead s addr else sendGroupWrite le s objno addr false
        ({ r.1 with mem := markSent r.1.mem tab objno, next := objno + 1 }, true, r.2)
      else sendLoop le tab n (objno + 1) s

/-- `sendNextGroupTelegram()`, com_objects.cpp:397-502. -/
def sendNextGroupTelegram (le : Bool) (s : St) : St × Bool × List (List Byte) :=
  match objectFlagsTable le s.mem with
  | none => (s, false, [])
  | some tab =>
    let numObjs := objectCount s.mem
    if numObjs = 0 then (s, false, [])
    else
      let idx := s.next % numObjs
      sendLoop le tab (numObjs - idx) idx { s with next := idx }

/-- `nextUpdatedObject()`, com_objects.cpp:504-545; `none` is `INVALID_OBJECT_NUMBER`. -/
def nextUpdatedObject (le : Bool) (m : Mem) : Mem × Option Nat :=
  match objectFlagsTable le m with
  | none => (m, none)
  | some tab => updatedLoop tab (objectCount m) 0 m

end Verif.Com.SysB
