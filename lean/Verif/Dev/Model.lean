import Verif.Dev.PropModel
import Verif.TL4.Model

/-!
# The management services of a device

Models `processApci` and `processBroadCastTelegram` of the classes `BcuBase`, `BcuDefault`, `BCU2`
and `MASK0701` (`sblib/src/eib`), which the transport layer (`Verif.TL4`) calls.
-/

namespace Verif.Dev

open Verif.Knx

/-- `BcuBase::programmingMode`, bcu_base.cpp:161-164 (`BCU_STATUS_PROGRAMMING_MODE`, userRam.h:20). -/
def programmingMode (d : Dev) : Bool := d.status.getLsbD 0

/-- `applicationRunning`: bcu1.cpp:30-43 (status bits userRam.h:20-27, `runError`
userEepromBCU1.h:34), bcu2.cpp:84-93. -/
def applicationRunning (k : Kind) (d : Dev) : Bool :=
  if !d.enabled then false
  else if k = .bcu1 then
    (d.status &&& 9#8 == 8#8) && (d.runState == 1#8) && (d.ee 0x0d == 0xff#8)
  else
    (d.runState == 1#8) && (d.ee (loadStateOff + 1) == lsLoaded) &&
    (d.ee (loadStateOff + 2) == lsLoaded) && (d.ee (loadStateOff + 3) == lsLoaded)

/-- `processApciMemoryWritePDU`: bcu_default.cpp:242-254, mask0701.cpp:41-64 (the addresses
mask0701.h:53-54); the payload is `t + 10`. -/
def memWritePDU (W : World) (d : Dev) (addr : Nat) (t : Buf) (len : Nat) : Dev × Bool :=
  if W.kind ≠ .bcu1 ∧ W.kind ≠ .bcu2 ∧ addr = 0x104 then
    let obj := (t 10).toNat / 16
    if obj < 8 then
      let r := loadProperty W d obj (fun i => t (10 + i)) len
      ({ r.1 with ee := upd r.1.ee (loadStateOff + obj) r.2, eeModified := true }, true)
    else (d, false)
  else
    let r := memOp W false d addr t 10 len
    (r.1, r.2.2)

/-- `processApciMemoryReadPDU`: bcu_default.cpp:256-278, mask0701.cpp:24-39; the destination is
`sb + 10`. -/
def memReadPDU (W : World) (d : Dev) (addr : Nat) (sb : Buf) (len : Nat) : Dev × Buf × Bool :=
  if W.kind ≠ .bcu1 ∧ W.kind ≠ .bcu2 ∧ 0xb6e9 ≤ addr ∧ addr < 0xb6e9 + 8 then
    (d, blit sb 10 d.ee (loadStateOff + (addr - 0xb6e9)) len, true)
  else memOp W true d addr sb 10 len

/-- `DEVCTRL_MEM_AUTO_RESPONSE` in `deviceControl` and a mask version above 0x1F,
bcu_default.cpp:484 (`deviceControl`: userRamBCU1.h:31). -/
def autoResponse (W : World) (d : Dev) : Bool :=
  decide (W.kind.maskVersion.toNat > 0x1F) && (d.ram 0x62).getLsbD 2

/-- The memory response, bcu_default.cpp:492-505.  Bytes 10.. of the buffer beyond its 23 bytes make
the behaviour undefined. -/
def memResponse (W : World) (d : Dev) (addr : Word) (count : Nat) (sb : Buf) : Dev × Buf × Bool :=
  let r := memReadPDU W d addr.toNat sb count
  let n := if r.2.2 then count else 0
  let d' := if decide (10 + count ≤ bufSize) then r.1 else { r.1 with undef := true }
  (d', upd (upd (setApciCommand (upd r.2.1 5 (BitVec.ofNat 8 (0x60 + n + 3))) 0x240#16
    (BitVec.ofNat 8 n)) 8 (highByte addr)) 9 (lowByte addr), true)

/-- The memory services, bcu_default.cpp:474-507. -/
def memService (W : World) (d : Dev) (cmd : Word) (t : Buf) (sb : Buf) : Dev × Buf × Bool :=
  let count := (t 7).toNat % 16
  let addr := makeWord (t 8) (t 9)
  if cmd = 0x280#16 then
    let r := memWritePDU W d addr.toNat t count
    if r.2 && autoResponse W r.1 then memResponse W r.1 addr count sb else (r.1, sb, false)
  else memResponse W d addr count sb

/-- `processApciMasterResetPDU`, bcu_default.cpp:542-583 (`checkApciForMagicWord`, apci.cpp:47-52;
`scheduleRestart`, bcu_base.cpp:181-186, without its timeout). -/
def masterReset (d : Dev) (erase channel : Byte) (sb : Buf) : Dev × Buf × Bool :=
  let rt : RestartType × Byte :=
    if erase = 7#8 ∧ channel = 255#8 then (.masterIntoBootloader, 0#8)
    else if erase = 0#8 ∨ 7 < erase.toNat then (.none, 2#8)
    else (.master, if erase = 1#8 then 0#8 else 2#8)
  let sb1 := upd (upd (upd (setApciCommand (upd sb 5 0x64#8) 0x3A1#16 0#8) 8 rt.2) 9 0#8)
    10 (if rt.2 = 0#8 then 1#8 else 0#8)
  (if rt.1 = .none then d else { d with restart := rt.1 }, sb1, true)

/-- `BcuDefault::processApci`, bcu_default.cpp:454-526, with `BcuBase::processApci`,
bcu_base.cpp:131-142, and `processDeviceDescriptorReadTelegram`, bcu_default.cpp:528-540. -/
def defaultApci (W : World) (d : Dev) (cmd : Word) (t : Buf) (sb : Buf) : Dev × Buf × Bool :=
  if cmd = 0x180#16 then
    (d, upd (upd (upd (setApciCommand (upd sb 5 0x64#8) 0x1C0#16 (t 7 &&& 0x3f#8)) 8 (t 8)) 9 0#8)
      10 0#8, true)
  else if cmd = 0x200#16 ∨ cmd = 0x280#16 then memService W d cmd t sb
  else if cmd = 0x300#16 then
    if t 7 &&& 0x3f#8 ≠ 0#8 then (d, sb, false)
    else (d, upd (upd (setApciCommand (upd sb 5 0x63#8) 0x340#16 0#8) 8
      (highByte W.kind.maskVersion)) 9 (lowByte W.kind.maskVersion), true)
  else if cmd = 0x381#16 then masterReset d (t 8) (t 9) sb
  else if cmd = 0x3d1#16 then
    (d, upd (setApciCommand (upd sb 5 0x62#8) 0x3d2#16 0#8) 8 0#8, true)
  else if cmd = 0x380#16 then ({ d with restart := .basic }, sb, false)
  else (d, sb, false)

/-- The head of a property response, bcu2.cpp:116-127 and :137-146. -/
def propHeader (sb : Buf) (len : Byte) (cmd : Word) (t : Buf) : Buf :=
  upd (upd (upd (setApciCommand (upd sb 5 len) cmd 0#8) 8 (t 8)) 9 (t 9)) 10 (t 10)

/-- `BCU2::processApci`, bcu2.cpp:105-152. -/
def bcu2Apci (W : World) (d : Dev) (cmd : Word) (t : Buf) (telLen : Nat) (sb : Buf) :
    Dev × Buf × Bool :=
  if cmd = 0x3d5#16 ∨ cmd = 0x3d7#16 then
    let count := (t 10).toNat / 16
    let start := ((t 10).toNat % 16 * 16) ||| (t 11).toNat
    let sb1 := upd (propHeader sb 0x65#8 0x3d6#16 t) 11 (t 11)
    let r := if cmd = 0x3d5#16 then propRead W d (t 8).toNat (t 9).toNat count start sb1
      else propWrite W d t telLen (t 8).toNat (t 9).toNat count start sb1
    (r.1, if r.2.2 then r.2.1 else upd r.2.1 10 0#8, true)
  else if cmd = 0x3d8#16 then
    let r := propDesc d (t 8).toNat (t 9).toNat (t 10).toNat (propHeader sb 0x68#8 0x3d9#16 t)
    (r.1, r.2.1, true)
  else defaultApci W d cmd t sb

/-- `processApci` of the device's class. -/
def processApci (W : World) (d : Dev) (t : Buf) (telLen : Nat) (sb : Buf) : Dev × Buf × Bool :=
  if W.kind = .bcu1 then defaultApci W d (apciCommand t) t sb
  else bcu2Apci W d (apciCommand t) t telLen sb

/-- `userMemoryPtr(addr)`, bcu_default.cpp:163-174: array and offset (`operator[]`:
userEeprom.cpp:123-127, userRam.cpp:115-119). -/
def userMemoryPtr (k : Kind) (a : Nat) : Option (Area × Nat) :=
  if eeIn k a then some (.ee, a - k.eeStart)
  else if ramIn k a then some (.ram, a - k.ramStart)
  else none

/-- `BcuDefault::setOwnAddress`, bcu_default.cpp:107-116 (`addrTab`: userEepromBCU1.h:44), and
`TLayer4::setOwnAddress`. -/
def setOwnAddressDefault (d : Dev) (a : Word) : Dev :=
  let d1 := if a ≠ makeWord (d.ee 0x17) (d.ee 0x18) then
      { d with ee := upd (upd d.ee 0x17 (highByte a)) 0x18 (lowByte a), eeModified := true }
    else d
  { d1 with ownAddr := a }

/-- `setOwnAddress` of the device's class: bcu2.cpp:17-27 (`addrTable`: addr_tablesBCU2.cpp:33-39). -/
def setOwnAddress (W : World) (d : Dev) (a : Word) : Dev :=
  let d1 := setOwnAddressDefault d a
  if W.kind ≠ .bcu1 ∧ d1.ee (loadStateOff + 1) = lsLoading then
    match userMemoryPtr W.kind (wordAt d1.ee (addrTabAddrOff W.kind)).toNat with
    | none => { d1 with undef := true, eeModified := true }
    | some (ar, o) =>
      if inArray (areaSize W.kind ar) (o + 1 : Nat) 2 then
        if ar = .ee then
          { d1 with ee := upd (upd d1.ee (o + 1) (highByte a)) (o + 2) (lowByte a),
                    eeModified := true }
        else
          { d1 with ram := upd (upd d1.ram (o + 1) (highByte a)) (o + 2) (lowByte a),
                    eeModified := true }
      else { d1 with undef := true, eeModified := true }
  else d1

/-- `sendApciIndividualAddressReadResponse`, bcu_base.cpp:144-153. -/
def iaReadResponse (sb : Buf) : Buf :=
  setApciCommand (upd (setDestinationAddress (initLpdu sb 0 false false) 0#16) 5 0xe1#8) 0x140#16 0#8

/-- `sendApciIndividualAddressSerialNumberReadResponse`, bcu2.cpp:197-220. -/
def serialReadResponse (d : Dev) (sb : Buf) : Buf :=
  let b := setApciCommand (upd (setDestinationAddress (initLpdu sb 0 false false) 0#16) 5 0xeb#8)
    0x3DD#16 0#8
  upd (upd (upd (upd (blit b 8 d.ee 0x38A 6) 14 0#8) 15 0#8) 16 0#8) 17 0#8

/-- `BcuDefault::processBroadCastTelegram`, bcu_default.cpp:218-240: new state and the telegram to
send, if any.  (The result is used by nobody.) -/
def defaultBroadcast (W : World) (d : Dev) (cmd : Word) (t : Buf) : Dev × Option (Buf → Buf) :=
  if !programmingMode d then (d, none)
  else if cmd = 0x0c0#16 then (setOwnAddress W d (makeWord (t 8) (t 9)), none)
  else if cmd = 0x100#16 then (d, some iaReadResponse)
  else (d, none)

/-- `processBroadCastTelegram` of the device's class: bcu2.cpp:168-195. -/
def broadcast (W : World) (d : Dev) (t : Buf) : Dev × Option (Buf → Buf) :=
  let cmd := apciCommand t
  if W.kind = .bcu1 then defaultBroadcast W d cmd t
  else if cmd = 0x3DE#16 then
    if slice t 8 6 ≠ slice d.ee 0x38A 6 then (d, none)
    else (setOwnAddress W d (makeWord (t 14) (t 15)), none)
  else if cmd = 0x3DC#16 then
    if slice t 8 6 ≠ slice d.ee 0x38A 6 then (d, none) else (d, some (serialReadResponse d))
  else defaultBroadcast W d cmd t

/-- The device as the application the transport layer calls.  Group telegrams go to the
communication objects (`Verif.Com`); here they are a parameter. -/
def app (W : World) (group : Dev → Buf → Nat → Dev × Option (Buf → Buf)) : TL4.App Dev where
  processApci := processApci W
  broadcast := fun d t _ => broadcast W d t
  group := group

end Verif.Dev
