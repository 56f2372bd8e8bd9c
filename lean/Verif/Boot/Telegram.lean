import Verif.Boot.Update
import Verif.TL4.Model

/-!
# Model of the bootloader as a device on the bus

`firmware_updater/bootloader/src/bcu_updater.cpp` and the telegrams written by `update.cpp`, as the
application of the transport layer (`Verif.TL4`).

Simplifications: the values of `Info` (`disconnectCount`, `repeatedT_ACKcount`, version of the
library) are parameters, they only appear in the answer to the statistics request; of `scheduleRestart`
only the request is kept (what follows from it is modelled in `Verif.Dev.Loop`); the debug build's
`fatalError` in `prepareReturnTelegram` is not modelled (release build).
-/

namespace Verif.Boot
open Knx

/-- The bootloader's application state. `st = none`: undefined behaviour of the C++ code has occurred
(the decompressor wrote outside its buffers). `restart`: `scheduleRestart(RestartType::Basic)` was called
(bcu_base.cpp:181-186). -/
structure BootDev where
  st : Option State
  restart : Bool

/-- `prepareReturnTelegram`, update.cpp:180-195 (release build). `APCI_USERMSG_MANUFACTURER_6`:
apci.h:70. -/
def prepareReturnTelegram (sb : Buf) (count : Nat) (cmd : Byte) : Buf :=
  let count := count + 2
  let count := if count > 0x0f then count % 16 else count
  upd (setApciCommand (upd sb 5 (0x60#8 + BitVec.ofNat 8 count)) 0x2FE#16 0#8) 8 cmd

/-- The stores to `retTelegram[9]` and the following bytes (update.cpp:261, 345, 576-577, 597-607,
625-626, 658, 707), one after the other. -/
def storeBytes (sb : Buf) (pos : Nat) : List Byte → Buf
  | [] => sb
  | v :: vs => storeBytes (upd sb pos v) (pos + 1) vs

/-- A response written to the send buffer: `prepareReturnTelegram(number of data bytes, command)` and
the data. -/
def writeResponse (sb : Buf) (r : Resp) : Buf :=
  storeBytes (prepareReturnTelegram sb r.payload.length r.cmd) 9 r.payload

/-- `handleDeprecatedApciMemoryWrite`, update.cpp:915-927. -/
def deprecatedMemoryWrite (sb : Buf) : Buf :=
  storeBytes sb 5 [0x67#8, 0x42#8, 0x44#8, 0#8, 0x15#8, 0xff#8, 0xff#8, 0#8, 0#8]

/-- `BcuUpdate::processApci`, bcu_updater.cpp:60-87, with `handleApciUsermsgManufacturer`,
update.cpp:1033-1039, and the restart request of `BcuBase::processApci`, bcu_base.cpp:131-142.
`telLength` is a `uint8_t`. -/
def updateApci (E : Env) (I : Info) (d : BootDev) (t : Buf) (telLength : Nat) (sb : Buf) :
    BootDev × Buf × Bool :=
  match d.st with
  | none => (d, sb, false)
  | some s =>
    let cmd := apciCommand t
    if cmd = 0x280#16 then (d, deprecatedMemoryWrite sb, true)
    else if cmd = 0x2F8#16 then
      match processUsermsg E I s t (BitVec.ofNat 8 telLength) with
      | none => ({ d with st := none }, sb, false)
      | some (s', r) => ({ d with st := some s' }, writeResponse sb r, true)
    else if cmd = 0x380#16 then ({ d with restart := true }, sb, false)
    else (d, sb, false)

/-- `sendApciIndividualAddressReadResponse`, bcu_base.cpp:144-153. -/
def iaResponse (sb : Buf) : Buf :=
  setApciCommand (upd (setDestinationAddress (initLpdu sb 0 false false) 0#16) 5 0xe1#8) 0x140#16 0#8

/-- `BcuUpdate::processBroadCastTelegram`, bcu_updater.cpp:96-103: the telegram to send, if any. -/
def updateBroadcast (d : BootDev) (t : Buf) (_telLength : Nat) : BootDev × Option (Buf → Buf) :=
  if apciCommand t = 0x100#16 then (d, some iaResponse) else (d, none)

/-- `BcuUpdate::processGroupAddressTelegram`, bcu_updater.cpp:105-108. -/
def updateGroup (d : BootDev) (_t : Buf) (_telLength : Nat) : BootDev × Option (Buf → Buf) := (d, none)

/-- The bootloader's virtual functions, called by the transport layer. -/
def updateApp (E : Env) (I : Info) : TL4.App BootDev where
  processApci := updateApci E I
  broadcast := updateBroadcast
  group := updateGroup

end Verif.Boot
