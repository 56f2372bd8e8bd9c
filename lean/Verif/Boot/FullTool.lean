import Verif.Boot.DiffTool

/-!
# The update tool's full mode over a connection that loses telegrams

`Updater.update`, `DeviceManagement` and `FlashFullMode` of the update tool (Java), protocol version 1, talking
to the bootloader. Requests that only read (identity, descriptor, version, statistics), logging and waiting are
left out. A request and its answer travel over a point-to-point connection: an attempt is answered, or its
answer is lost, or the request itself is lost; in both latter cases the tool sees an exception.
-/

namespace Verif.Boot.Tool
open Verif.Iap Verif.Boot Verif.Boot.Spec

/-- Fate of one attempt to send a request (`mc.sendUpdateData`, DeviceManagement.java:349): an answer arrives,
or the attempt ends with `KNXTimeoutException`, `KNXDisconnectException` or `KNXRemoteException`, with or without
the device having executed the request. -/
inductive Attempt where
  | answered
  | answerLost
  | requestLost
  deriving DecidableEq

/-- The device and the number of attempts so far. -/
structure Link where
  dev : State
  pos : Nat

/-- Result of a piece of the tool: `none` means that it does not end (or that the device's behaviour is
undefined), `some (link, none)` that it ends with an exception. -/
abbrev Ended (α : Type) := Option (Link × Option α)

/-- Sequencing; an exception ends the tool. -/
def andThen {α β : Type} (x : Ended α) (f : Link → α → Ended β) : Ended β :=
  match x with
  | none => none
  | some (c, none) => some (c, none)
  | some (c, some a) => f c a

/-- What happens to the attempts, by number. -/
abbrev Channel := Nat → Attempt

/-- One attempt, DeviceManagement.java:348-360. -/
def attempt (E : Env) (I : Info) (ch : Channel) (c : Link) (m : List Byte) : Option (Link × Option Resp) :=
  match ch c.pos with
  | .answered => (receive E I c.dev m).map fun r => (⟨r.1, c.pos + 1⟩, some r.2)
  | .answerLost => (receive E I c.dev m).map fun r => (⟨r.1, c.pos + 1⟩, none)
  | .requestLost => some (⟨c.dev, c.pos + 1⟩, none)

/-- `sendWithRetry`, DeviceManagement.java:344-378: the answer, and whether an attempt was lost before
(`dropCount() > 0 || timeoutCount() > 0`). The first argument counts the attempts left. -/
def sendWithRetry (E : Env) (I : Info) (ch : Channel) (m : List Byte) : Nat → Link → Bool → Ended (Resp × Bool)
  | 0, c, _ => some (c, none)
  | n + 1, c, lost =>
    match attempt E I ch c m with
    | none => none
    | some (c', some r) => some (c', some (r, lost))
    | some (c', none) => sendWithRetry E I ch m n c' true

/-- `MAX_UPD_COMMAND_RETRY`, DeviceManagement.java:34. -/
def maxRetry : Nat := 3

/-- `UPDProtocol.checkResult`, UPDProtocol.java:26-55: the status code of a status answer, else 0. -/
def checkResult (r : Resp) : Byte := if r.cmd ≠ 0xdc#8 then 0#8 else r.payload.getD 0 0#8

/-- A request that has to be answered with success, DeviceManagement.java:197-205, 207-230, 232-239. -/
def request (E : Env) (I : Info) (ch : Channel) (c : Link) (m : List Byte) : Ended Unit :=
  andThen (sendWithRetry E I ch m maxRetry c false) fun c r =>
    if checkResult r.1 ≠ 0x7f#8 then some (c, none) else some (c, some ())

/-- `doFlash`, DeviceManagement.java:254-294, protocol version 1 (no position byte): telegrams of at most 13
bytes; after a lost attempt the same bytes are sent again although the last attempt was answered. `fuel` bounds
the number of passes. -/
def doFlash (E : Env) (I : Info) (ch : Channel) (data : List Byte) : Nat → Nat → Link → Ended Unit
  | 0, _, _ => none
  | fuel + 1, nIndex, c =>
    if nIndex < data.length then
      let txBuffer := (data.drop nIndex).take 13
      andThen (sendWithRetry E I ch (msgSendData txBuffer) maxRetry c false) fun c r =>
        if r.2 then doFlash E I ch data fuel nIndex c
        else if checkResult r.1 ≠ 0x7f#8 then some (c, none)
        else doFlash E I ch data fuel (nIndex + txBuffer.length) c
    else some (c, some ())

/-- The loop of `doFullFlash`, FlashFullMode.java:48-121. `rest`: what has not been read from the stream,
`buffer`: the block read last, `again`: the variable `repeat`. The loop ends as soon as the stream is
exhausted, also if `repeat` is set. -/
def fullLoop (E : Env) (I : Info) (ch : Channel) (flashFuel blockSize : Nat) :
    Nat → List Byte → List Byte → Bool → Nat → Link → Ended Unit
  | 0, _, _, _, _, _ => none
  | fuel + 1, rest, buffer, again, progAddress, c =>
    if rest.isEmpty then some (c, some ())
    else
      let txBuffer := if again then buffer else rest.take blockSize
      let rest := if again then rest else rest.drop blockSize
      andThen (doFlash E I ch txBuffer flashFuel 0 c) fun c _ =>
      andThen (sendWithRetry E I ch (msgProgram (BitVec.ofNat 16 txBuffer.length)
          (BitVec.ofNat 32 progAddress) (crc32Std txBuffer)) maxRetry c false) fun c r =>
        if checkResult r.1 = 0x50#8 ∨ checkResult r.1 = 0x4f#8 then
          fullLoop E I ch flashFuel blockSize fuel rest txBuffer true progAddress c
        else if checkResult r.1 = 0x7f#8 then
          fullLoop E I ch flashFuel blockSize fuel rest txBuffer false (progAddress + txBuffer.length) c
        else some (c, none)

/-- `BootDescriptor.toStream`, BootDescriptor.java:97-104, for the descriptor of Updater.java:355-358:
start address, address of the last byte, CRC-32, address of the version string. -/
def descriptor (image : List Byte) (startAddress versionAddress : Nat) : List Byte :=
  le32 (BitVec.ofNat 32 startAddress) ++ le32 (BitVec.ofNat 32 (startAddress + image.length - 1)) ++
    le32 (crc32Std image) ++ le32 (BitVec.ofNat 32 versionAddress)

/-- `programBootDescriptor`, DeviceManagement.java:296-325. -/
def programBootDescriptor (E : Env) (I : Info) (ch : Channel) (flashFuel : Nat) (desc : List Byte) (c : Link) :
    Ended Unit :=
  andThen (doFlash E I ch desc flashFuel 0 c) fun c _ =>
    request E I ch c (msgUpdateDescriptor (BitVec.ofNat 32 desc.length) (crc32Std desc))

/-- The update, Updater.java:235-360 and FlashFullMode.java:25-124: unlock, erase the whole flash or the range
of the image, send the image, install the descriptor. -/
def fullUpdate (E : Env) (I : Info) (ch : Channel) (fuel flashFuel blockSize : Nat) (uid image : List Byte)
    (startAddress versionAddress : Nat) (eraseFullFlash : Bool) (c : Link) : Ended Unit :=
  andThen (request E I ch c (msgUnlock uid)) fun c _ =>
  andThen (request E I ch c (if eraseFullFlash then msgEraseAll else msgEraseRange (BitVec.ofNat 32 startAddress)
    (BitVec.ofNat 32 (startAddress + image.length - 1)))) fun c _ =>
  andThen (fullLoop E I ch flashFuel blockSize fuel image [] false startAddress c) fun c _ =>
    programBootDescriptor E I ch flashFuel (descriptor image startAddress versionAddress) c

end Verif.Boot.Tool
