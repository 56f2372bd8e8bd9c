import Verif.Boot.FullTool

/-!
# The commands of a full update

What the update tool's full mode (`FullTool.lean`) sends when every command is answered with success, as a
list.
-/

namespace Verif.Boot.Tool
open Verif.Iap Verif.Boot Verif.Boot.Spec

/-- The data telegrams of `doFlash`, DeviceManagement.java:254-294: at most 13 bytes each. -/
def dataCommands (data : List Byte) : List (List Byte) := (telegrams data.length data).map msgSendData

/-- The commands of the loop of `doFullFlash`, FlashFullMode.java:48-121: the data of each block, and the
request to program it. The first number bounds the number of blocks. -/
def blockCommands (blockSize : Nat) : Nat → List Byte → Nat → List (List Byte)
  | 0, _, _ => []
  | fuel + 1, rest, progAddress =>
    if rest.isEmpty then []
    else
      let txBuffer := rest.take blockSize
      dataCommands txBuffer ++ [msgProgram (BitVec.ofNat 16 txBuffer.length) (BitVec.ofNat 32 progAddress)
        (crc32Std txBuffer)] ++ blockCommands blockSize fuel (rest.drop blockSize) (progAddress + txBuffer.length)

/-- The commands of an update, Updater.java:234-360 and FlashFullMode.java:25-124. -/
def fullCommands (blockSize : Nat) (uid image : List Byte) (startAddress versionAddress : Nat)
    (eraseFullFlash : Bool) : List (List Byte) :=
  [msgUnlock uid, if eraseFullFlash then msgEraseAll else msgEraseRange (BitVec.ofNat 32 startAddress)
    (BitVec.ofNat 32 (startAddress + image.length - 1))] ++
  blockCommands blockSize image.length image startAddress ++
  (dataCommands (descriptor image startAddress versionAddress) ++
    [msgUpdateDescriptor (BitVec.ofNat 32 (descriptor image startAddress versionAddress).length)
      (crc32Std (descriptor image startAddress versionAddress))])

/-- The commands of a differential update (`doDifferentialFlash`, FlashDiffMode.java:84-137), behind the
unlock request of Updater.java:234 and before the descriptor of Updater.java:355-360. -/
def diffCommands (uid old new : List Byte) (startAddress versionAddress : Nat) : List (List Byte) :=
  msgUnlock uid :: (doDifferentialFlash old new ++
    (dataCommands (descriptor new startAddress versionAddress) ++
      [msgUpdateDescriptor (BitVec.ofNat 32 (descriptor new startAddress versionAddress).length)
        (crc32Std (descriptor new startAddress versionAddress))]))

end Verif.Boot.Tool
