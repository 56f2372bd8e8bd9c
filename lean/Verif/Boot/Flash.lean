import Verif.Flash.Iap
import Verif.Crc.Model

/-!
# Model of the bootloader's flash access and boot descriptor

`firmware_updater/bootloader/src/flash.cpp`, `boot_descriptor_block.cpp` and the status mapping of
`upd_protocol.cpp`. `_image_start` and `__base_Flash` are 0 (the bootloader sits at the bottom of the
flash); `_image_end` and `__top_Flash` are parameters.
-/

namespace Verif.Boot
open Verif.Iap

/-- Parameters of a device: the flash hardware, the linker symbol `_image_end`
(boot_descriptor_block.cpp:33), the 16-byte unique id of the MCU, whether a plain CPU store to a flash
address takes effect (false on the MCU, true in the project's unit test emulation), whether the
bootloader was built with `DECOMPRESSOR`. -/
structure Env extends Iap.Env where
  imageEnd : Nat
  uid : Nat → Byte
  directStore : Bool
  decompressorBuilt : Bool

/-- `iapResult2UDPState`, upd_protocol.cpp:38-83. -/
def iapResult2UDPState : Nat → Byte
  | 0 => 0x7f#8
  | 1 => 0x7e#8
  | 2 => 0x7d#8
  | 3 => 0x7c#8
  | 4 => 0x7b#8
  | 5 => 0x7a#8
  | 6 => 0x79#8
  | 7 => 0x78#8
  | 8 => 0x77#8
  | 9 => 0x76#8
  | 10 => 0x75#8
  | 11 => 0x74#8
  | _ => 0x73#8

/-! `enum UDP_State`, upd_protocol.h:150-188. -/
abbrev UDP_IAP_SUCCESS : Byte := 0x7f#8
abbrev UDP_UNKNOWN_COMMAND : Byte := 0x5f#8
abbrev UDP_CRC_ERROR : Byte := 0x5e#8
abbrev UDP_ADDRESS_NOT_ALLOWED_TO_FLASH : Byte := 0x5d#8
abbrev UDP_SECTOR_NOT_ALLOWED_TO_ERASE : Byte := 0x5c#8
abbrev UDP_RAM_BUFFER_OVERFLOW : Byte := 0x5b#8
abbrev UDP_APPLICATION_NOT_STARTABLE : Byte := 0x59#8
abbrev UDP_DEVICE_LOCKED : Byte := 0x58#8
abbrev UDP_UID_MISMATCH : Byte := 0x57#8
abbrev UDP_INVALID_DATA : Byte := 0x55#8
abbrev UDP_NO_DATA : Byte := 0x54#8
abbrev UDP_PAGE_NOT_ALLOWED_TO_ERASE : Byte := 0x52#8
abbrev UDP_ADDRESS_RANGE_NOT_ALLOWED_TO_ERASE : Byte := 0x51#8
abbrev UDP_BYTECOUNT_RECEIVED_TOO_LOW : Byte := 0x50#8
abbrev UDP_BYTECOUNT_RECEIVED_TOO_HIGH : Byte := 0x4f#8
abbrev UDP_NOT_IMPLEMENTED : Byte := 0x02#8
abbrev UDP_INVALID : Byte := 0x01#8

/-! ## boot_descriptor_block.cpp -/

/-- `bootLoaderLastAddress`, boot_descriptor_block.cpp:139-143. -/
def bootLoaderLastAddress (E : Env) : U32 := BitVec.ofNat 32 (E.imageEnd - 1)

/-- `flashLastAddress`, boot_descriptor_block.cpp:156-160. -/
def flashLastAddress (E : Env) : U32 := BitVec.ofNat 32 (E.top - 1)

/-- `std::align(FLASH_PAGE_SIZE, 1, ptr, space)` with `space = FLASH_PAGE_ALIGNMENT = 255`
(libstdc++): the pointer is moved up to the next multiple of 256, unless `1 + distance > 255`, in
which case it is left alone. -/
def stdAlign (p : U32) : U32 :=
  let aligned := (p + 0xFF#32) &&& 0xFFFFFF00#32
  let diff := aligned - p
  if 1 + diff.toNat > 255 then p else aligned

/-- `applicationFirstAddress`, boot_descriptor_block.cpp:168-179. `bootLoaderSize()` is the linker
symbol `_image_size` (boot_descriptor_block.cpp:35), assumed here to be `_image_end - _image_start`,
as the emulation defines it (boot_descriptor_block.cpp:43). -/
def applicationFirstAddress (E : Env) : U32 :=
  stdAlign (BitVec.ofNat 32 E.imageEnd + 0x100#32)

/-- `bootDescriptorBlockAddress`, boot_descriptor_block.cpp:181-185. -/
def bootDescriptorBlockAddress (E : Env) : U32 := applicationFirstAddress E - 0x100#32

/-- `bootDescriptorBlockPage`, boot_descriptor_block.cpp:187-191. -/
def bootDescriptorBlockPage (E : Env) : Nat := pageOfAddress (bootDescriptorBlockAddress E)

/-- Little-endian 32-bit load: `streamToUIn32` (update.cpp:123-126) and the loads of the members of
`AppDescriptionBlock`. -/
def load32 (m : Nat → Byte) (a : Nat) : U32 := m (a + 3) ++ m (a + 2) ++ m (a + 1) ++ m a

/-- `struct AppDescriptionBlock`, boot_descriptor_block.h:55-61. -/
structure AppDescriptionBlock where
  startAddress : U32
  endAddress : U32
  crc : U32
  appVersionAddress : U32

/-- An `AppDescriptionBlock *` dereferenced: the block stored at address `a` of memory `m`. -/
def loadBlock (m : Nat → Byte) (a : Nat) : AppDescriptionBlock :=
  { startAddress := load32 m a, endAddress := load32 m (a + 4), crc := load32 m (a + 8),
    appVersionAddress := load32 m (a + 12) }

/-- The bytes `[a, a + n)` of memory `m`. -/
def bytesAt (m : Nat → Byte) (a n : Nat) : List Byte := (List.range n).map (fun i => m (a + i))

/-- `checkApplication`, boot_descriptor_block.cpp:74-99. -/
def checkApplication (E : Env) (flash : Nat → Byte) (b : AppDescriptionBlock) : Bool :=
  if b.startAddress < applicationFirstAddress E ∨ b.startAddress > flashLastAddress E then false
  else if b.endAddress > flashLastAddress E then false
  else if b.startAddress ≥ b.endAddress then false
  else
    let blockSize := b.endAddress - b.startAddress + 1#32
    Crc.crc32 0xFFFFFFFF#32 (bytesAt flash b.startAddress.toNat blockSize.toNat) == b.crc

/-- `getAppVersion`, boot_descriptor_block.cpp:101-113: `none` stands for the built-in
`bl_id_string`. -/
def getAppVersion (E : Env) (b : AppDescriptionBlock) : Option U32 :=
  if b.appVersionAddress ≥ applicationFirstAddress E ∧
      b.appVersionAddress < flashLastAddress E - 13#32
  then some b.appVersionAddress else none

/-- `getFirmwareStartAddress`, boot_descriptor_block.cpp:122-132. -/
def getFirmwareStartAddress (E : Env) (flash : Nat → Byte) (b : AppDescriptionBlock) : U32 :=
  if checkApplication E flash b then b.startAddress else applicationFirstAddress E

/-! ## flash.cpp -/

/-- `is_aligned`, flash.cpp:34-38. -/
def isAligned (p : U32) (alignment : U32) : Bool := p &&& (alignment - 1#32) == 0#32

/-- `addressAllowedToProgram`, flash.cpp:52-67. -/
def addressAllowedToProgram (E : Env) (start length : U32) (isBootDescriptor : Bool) : Bool :=
  if !isAligned start 0x100#32 || length == 0#32 then false
  else
    let last := start + length - 1#32
    if isBootDescriptor then
      decide (start ≥ bootDescriptorBlockAddress E) && decide (last < applicationFirstAddress E)
    else
      decide (start ≥ applicationFirstAddress E) && decide (last ≤ flashLastAddress E)

/-- `pageAllowedToErase`, flash.cpp:75-79. -/
def pageAllowedToErase (E : Env) (pageNumber : Nat) : Bool :=
  decide (pageNumber > pageOfAddress (bootLoaderLastAddress E)) &&
  decide (pageNumber ≤ pageOfAddress (flashLastAddress E))

/-- `sectorAllowedToErase`, flash.cpp:87-91. -/
def sectorAllowedToErase (E : Env) (sectorNumber : Nat) : Bool :=
  decide (sectorNumber > sectorOfAddress (bootLoaderLastAddress E)) &&
  decide (sectorNumber ≤ sectorOfAddress (flashLastAddress E))

/-- `erasePageRange`, flash.cpp:93-118. -/
def erasePageRange (E : Env) (hw : Hw) (startPage endPage : Nat) : Byte × Hw :=
  if !pageAllowedToErase E startPage || !pageAllowedToErase E endPage then
    (UDP_PAGE_NOT_ALLOWED_TO_ERASE, hw)
  else
    let r := Iap.erasePageRange E.toEnv hw startPage endPage
    (iapResult2UDPState r.1, r.2)

/-- `eraseSectorRange`, flash.cpp:127-151. -/
def eraseSectorRange (E : Env) (hw : Hw) (startSector endSector : Nat) : Byte × Hw :=
  if !sectorAllowedToErase E startSector || !sectorAllowedToErase E endSector then
    (UDP_SECTOR_NOT_ALLOWED_TO_ERASE, hw)
  else
    let r := Iap.eraseSectorRange E.toEnv hw startSector endSector
    (iapResult2UDPState r.1, r.2)

/-- Unsigned 32-bit subtraction of page/sector numbers (`unsigned int` arithmetic). -/
def sub32 (a b : Nat) : Nat := (BitVec.ofNat 32 a - BitVec.ofNat 32 b).toNat

/-- Last part of `eraseAddressRange`, flash.cpp:218-223. `result` is the value of the local variable
so far. -/
def eraseWholeSectors (E : Env) (hw : Hw) (result : Byte) (startSector endSector : Nat) : Byte × Hw :=
  if startSector ≤ endSector then eraseSectorRange E hw startSector endSector else (result, hw)

/-- Second part of `eraseAddressRange`, flash.cpp:201-216: the pages of the last sector. -/
def eraseTail (E : Env) (hw : Hw) (result : Byte) (startAddress : U32) (endPage endSector : Nat) :
    Byte × Hw :=
  let startSector := sectorOfAddress startAddress
  let start := (BitVec.ofNat 32 endSector * 0x1000#32 / 0x100#32).toNat
  let lastPageInSector := (sub32 endPage start + 1) % 2 ^ 32 == 16
  if !lastPageInSector then
    let r := erasePageRange E hw start endPage
    if r.1 ≠ UDP_IAP_SUCCESS then r
    else eraseWholeSectors E r.2 r.1 startSector (sub32 endSector 1)
  else eraseWholeSectors E hw result startSector endSector

/-- `eraseAddressRange`, flash.cpp:153-224. -/
def eraseAddressRange (E : Env) (hw : Hw) (startAddress endAddress : U32) (rangeCheck : Bool) :
    Byte × Hw :=
  if rangeCheck && !addressAllowedToProgram E startAddress (endAddress - startAddress + 1#32) false then
    (UDP_ADDRESS_RANGE_NOT_ALLOWED_TO_ERASE, hw)
  else
    let endPage := pageOfAddress endAddress
    let startSector := sectorOfAddress startAddress
    let endSector := sectorOfAddress endAddress
    let startPage := pageOfAddress startAddress
    if (sub32 endPage startPage + 1) % 2 ^ 32 < 16 then erasePageRange E hw startPage endPage
    else if !isAligned startAddress 0x1000#32 then
      let nextSectorStartAddress := BitVec.ofNat 32 (startSector + 1) * 0x1000#32
      let r := erasePageRange E hw startPage (sub32 (pageOfAddress nextSectorStartAddress) 1)
      if r.1 ≠ UDP_IAP_SUCCESS then r
      else eraseTail E r.2 r.1 nextSectorStartAddress endPage endSector
    else eraseTail E hw UDP_ADDRESS_RANGE_NOT_ALLOWED_TO_ERASE startAddress endPage endSector

/-- `eraseFullFlash`, flash.cpp:226-231. -/
def eraseFullFlash (E : Env) (hw : Hw) : Byte × Hw :=
  eraseAddressRange E hw (addressOfPage (pageOfAddress (bootLoaderLastAddress E) + 1))
    (flashLastAddress E) false

/-- `executeProgramFlash`, flash.cpp:233-243. -/
def executeProgramFlash (E : Env) (hw : Hw) (address : U32) (ram : Nat → Byte) (size : Nat)
    (isBootDescriptor : Bool) : Byte × Hw :=
  if !addressAllowedToProgram E address (BitVec.ofNat 32 size) isBootDescriptor then
    (UDP_ADDRESS_NOT_ALLOWED_TO_FLASH, hw)
  else
    let r := Iap.program E.toEnv hw address ram size
    (iapResult2UDPState r.1, r.2)

end Verif.Boot
