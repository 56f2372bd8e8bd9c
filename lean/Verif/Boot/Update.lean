import Verif.Boot.Decompressor

/-!
# Model of the bootloader's update protocol

`firmware_updater/bootloader/src/update.cpp`, `upd_protocol.cpp`, the dispatch of
`bcu_updater.cpp` and the start decision of `bootloader.cpp`.

Not modelled: debug output, `totalBytesReceived`/`totalBytesFlashed` (only printed), pausing of the bus.
-/

namespace Verif.Boot
open Verif.Iap

/-- Magic numbers, update.cpp:51-52. -/
def DEVICE_LOCKED : U32 := 0x5AA55AA5#32
def DEVICE_UNLOCKED : U32 := ~~~ DEVICE_LOCKED

/-- `bufferSize`, update.cpp:59. -/
abbrev bufferSize : Nat := 1265

/-- The global variables of update.cpp:47-68 and the flash. `ram` is the RAM from the first byte of
`ramBuffer` onwards: indices below 1265 are the buffer, the others whatever the linker placed behind. -/
structure State where
  hw : Hw
  ram : Nat → Byte
  ramBufferPosition : Word
  deviceLocked : U32
  decomp : Decomp.State

/-- State after power-up. -/
def init (E : Env) (hw : Hw) (ram : Nat → Byte) : State :=
  { hw := hw, ram := ram, ramBufferPosition := 0#16, deviceLocked := DEVICE_LOCKED
    decomp := Decomp.init E hw.flash }

/-- A response telegram: command byte and data (`prepareReturnTelegram`, update.cpp:180-195, and the
stores behind it). -/
structure Resp where
  cmd : Byte
  payload : List Byte
  deriving DecidableEq, Repr

/-- `setLastError`, update.cpp:258-262. -/
def lastError (e : Byte) : Resp := ⟨0xdc#8, [e]⟩

/-- `uInt32ToStream` / `uShort16ToStream`, update.cpp:142-166. -/
def stream32 (v : U32) : List Byte :=
  [v.extractLsb' 0 8, v.extractLsb' 8 8, v.extractLsb' 16 8, v.extractLsb' 24 8]
def stream16 (v : Word) : List Byte := [v.extractLsb' 0 8, v.extractLsb' 8 8]

/-- `streamToUShort16`, update.cpp:168-171. -/
def load16 (m : Nat → Byte) (a : Nat) : Word := m (a + 1) ++ m a

/-- The byte order conversion of `updUnlockDevice`, update.cpp:307-315: the bytes of each 32-bit group
are reversed. -/
def reverseGroups (m : Nat → Byte) : Nat → Byte := fun i => m (i / 4 * 4 + (3 - i % 4))

/-- `memcmp(a, b, n) == 0`. -/
def same (a b : Nat → Byte) (n : Nat) : Bool := (List.range n).all (fun i => a i == b i)

/-- `resetUPDProtocol`, update.cpp:264-270. -/
def resetUPDProtocol (s : State) : State := { s with ramBufferPosition := 0#16 }

/-- `updUnlockDevice`, update.cpp:281-331. -/
def updUnlockDevice (E : Env) (s : State) (data : Nat → Byte) (size : Nat) : State × Resp :=
  if size ≠ 12 then (s, lastError UDP_UID_MISMATCH)
  else
    let r := readUidStatus E.toEnv s.hw
    let s := { s with hw := r.2 }
    let error := iapResult2UDPState r.1
    if error ≠ UDP_IAP_SUCCESS then (s, lastError error)
    else if !same E.uid data size && !same E.uid (reverseGroups data) size then
      (s, lastError UDP_UID_MISMATCH)
    else (resetUPDProtocol { s with deviceLocked := DEVICE_UNLOCKED }, lastError UDP_IAP_SUCCESS)

/-- `BL_ID_STRING`, boot_descriptor_block.h:43: "[SB KNX BL ]". -/
def blIdString : List Byte := [0x5b, 0x53, 0x42, 0x20, 0x4b, 0x4e, 0x58, 0x20, 0x42, 0x4c, 0x20, 0x5d]

/-- `updAppVersionRequest`, update.cpp:340-362. -/
def updAppVersionRequest (E : Env) (s : State) : Resp :=
  let block := loadBlock s.hw.flash (applicationFirstAddress E - 0x100#32).toNat
  ⟨0xbb#8, match getAppVersion E block with
    | some a => bytesAt s.hw.flash a.toNat 12
    | none => blIdString⟩

/-- `updEraseAddressRange`, update.cpp:394-403. -/
def updEraseAddressRange (E : Env) (s : State) (data : Nat → Byte) : State × Resp :=
  let r := eraseAddressRange E s.hw (load32 data 0) (load32 data 4) true
  (resetUPDProtocol { s with hw := r.2 }, lastError r.1)

/-- `updEraseFullFlash`, update.cpp:412-419. -/
def updEraseFullFlash (E : Env) (s : State) : State × Resp :=
  let r := eraseFullFlash E s.hw
  (resetUPDProtocol { s with hw := r.2 }, lastError r.1)

/-- `updSendData`, update.cpp:430-451. -/
def updSendData (s : State) (data : Nat → Byte) (nCount : Nat) : State × Resp :=
  if s.ramBufferPosition.toNat + nCount > bufferSize then (s, lastError UDP_RAM_BUFFER_OVERFLOW)
  else
    ({ s with ram := Decomp.blit s.ram s.ramBufferPosition.toNat data 0 nCount
              ramBufferPosition := s.ramBufferPosition + BitVec.ofNat 16 nCount },
     lastError UDP_IAP_SUCCESS)

/-- Inner `while` of `updProgram`, update.cpp:521-535: program blocks of `bs` bytes while at least
`bs` bytes are left. `fuel` bounds the iterations (each consumes `bs` bytes, so `left` is enough).
Returns status, hardware, bytes left, address, buffer position. -/
def programBlocks (E : Env) (ram : Nat → Byte) (bs : Nat) :
    Nat → Hw → Nat → U32 → Nat → Byte × Hw × Nat × U32 × Nat
  | 0, hw, left, address, pos => (UDP_IAP_SUCCESS, hw, left, address, pos)
  | fuel + 1, hw, left, address, pos =>
    if left ≥ bs then
      let r := executeProgramFlash E hw address (fun i => ram (pos + i)) bs false
      if r.1 ≠ UDP_IAP_SUCCESS then (r.1, r.2, left, address, pos)
      else programBlocks E ram bs fuel r.2 (left - bs) (address + BitVec.ofNat 32 bs) (pos + bs)
    else (UDP_IAP_SUCCESS, hw, left, address, pos)

/-- The `for` over the block sizes, update.cpp:514-541. The 4096-byte block size is skipped because it
exceeds the RAM buffer. -/
def programSizes (E : Env) (ram : Nat → Byte) :
    List Nat → Hw → Nat → U32 → Nat → Byte × Hw × Nat × U32 × Nat
  | [], hw, left, address, pos => (UDP_IAP_SUCCESS, hw, left, address, pos)
  | bs :: rest, hw, left, address, pos =>
    if bs > bufferSize then programSizes E ram rest hw left address pos
    else
      let r := programBlocks E ram bs left hw left address pos
      if r.1 ≠ UDP_IAP_SUCCESS ∨ r.2.2.1 = 0 then r
      else programSizes E ram rest r.2.1 r.2.2.1 r.2.2.2.1 r.2.2.2.2

/-- `IapBlockSize`, iap.h:40. -/
def iapBlockSizes : List Nat := [0x1000, 0x400, 0x200, 0x100]

/-- The programming part of `updProgram`, update.cpp:507-552. The outer `while` runs at most once:
after the `for` fewer than 256 bytes are left, and these are programmed as one last page. -/
def programAll (E : Env) (hw : Hw) (ram : Nat → Byte) (count : Nat) (address : U32) : Byte × Hw :=
  let r := programSizes E ram iapBlockSizes hw count address 0
  if r.1 = UDP_IAP_SUCCESS ∧ 0 < r.2.2.1 ∧ r.2.2.1 ≤ 256 then
    executeProgramFlash E r.2.1 r.2.2.2.1 (fun i => ram (r.2.2.2.2 + i)) 256 false
  else (r.1, r.2.1)

/-- `updProgram`, update.cpp:462-554. -/
def updProgram (E : Env) (s : State) (data : Nat → Byte) : State × Resp :=
  let count := (load16 data 0).toNat
  let address := load32 data 2
  let crcToCompare := load32 data 6
  if !addressAllowedToProgram E address (BitVec.ofNat 32 count) false then
    (s, lastError UDP_ADDRESS_NOT_ALLOWED_TO_FLASH)
  else if count > bufferSize then (s, lastError UDP_RAM_BUFFER_OVERFLOW)
  else if s.ramBufferPosition.toNat > count then
    ({ s with ramBufferPosition := 0#16 }, lastError UDP_BYTECOUNT_RECEIVED_TOO_HIGH)
  else if s.ramBufferPosition.toNat < count then
    ({ s with ramBufferPosition := 0#16 }, lastError UDP_BYTECOUNT_RECEIVED_TOO_LOW)
  else if Crc.crc32 0xFFFFFFFF#32 (bytesAt s.ram 0 count) ≠ crcToCompare then
    (s, lastError UDP_CRC_ERROR)
  else
    let r := programAll E s.hw s.ram count address
    ({ s with hw := r.2, ramBufferPosition := 0#16 }, lastError r.1)

/-- `updRequestBootloaderIdentity`, update.cpp:564-613: version numbers 1.20, features 0x0100 (release
build), library version `SBLIB_VERSION`, given by the parameters of the build. -/
def updRequestBootloaderIdentity (E : Env) (data : Nat → Byte) (libMajor libMinor : Byte) : Resp :=
  if (data 0).toNat > 1 ∨ ((data 0).toNat = 1 ∧ (data 1).toNat ≥ 0) then
    ⟨0xb7#8, [1#8, 20#8] ++ stream16 0x0100#16 ++ [libMajor, libMinor] ++ stream32 (applicationFirstAddress E)⟩
  else ⟨0xb6#8, [1#8, 0#8]⟩

/-- `udpRequestBootDescriptionBlock`, update.cpp:637-665: an implausible descriptor is "overwritten"
with 0xFF by plain CPU stores to the flash address. -/
def udpRequestBootDescriptionBlock (E : Env) (s : State) : State × Resp :=
  let a := (bootDescriptorBlockAddress E).toNat
  let b := loadBlock s.hw.flash a
  let first := applicationFirstAddress E
  let last := flashLastAddress E
  let valid := decide (b.startAddress ≤ b.endAddress) &&
    (decide (b.startAddress ≤ last) && decide (b.endAddress ≤ last)) &&
    (decide (b.startAddress ≥ first) && decide (b.endAddress ≥ first))
  let flash :=
    if !valid && E.directStore then writeRange s.hw.flash (fun _ => 0xFF#8) a (a + 16) else s.hw.flash
  ({ s with hw := { s.hw with flash := flash } }, ⟨0xb9#8, bytesAt flash a 12⟩)

/-- `updRequestUID`, update.cpp:696-710. -/
def updRequestUID (E : Env) (s : State) : State × Resp :=
  let r := readUidStatus E.toEnv s.hw
  let s := { s with hw := r.2 }
  let error := iapResult2UDPState r.1
  if error ≠ UDP_IAP_SUCCESS then (s, lastError error) else (s, ⟨0xbd#8, bytesAt E.uid 0 12⟩)

/-- `updUpdateBootDescriptorBlock`, update.cpp:738-835. -/
def updUpdateBootDescriptorBlock (E : Env) (s : State) (data : Nat → Byte) : State × Resp :=
  let count := (load32 data 0).toNat
  let crcReceived := load32 data 4
  if count > bufferSize then (s, lastError UDP_RAM_BUFFER_OVERFLOW)
  else if Crc.crc32 0xFFFFFFFF#32 (bytesAt s.ram 0 count) ≠ crcReceived then (s, lastError UDP_CRC_ERROR)
  else
    let address := bootDescriptorBlockAddress E
    /- the part behind the comparison, update.cpp:824-834 -/
    let finish (hw : Hw) (result : Byte) : State × Resp :=
      let s := { s with hw := hw }
      if !checkApplication E hw.flash (loadBlock s.ram 0) then (s, lastError UDP_APPLICATION_NOT_STARTABLE)
      else (s, lastError result)
    if same (fun i => s.hw.flash (address.toNat + i)) s.ram count then finish s.hw UDP_IAP_SUCCESS
    else
      let r := erasePageRange E s.hw (bootDescriptorBlockPage E) (bootDescriptorBlockPage E)
      if r.1 ≠ UDP_IAP_SUCCESS then ({ s with hw := r.2 }, lastError r.1)
      else
        let r := executeProgramFlash E r.2 address s.ram 256 true
        if r.1 = UDP_ADDRESS_NOT_ALLOWED_TO_FLASH then ({ s with hw := r.2 }, lastError r.1)
        else finish r.2 r.1

/-- `updSendDataToDecompress`, update.cpp:847-861. -/
def updSendDataToDecompress (E : Env) (s : State) (data : Nat → Byte) (nCount : Nat) :
    Option (State × Resp) :=
  if !E.decompressorBuilt then some (s, lastError UDP_NOT_IMPLEMENTED)
  else
    (Decomp.putBytes E s.hw.flash s.decomp (bytesAt data 0 nCount)).map
      (fun d => ({ s with decomp := d }, lastError UDP_IAP_SUCCESS))

/-- `updProgramDecompressedDataToFlash`, update.cpp:875-913. -/
def updProgramDecompressedDataToFlash (E : Env) (s : State) (data : Nat → Byte) : State × Resp :=
  if !E.decompressorBuilt then (s, lastError UDP_NOT_IMPLEMENTED)
  else if !addressAllowedToProgram E s.decomp.startAddrOfPageToBeFlashed
      (BitVec.ofNat 32 s.decomp.bytesToFlash) false then
    (s, lastError UDP_ADDRESS_NOT_ALLOWED_TO_FLASH)
  else if Decomp.getCrc32 s.decomp ≠ load32 data 0 then (s, lastError UDP_CRC_ERROR)
  else
    let r := Decomp.pageCompletedDoFlash E s.hw s.decomp
    (resetUPDProtocol { s with hw := r.2.1, decomp := r.2.2 }, lastError r.1)

/-- `updCommands`, upd_protocol.h:115-145: code, minimum and maximum number of data bytes. -/
def updCommands : List (Byte × Nat × Nat) :=
  [(0x00#8, 0, 0), (0xef#8, 1, 254), (0xee#8, 10, 10), (0xed#8, 8, 8), (0xec#8, 1, 254),
   (0xeb#8, 4, 4), (0xea#8, 0, 0), (0xe9#8, 8, 8), (0xe8#8, 3, 3), (0xe7#8, 8, 8), (0xdf#8, 0, 0),
   (0xde#8, 4, 4), (0xdc#8, 1, 1), (0xbf#8, 12, 12), (0xbe#8, 0, 0), (0xbd#8, 12, 12),
   (0xbc#8, 0, 0), (0xbb#8, 12, 12), (0xba#8, 0, 0), (0xb9#8, 12, 12), (0xb8#8, 2, 2),
   (0xb7#8, 10, 10), (0xb6#8, 2, 2), (0x01#8, 255, 255)]

/-- `code2UPDCommand`, upd_protocol.cpp:26-36. -/
def code2UPDCommand (code : Byte) : Byte × Nat × Nat :=
  (updCommands.find? (fun c => c.1 == code)).getD (0x00#8, 0, 0)

/-- Counters for `updRequestStatistic` (update.cpp:620-630) and the library version: values from other
modules that only appear in responses. -/
structure Info where
  disconnectCount : Word
  repeatedTAckCount : Word
  libMajor : Byte
  libMinor : Byte

/-- The second `switch` of `handleApciUsermsgManufacturerInternal`, update.cpp:980-1029. -/
def dispatch (E : Env) (I : Info) (s : State) (code : Byte) (data : Nat → Byte) (size : Nat) :
    Option (State × Resp) :=
  if code = 0xbf#8 then some (updUnlockDevice E s data size)
  else if code = 0xbe#8 then some (updRequestUID E s)
  else if code = 0xbc#8 then some (s, updAppVersionRequest E s)
  else if code = 0xef#8 then some (updSendData s data size)
  else if code = 0xee#8 then some (updProgram E s data)
  else if code = 0xec#8 then updSendDataToDecompress E s data size
  else if code = 0xeb#8 then some (updProgramDecompressedDataToFlash E s data)
  else if code = 0xea#8 then some (updEraseFullFlash E s)
  else if code = 0xe9#8 then some (updEraseAddressRange E s data)
  else if code = 0xe7#8 then some (s, lastError UDP_NOT_IMPLEMENTED)
  else if code = 0xdf#8 then
    some (s, ⟨0xde#8, stream16 I.disconnectCount ++ stream16 I.repeatedTAckCount⟩)
  else if code = 0xed#8 then some (updUpdateBootDescriptorBlock E s data)
  else if code = 0xba#8 then some (udpRequestBootDescriptionBlock E s)
  else if code = 0xb8#8 then some (s, updRequestBootloaderIdentity E data I.libMajor I.libMinor)
  else if code = 0xe8#8 then some (s, lastError UDP_NOT_IMPLEMENTED)
  else some (s, lastError UDP_UNKNOWN_COMMAND)

/-- `handleApciUsermsgManufacturerInternal`, update.cpp:929-1031. `data` is the telegram from the
command byte on, `size` the length computed by the caller (32-bit unsigned). `none`: undefined
behaviour of the C++ code. -/
def handle (E : Env) (I : Info) (s : State) (data : Nat → Byte) (size : U32) : Option (State × Resp) :=
  if size.toNat < 1 then some (s, lastError UDP_NO_DATA)
  else
    let c := code2UPDCommand (data 0)
    if c.1 = 0x00#8 then some (s, lastError UDP_INVALID)
    else
      let n := size.toNat - 1
      if n < c.2.1 ∨ n > c.2.2 then some (s, lastError UDP_INVALID_DATA)
      else if s.deviceLocked ≠ DEVICE_UNLOCKED ∧ c.1 ≠ 0xbf#8 ∧ c.1 ≠ 0xbe#8 ∧ c.1 ≠ 0xbc#8 then
        some (s, lastError UDP_DEVICE_LOCKED)
      else dispatch E I s c.1 (fun i => data (i + 1)) n

/-- `BcuUpdate::processApci`, bcu_updater.cpp:60-87, for the manufacturer message: the data starts at
byte 8 of the telegram and ends before the checksum; the subtraction is unsigned. -/
def processUsermsg (E : Env) (I : Info) (s : State) (telegram : Nat → Byte) (telLength : Byte) :
    Option (State × Resp) :=
  handle E I s (fun i => telegram (i + 8)) (telLength.setWidth 32 - 8#32 - 1#32)

/-- Start decision of `startup`, bootloader.cpp:233-258: `some a` means the application at `a` is
started, `none` that the bootloader stays active. `magic`: the magic word was found in RAM;
`buttonPressed`: the programming button is held at power-up. -/
def startup (E : Env) (flash : Nat → Byte) (magic buttonPressed : Bool) : Option U32 :=
  if magic then none
  else if buttonPressed then none
  else
    let block := loadBlock flash (bootDescriptorBlockAddress E).toNat
    if checkApplication E flash block then some block.startAddress else none

/-- A sequence of update telegrams. `none` as soon as one of them triggers undefined behaviour.
Returns the final state and the responses. -/
def run (E : Env) (I : Info) : State → List (List Byte) → Option (State × List Resp)
  | s, [] => some (s, [])
  | s, m :: ms =>
    (handle E I s (fun i => m.getD i 0#8) (BitVec.ofNat 32 m.length)).bind fun r =>
      (run E I r.1 ms).map fun r' => (r'.1, r.2 :: r'.2)

end Verif.Boot
