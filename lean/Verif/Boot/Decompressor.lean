import Verif.Boot.Flash

/-!
# Model of the differential-update decompressor

`firmware_updater/bootloader/src/decompressor.cpp` / `decompressor.h`.

An access outside `cmdBuffer`, `scratchpad` or `oldPages`, and a read behind the end of the flash, is
undefined behaviour in the C++ code (memory of other variables is overwritten, or the CPU faults). In
the model the function then returns `none`.
-/

namespace Verif.Boot.Decomp
open Verif.Iap

/-- `enum class State`, decompressor.h:41-46. -/
inductive Phase where
  | expectCommandByte
  | expectCommandParams
  | expectRawData
  deriving DecidableEq, Repr

/-- The data members of `class Decompressor`, decompressor.h:48-58. The `int` counters are naturals:
they only count upwards from 0 and are bounded by the array sizes. -/
structure State where
  cmdBuffer : Nat → Byte
  expectedCmdLength : Nat
  cmdBufferLength : Nat
  scratchpad : Nat → Byte
  oldPages : Nat → Byte
  bytesToFlash : Nat
  rawLength : Nat
  phase : Phase
  startAddrOfPageToBeFlashed : U32
  startAddrOfFlash : U32

/-- `Decompressor::Decompressor`, decompressor.cpp:33-37, with the member initialisers of
decompressor.h:48-58; called with the boot descriptor block in flash (update.cpp:47). -/
def init (E : Env) (flash : Nat → Byte) : State :=
  let base := getFirmwareStartAddress E flash (loadBlock flash (bootDescriptorBlockAddress E).toNat)
  { cmdBuffer := fun _ => 0#8, expectedCmdLength := 0, cmdBufferLength := 0,
    scratchpad := fun _ => 0#8, oldPages := fun _ => 0#8, bytesToFlash := 0, rawLength := 0,
    phase := .expectCommandByte, startAddrOfPageToBeFlashed := base, startAddrOfFlash := base }

/-- `(cmdBuffer[0] & FLAG_LONG) == FLAG_LONG`. -/
def isLong (d : State) : Bool := d.cmdBuffer 0 &&& 0x40#8 == 0x40#8

/-- `(x & CMD_COPY) == CMD_COPY`. -/
def isCopy (b : Byte) : Bool := b &&& 0x80#8 == 0x80#8

/-- `getLength`, decompressor.cpp:39-49. -/
def getLength (d : State) : Nat :=
  if isLong d then (d.cmdBuffer 0 &&& 0x3F#8).toNat * 256 + (d.cmdBuffer 1).toNat
  else (d.cmdBuffer 0 &&& 0x3F#8).toNat

/-- `isCopyFromRam`, decompressor.cpp:51-61. -/
def isCopyFromRam (d : State) : Bool :=
  if isLong d then d.cmdBuffer 2 &&& 0x80#8 == 0x80#8 else d.cmdBuffer 1 &&& 0x80#8 == 0x80#8

/-- `getCopyAddress`, decompressor.cpp:63-73. -/
def getCopyAddress (d : State) : Nat :=
  if isLong d then
    (d.cmdBuffer 2 &&& 0x7F#8).toNat * 65536 + (d.cmdBuffer 3).toNat * 256 + (d.cmdBuffer 4).toNat
  else
    (d.cmdBuffer 1 &&& 0x7F#8).toNat * 65536 + (d.cmdBuffer 2).toNat * 256 + (d.cmdBuffer 3).toNat

/-- Array store. -/
def store (m : Nat → Byte) (i : Nat) (b : Byte) : Nat → Byte := fun j => if j = i then b else m j

/-- `memcpy(dst + pos, src + from, n)`. -/
def blit (dst : Nat → Byte) (pos : Nat) (src : Nat → Byte) (from_ n : Nat) : Nat → Byte :=
  fun j => if pos ≤ j ∧ j < pos + n then src (from_ + (j - pos)) else dst j

/-- Completion of a copy command, decompressor.cpp:169-222. -/
def doCopy (E : Env) (flash : Nat → Byte) (d : State) : Option State :=
  let n := getLength d
  let a := getCopyAddress d
  if d.bytesToFlash + n > 256 then none
  else if isCopyFromRam d then
    if a + n > 512 then none
    else some { d with scratchpad := blit d.scratchpad d.bytesToFlash d.oldPages a n
                       bytesToFlash := d.bytesToFlash + n, phase := .expectCommandByte }
  else
    if d.startAddrOfFlash.toNat + a + n > E.top then none
    else some { d with scratchpad := blit d.scratchpad d.bytesToFlash flash (d.startAddrOfFlash.toNat + a) n
                       bytesToFlash := d.bytesToFlash + n, phase := .expectCommandByte }

/-- Number of bytes of a command, decompressor.cpp:138-152. -/
def cmdLength (data : Byte) : Nat :=
  1 + (if isCopy data then 3 else 0) + (if data &&& 0x40#8 == 0x40#8 then 1 else 0)

/-- `putByte`, decompressor.cpp:127-243. -/
def putByte (E : Env) (flash : Nat → Byte) (d : State) (data : Byte) : Option State :=
  match d.phase with
  | .expectCommandByte =>
    let expected := cmdLength data
    let d := { d with cmdBuffer := store d.cmdBuffer 0 data, cmdBufferLength := 1
                      expectedCmdLength := expected }
    if expected > 1 then some { d with phase := .expectCommandParams }
    else some { d with phase := .expectRawData, rawLength := 0 }
  | .expectCommandParams =>
    if d.cmdBufferLength ≥ 5 then none
    else
      let d := { d with cmdBuffer := store d.cmdBuffer d.cmdBufferLength data
                        cmdBufferLength := d.cmdBufferLength + 1 }
      if d.cmdBufferLength ≥ d.expectedCmdLength then
        if isCopy (d.cmdBuffer 0) then doCopy E flash d
        else some { d with phase := .expectRawData, rawLength := 0 }
      else some d
  | .expectRawData =>
    if d.bytesToFlash ≥ 256 then none
    else
      let d := { d with scratchpad := store d.scratchpad d.bytesToFlash data
                        bytesToFlash := d.bytesToFlash + 1, rawLength := d.rawLength + 1 }
      if d.rawLength ≥ getLength d then some { d with phase := .expectCommandByte } else some d

/-- The loop of `updSendDataToDecompress`, update.cpp:854-857. -/
def putBytes (E : Env) (flash : Nat → Byte) : State → List Byte → Option State
  | d, [] => some d
  | d, b :: bs => (putByte E flash d b).bind (fun d => putBytes E flash d bs)

/-- `getCrc32`, decompressor.cpp:245-259. -/
def getCrc32 (d : State) : U32 := Crc.crc32 0xFFFFFFFF#32 (bytesAt d.scratchpad 0 d.bytesToFlash)

/-- `getFlashPageNumberToBeFlashed`, decompressor.cpp:269-271: `uint8_t`. -/
def getFlashPageNumberToBeFlashed (d : State) : Nat := d.startAddrOfPageToBeFlashed.toNat / 256 % 256

/-- `pageCompletedDoFlash`, decompressor.cpp:80-125. The result of the page erase is overwritten by
the result of the programming. -/
def pageCompletedDoFlash (E : Env) (hw : Hw) (d : State) : Byte × Hw × State :=
  let page := d.startAddrOfPageToBeFlashed.toNat
  let oldPages := fun i => if i < 256 then d.oldPages (i + 256) else hw.flash (page + (i - 256))
  let same := (List.range d.bytesToFlash).all (fun i => hw.flash (page + i) == d.scratchpad i)
  let r : Byte × Hw :=
    if same then (UDP_IAP_SUCCESS, hw)
    else
      let r := erasePageRange E hw (getFlashPageNumberToBeFlashed d) (getFlashPageNumberToBeFlashed d)
      executeProgramFlash E r.2 d.startAddrOfPageToBeFlashed d.scratchpad 256 false
  (r.1, r.2, { d with oldPages := oldPages, startAddrOfPageToBeFlashed := d.startAddrOfPageToBeFlashed + 0x100#32
                      bytesToFlash := 0, scratchpad := fun _ => 0#8 })

end Verif.Boot.Decomp
