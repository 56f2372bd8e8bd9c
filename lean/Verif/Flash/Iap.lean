import Verif.Base

/-!
# Flash memory and the In-Application-Programming layer

Model of `sblib/src/iap.cpp` on top of an explicit device model of the LPC11xx flash and its ROM
routines (UM10398 chapter 26):

* an erase sets every byte of the erased pages/sectors to 0xFF, a program operation can only clear
  bits (NOR flash: old AND new);
* a call whose arguments are not acceptable returns an error and does nothing;
* any call may in addition fail for reasons of its own (`Env.fault`, arbitrary), and then leaves
  arbitrary bytes (`Env.garbage`) **inside the addressed range**; bytes outside the range are never
  touched;
* compare and blank check look at the real content.

Simplifications: the separate "prepared" flag of the ROM is not tracked, because every function of
iap.cpp performs the prepare call itself immediately before; the RAM source alignment check of the
ROM is not modelled (all RAM buffers are declared 4-byte aligned); interrupts are masked during the
calls, so each call is atomic.
-/

namespace Verif.Iap

/-- Hardware parameters. `fault k = some n`: the k-th ROM call since power-up fails with status
`n + 1`, whatever its arguments. -/
structure Env where
  /-- number of bytes of flash, `__top_Flash` (boot_descriptor_block.cpp:29) -/
  top : Nat
  fault : Nat → Option Nat
  garbage : Nat → Nat → Byte

/-- Flash content and number of ROM calls made so far. -/
structure Hw where
  flash : Nat → Byte
  calls : Nat

/-- Replace the bytes of `[lo, hi)`. -/
def writeRange (f g : Nat → Byte) (lo hi : Nat) : Nat → Byte :=
  fun a => if lo ≤ a ∧ a < hi then g a else f a

/-- One ROM call (`IAP_Call`, iap.cpp:68, 84-97): `argStatus` is the verdict of the ROM on the arguments,
`[lo, hi)` the flash range it works on and `new` the content a successful call leaves there. -/
def call (E : Env) (hw : Hw) (argStatus lo hi : Nat) (new : Nat → Byte) : Nat × Hw :=
  if argStatus ≠ 0 then (argStatus, { hw with calls := hw.calls + 1 })
  else match E.fault hw.calls with
    | some n => (n + 1, { flash := writeRange hw.flash (E.garbage hw.calls) lo hi, calls := hw.calls + 1 })
    | none => (0, { flash := writeRange hw.flash new lo hi, calls := hw.calls + 1 })

/-- `iapSectorOfAddress`, iap.cpp:231-234: pointer difference (signed) divided by 0x1000, then
converted to `unsigned int`. `FLASH_BASE_ADDRESS` is 0. -/
def sectorOfAddress (a : U32) : Nat := (a.sdiv 0x1000#32).toNat

/-- `iapPageOfAddress`, iap.cpp:236-239. -/
def pageOfAddress (a : U32) : Nat := (a.sdiv 0x100#32).toNat

/-- `iapAddressOfPage`, iap.cpp:241-244. -/
def addressOfPage (page : Nat) : U32 := BitVec.ofNat 32 (page * 0x100)

/-- ROM check of a sector range: `INVALID_SECTOR` (7) unless start ≤ end and both exist. -/
def sectorArgs (E : Env) (startSector endSector : Nat) : Nat :=
  if startSector ≤ endSector ∧ endSector < E.top / 0x1000 then 0 else 7

/-- ROM check of a page range. -/
def pageArgs (E : Env) (startPage endPage : Nat) : Nat :=
  if startPage ≤ endPage ∧ endPage < E.top / 0x100 then 0 else 7

/-- ROM check of a copy-RAM-to-flash command: destination boundary (3), destination mapped taking the
count into account (5), count one of 256, 512, 1024, 4096 (6). -/
def copyArgs (E : Env) (dst size : Nat) : Nat :=
  if dst % 0x100 ≠ 0 then 3
  else if dst + size > E.top then 5
  else if size = 0x100 ∨ size = 0x200 ∨ size = 0x400 ∨ size = 0x1000 then 0 else 6

/-- `_prepareSectorRange`, iap.cpp:99-109. -/
def prepareSectorRange (E : Env) (hw : Hw) (startSector endSector : Nat) : Nat × Hw :=
  call E hw (sectorArgs E startSector endSector) 0 0 hw.flash

/-- All bytes of `[lo, lo + n)` satisfy `p`. -/
def allBytes (f : Nat → Byte) (lo n : Nat) (p : Nat → Byte → Bool) : Bool :=
  (List.range n).all (fun i => p i (f (lo + i)))

/-- Result of the ROM blank check of `[lo, lo + n)`: `SECTOR_NOT_BLANK` (8) if some byte is not 0xFF. -/
def blankCheck (f : Nat → Byte) (lo n : Nat) : Nat :=
  if allBytes f lo n (fun _ b => b == 0xFF#8) then 0 else 8

/-- Result of the ROM compare of `[lo, lo + n)` with RAM: `COMPARE_ERROR` (10) on a difference. -/
def compare (f : Nat → Byte) (lo n : Nat) (ram : Nat → Byte) : Nat :=
  if allBytes f lo n (fun i b => b == ram i) then 0 else 10

/-- `iapEraseSectorRange`, iap.cpp:116-139: prepare, erase, blank check. -/
def eraseSectorRange (E : Env) (hw : Hw) (startSector endSector : Nat) : Nat × Hw :=
  let r := prepareSectorRange E hw startSector endSector
  if r.1 ≠ 0 then r else
  let r := call E r.2 (sectorArgs E startSector endSector) (startSector * 0x1000)
    ((endSector + 1) * 0x1000) (fun _ => 0xFF#8)
  if r.1 ≠ 0 then r else
  call E r.2 (blankCheck r.2.flash (startSector * 0x1000)
    ((endSector + 1) * 0x1000 - startSector * 0x1000)) 0 0 r.2.flash

/-- `iapErasePageRange`, iap.cpp:146-163: prepare the sectors, erase the pages (no blank check). -/
def erasePageRange (E : Env) (hw : Hw) (startPage endPage : Nat) : Nat × Hw :=
  let r := prepareSectorRange E hw (startPage / 16) (endPage / 16)
  if r.1 ≠ 0 then r else
  call E r.2 (pageArgs E startPage endPage) (startPage * 0x100) ((endPage + 1) * 0x100)
    (fun _ => 0xFF#8)

/-- `iapProgram`, iap.cpp:165-207: prepare, copy RAM to flash, compare. `ram i` is the i-th source
byte. -/
def program (E : Env) (hw : Hw) (rom : U32) (ram : Nat → Byte) (size : Nat) : Nat × Hw :=
  let dst := rom.toNat
  let r := prepareSectorRange E hw (sectorOfAddress rom)
    (sectorOfAddress (rom + BitVec.ofNat 32 size - 1#32))
  if r.1 ≠ 0 then r else
  let old := r.2.flash
  let r := call E r.2 (copyArgs E dst size) dst (dst + size) (fun a => old a &&& ram (a - dst))
  if r.1 ≠ 0 then r else
  call E r.2 (compare r.2.flash dst size ram) 0 0 r.2.flash

/-- Status of `iapReadUID`, iap.cpp:209-218; the UID itself is a parameter of the users. -/
def readUidStatus (E : Env) (hw : Hw) : Nat × Hw := call E hw 0 0 0 hw.flash

end Verif.Iap
