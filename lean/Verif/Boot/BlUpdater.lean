import Verif.Boot.Flash

/-!
# Model of the bootloader updater

`firmware_updater/bootloaderupdater/src/app_main.cpp`: an application whose only purpose is to replace the
bootloader at the bottom of the flash by the image linked into the application
(`bootloader_bin.s:1-10`), and then to reset the MCU.

The image is part of the running application, that is, it lies in flash: `src` is its address
(`incbin_bl_start`) and `n` its number of bytes (`incbin_bl_end - incbin_bl_start`). Not modelled: the
LED, the debug output, and that the code of the updater is itself in flash (erasing it would crash the
MCU).
-/

namespace Verif.Boot.Blu
open Verif.Iap

/-- Store of a 32-bit word in little-endian order. -/
def store32 (m : Nat → Byte) (a : Nat) (v : U32) : Nat → Byte := fun i =>
  if i = a then v.extractLsb' 0 8
  else if i = a + 1 then v.extractLsb' 8 8
  else if i = a + 2 then v.extractLsb' 16 8
  else if i = a + 3 then v.extractLsb' 24 8
  else m i

/-- The checksum loop, app_main.cpp:91-96. -/
def checksum (buf : Nat → Byte) : U32 :=
  - (List.range 7).foldl (fun cs j => cs + load32 buf (j * 4)) 0#32

/-- `checkVectorTable`, boot_descriptor_block.cpp:61-72 (the same sum in the bootloader's own
words; not called, see boot_descriptor_block.cpp:95-96). -/
def checkVectorTable (m : Nat → Byte) (start : Nat) : U32 :=
  ~~~ (List.range 7).foldl (fun cs i => cs + load32 m (start + i * 4)) 0#32 + 1#32

/-- The RAM buffer filled from the image, app_main.cpp:75-101: `off` is `i - incbin_bl_start`. -/
def buffer (flash : Nat → Byte) (src n off : Nat) : Nat → Byte :=
  let len := n - off
  let len := if len > 0x1000 then 0x1000 else len
  let buf : Nat → Byte := fun j => if j < len then flash (src + off + j) else 0xFF#8
  if off = 0 then store32 buf 28 (checksum buf) else buf

/-- The updater between two rounds of its loop: `off` is `i - incbin_bl_start`. -/
structure State where
  off : Nat
  hw : Hw

/-- `main` up to the loop, app_main.cpp:58-67 and the initialisation of the loop variable (line 73). The
result of the erase call is ignored. -/
def start (E : Iap.Env) (n : Nat) (hw : Hw) : State :=
  let startSector := sectorOfAddress 0#32
  let endSector := sectorOfAddress (0#32 + BitVec.ofNat 32 n - 1#32)
  ⟨0, (Iap.eraseSectorRange E hw startSector endSector).2⟩

/-- One round of the loop, app_main.cpp:73-110; a finished loop does nothing more. The result of the
program call is ignored. -/
def step (E : Iap.Env) (src n : Nat) (u : State) : State :=
  if u.off < n then
    ⟨u.off + 0x1000, (Iap.program E u.hw (BitVec.ofNat 32 u.off) (buffer u.hw.flash src n u.off) 0x1000).2⟩
  else u

/-- The state after `k` rounds of the loop (app_main.cpp:54-110). -/
def after (E : Iap.Env) (src n : Nat) (hw : Hw) : Nat → State
  | 0 => start E n hw
  | k + 1 => step E src n (after E src n hw k)

/-- The loop has ended and the MCU is reset, app_main.cpp:73, 115. -/
def resets (n : Nat) (u : State) : Prop := ¬ u.off < n

end Verif.Boot.Blu
