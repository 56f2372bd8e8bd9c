import Verif.Boot.Update
import Verif.Boot.BlUpdater

/-!
# Model of the handover between bootloader and application

`firmware_updater/bootloader/src/bootloader.cpp` (`startup`, `jumpToApplication`) with the RAM word in
which an application asks for the bootloader (`BcuBase::softSystemReset`, sblib/src/eib/bcu_base.cpp).

Not modelled: the 250 ms the programming LED is on before the application starts (`finalize`,
bootloader.cpp:178-189) and the pins.
-/

namespace Verif.Boot
open Verif.Iap Blu

/-- `BOOTLOADER_MAGIC_ADDRESS`, apci.h:136, and `BL_RESERVED_RAM_START`, bootloader.cpp:43. -/
def magicAddress : Nat := 0x10000000
def reservedRam : Nat := 0x10000000
/-- `BOOTLOADER_MAGIC_WORD`, apci.h:134. -/
def magicWord : U32 := 0x5E1FB055#32

/-- What the processor executes: the bootloader (`bcu.begin()` and `loop()`), or a program entered with
the stack pointer `sp` at `pc`. -/
inductive Running where
  | bootloader
  | program (sp pc : U32)
  deriving DecidableEq, Repr

/-- Memories (addressed absolutely), the register `SYSMEMREMAP` (where the processor looks for the
vector table: 2 = flash, 1 = first 512 bytes of the RAM) and the running program. -/
structure Chip where
  flash : Nat → Byte
  ram : Nat → Byte
  remap : Nat
  running : Running

/-- The `for` of `jumpToApplication`, bootloader.cpp:210-213: copies `n` words; `i` is the next one. -/
def copyVectors (flash : Nat → Byte) (start : Nat) : Nat → Nat → (Nat → Byte) → (Nat → Byte)
  | 0, _, ram => ram
  | n + 1, i, ram =>
    copyVectors flash start n (i + 1)
      (store32 ram (reservedRam + 4 * i) (load32 flash (start + 4 * i)))

/-- `jumpToApplication`, bootloader.cpp:196-226. `BL_DEFAULT_VECTOR_TABLE_SIZE` (bootloader.cpp:44) is
192 / 4. -/
def jumpToApplication (c : Chip) (start : U32) : Chip :=
  let stackTop := load32 c.flash start.toNat
  let resetVector := load32 c.flash (start.toNat + 4)
  { c with ram := copyVectors c.flash start.toNat (192 / 4) 0 c.ram
           remap := 1
           running := .program stackTop resetVector }

/-- `startup`, bootloader.cpp:233-258, run by `setup()` (bootloader.cpp:73-137) after every reset. A
return of `startup` leaves the bootloader running. -/
def bootStart (E : Env) (c : Chip) (button : Bool) : Chip :=
  if load32 c.ram magicAddress = magicWord then
    { c with ram := store32 c.ram magicAddress 0#32 }
  else
    let c := { c with ram := store32 c.ram magicAddress 0#32 }
    if button then c
    else
      let block := loadBlock c.flash (bootDescriptorBlockAddress E).toNat
      if checkApplication E c.flash block then jumpToApplication c block.startAddress else c

/-- A reset of the processor: execution begins with the bootloader, the vector table is the one in the
flash (reset value of `SYSMEMREMAP`), the RAM keeps its contents. -/
def hwReset (c : Chip) : Chip := { c with remap := 2, running := .bootloader }

/-- `BcuBase::softSystemReset`, bcu_base.cpp:188-204; `into`: `restartType` is `MasterIntoBootloader`.
Up to the reset; `noInterrupts` and `bus->end` have no effect on the memories. -/
def softSystemReset (c : Chip) (into : Bool) : Chip :=
  if into then { c with ram := store32 c.ram magicAddress magicWord } else c

/-- What can happen to the chip: power comes on (the RAM then contains anything), the running program
restarts the chip, or the running program changes flash and RAM. `button`: the programming button is held. -/
inductive ChipEv where
  | powerOn (ram : Nat → Byte) (button : Bool)
  | restart (into button : Bool)
  | works (flash ram : Nat → Byte)

def chipStep (E : Env) (c : Chip) : ChipEv → Chip
  | .powerOn ram button => bootStart E (hwReset { c with ram := ram }) button
  | .restart into button => bootStart E (hwReset (softSystemReset c into)) button
  | .works flash ram => { c with flash := flash, ram := ram }

/-- The chip after a history. -/
def chipLife (E : Env) (c : Chip) (evs : List ChipEv) : Chip := evs.foldl (chipStep E) c

end Verif.Boot
