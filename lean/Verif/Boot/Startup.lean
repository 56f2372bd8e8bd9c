import Verif.Base

/-!
# The bootloader's start-up code

Modelled: `data_init`, `bss_init` and the part of `ResetISR` before `SystemInit` of firmware_updater/bootloader/src/cr_startup_lpc11xx.cpp.

Simplifications: the memory is a function from the address of a word (4 bytes, addresses that are multiples of 4) to the word; access to other addresses,
to addresses without memory and writing to the flash (hard faults) are not modelled. The variables are in registers, not in the memory. The addresses of the section table are arguments (in the program
they are symbols of the linker). `none`: not finished after `fuel` rounds.
-/

namespace Verif.Boot.Startup

open Verif

abbrev Memory := U32 → U32

/-- A word is written. -/
def put (m : Memory) (a v : U32) : Memory := fun b => if b = a then v else m b

/-- The loop of `data_init`, cr_startup_lpc11xx.cpp:198-199. -/
def dataLoop (len : U32) : Nat → Memory → U32 → U32 → U32 → Option Memory
  | 0, _, _, _, _ => none
  | fuel + 1, m, pulDest, pulSrc, loop =>
    if loop < len then dataLoop len fuel (put m pulDest (m pulSrc)) (pulDest + 4#32) (pulSrc + 4#32) (loop + 4#32) else some m

/-- `data_init`, cr_startup_lpc11xx.cpp:194-200. -/
def dataInit (fuel : Nat) (m : Memory) (romstart start len : U32) : Option Memory := dataLoop len fuel m start romstart 0#32

/-- The loop of `bss_init`, cr_startup_lpc11xx.cpp:206-207. -/
def bssLoop (len : U32) : Nat → Memory → U32 → U32 → Option Memory
  | 0, _, _, _ => none
  | fuel + 1, m, pulDest, loop =>
    if loop < len then bssLoop len fuel (put m pulDest 0#32) (pulDest + 4#32) (loop + 4#32) else some m

/-- `bss_init`, cr_startup_lpc11xx.cpp:203-208. -/
def bssInit (fuel : Nat) (m : Memory) (start len : U32) : Option Memory := bssLoop len fuel m start 0#32

/-- The first loop of `ResetISR`, cr_startup_lpc11xx.cpp:241-246: the memory and `SectionTableAddr`. -/
def dataSections (tableEnd : U32) (fuel : Nat) : Nat → Memory → U32 → Option (Memory × U32)
  | 0, _, _ => none
  | n + 1, m, p =>
    if p < tableEnd then
      (dataInit fuel m (m p) (m (p + 4#32)) (m (p + 8#32))).bind fun m => dataSections tableEnd fuel n m (p + 12#32)
    else some (m, p)

/-- The second loop of `ResetISR`, cr_startup_lpc11xx.cpp:249-253. -/
def bssSections (tableEnd : U32) (fuel : Nat) : Nat → Memory → U32 → Option Memory
  | 0, _, _ => none
  | n + 1, m, p =>
    if p < tableEnd then
      (bssInit fuel m (m p) (m (p + 4#32))).bind fun m => bssSections tableEnd fuel n m (p + 8#32)
    else some m

/-- `ResetISR` until the memory is initialised, cr_startup_lpc11xx.cpp:230-253. -/
def resetISR (dataTable dataTableEnd bssTableEnd : U32) (fuel : Nat) (m : Memory) : Option Memory :=
  (dataSections dataTableEnd fuel fuel m dataTable).bind fun x => bssSections bssTableEnd fuel fuel x.1 x.2

end Verif.Boot.Startup
