import Verif.Flash.Iap

/-!
# The user EEPROM: `sblib/src/eib/userEeprom.cpp`

The user EEPROM is an array in RAM.  Its content is saved to the last sector (4096 bytes) of the
flash, which is divided into pages; every save uses the next page and the sector is erased when it
is full.  The flash and the functions of iap.cpp are those of `Verif.Flash.Iap`: a ROM call may
fail at any time (`Env.fault`) and then leaves arbitrary bytes in the range it works on
(`Env.garbage`).  As `fatalError()` never returns, a failing call is the end of the program until
the next restart; this covers a power failure at any point of a save, too.

Not modelled: the time stamp `writeUserEepromTime` (see `Loop.lean`, C58), the interrupt
mask.
-/

namespace Verif.Eeprom

open Verif.Iap

/-- Size of the EEPROM and of the flash page it is saved to, userEeprom.cpp:115-121. -/
structure Cfg where
  size : Nat
  flashSize : Nat

/-- `UserEepromBCU1`, userEepromBCU1.h:18. -/
def bcu1 : Cfg := ⟨256, 256⟩
/-- `UserEepromBCU2`, userEepromBCU2.h:18. -/
def bcu2 : Cfg := ⟨1024, 1024⟩
/-- `UserEepromMASK0701`, `…0705`, `…SYSTEMB`, userEepromMASK0701.h:19, userEepromMASK0705.h:13,
userEepromSYSTEMB.h:13. -/
def mask0701 : Cfg := ⟨3072, 4096⟩

/-- `UserEeprom::numEepromPages`, userEeprom.cpp:19-22. -/
def numPages (c : Cfg) : Nat := 0x1000 / c.flashSize

/-- `UserEeprom::flashSectorAddress`, userEeprom.cpp:29-32. -/
def sectorAddr (E : Env) : Nat := E.top - 0x1000

/-- `UserEeprom::lastEepromPage`, userEeprom.cpp:24-27. -/
def lastPage (E : Env) (c : Cfg) : Nat := sectorAddr E + c.flashSize * (numPages c - 1)

/-- The loop of `UserEeprom::findValidPage`, userEeprom.cpp:39-45, over the pages `n - 1, …, 0`. -/
def findFrom (f : Nat → Byte) (c : Cfg) (first : Nat) : Nat → Option Nat
  | 0 => none
  | n + 1 =>
    if f (first + c.flashSize * n + (c.size - 1)) ≠ 0xff#8 then some (first + c.flashSize * n)
    else findFrom f c first n

/-- `UserEeprom::findValidPage`, userEeprom.cpp:34-48. -/
def findValidPage (E : Env) (c : Cfg) (f : Nat → Byte) : Option Nat :=
  findFrom f c (sectorAddr E) (numPages c)

/-- `userEepromData` and `userEepromModified`. -/
structure Eep where
  data : Nat → Byte
  modified : Bool

/-- `UserEeprom::readUserEeprom`, userEeprom.cpp:50-60, as called by the constructor with a zero
initialised array (userEeprom.cpp:115-121). -/
def readUserEeprom (E : Env) (c : Cfg) (f : Nat → Byte) : Eep :=
  { data := fun i =>
      match findValidPage E c f with
      | some p => if i < c.size then f (p + i) else 0#8
      | none => 0#8
    modified := false }

/-- The programming loop, userEeprom.cpp:97-109, over the chunk offsets. -/
def programChunks (E : Env) (page : Nat) (data : Nat → Byte) (size : Nat) :
    List Nat → Hw → Bool × Hw
  | [], hw => (true, hw)
  | i :: is, hw =>
    let r := Iap.program E hw (BitVec.ofNat 32 (page + i)) (fun k => data (i + k))
      (min (size - i) 1024)
    if r.1 ≠ 0 then (false, r.2) else programChunks E page data size is r.2

/-- `0, 1024, 2048, …` below `size`. -/
def chunks (size : Nat) : List Nat := (List.range ((size + 1023) / 1024)).map (· * 1024)

/-- The page for the next save, userEeprom.cpp:71-80. -/
def nextPage (E : Env) (c : Cfg) (f : Nat → Byte) : Nat :=
  match findValidPage E c f with
  | some p => if p = lastPage E c then sectorAddr E else p + c.flashSize
  | none => sectorAddr E

/-- `userEepromData[size() - 1] = 0`, userEeprom.cpp:93. -/
def mark (c : Cfg) (d : Nat → Byte) : Nat → Byte := fun i => if i = c.size - 1 then 0#8 else d i

/-- `UserEeprom::writeUserEeprom`, userEeprom.cpp:62-113.  The first component is false if the
function ended in `fatalError()`. -/
def writeUserEeprom (E : Env) (c : Cfg) (hw : Hw) (e : Eep) : Bool × Hw × Eep :=
  if !e.modified then (true, hw, e)
  else
    let page := nextPage E c hw.flash
    let er : Nat × Hw :=
      if page = sectorAddr E then
        eraseSectorRange E hw (sectorOfAddress (BitVec.ofNat 32 page))
          (sectorOfAddress (BitVec.ofNat 32 page))
      else (0, hw)
    if er.1 ≠ 0 then (false, er.2, e)
    else
      let d := mark c e.data
      let r := programChunks E page d c.size (chunks c.size) er.2
      if r.1 then (true, r.2, ⟨d, false⟩) else (false, r.2, ⟨d, e.modified⟩)

/-! ## Histories -/

/-- What can happen to the EEPROM. -/
inductive Ev
  /-- the content is changed and `modified(true)` is called -/
  | change (d : Nat → Byte)
  /-- the content is changed without a call of `modified` -/
  | poke (d : Nat → Byte)
  /-- `writeUserEeprom` -/
  | save
  /-- restart of the device; the constructor reads the EEPROM from the flash -/
  | restart

/-- The device: flash, EEPROM, and whether the program hangs in `fatalError()`. -/
structure Dev where
  hw : Hw
  eep : Eep
  halted : Bool

/-- One step.  After `fatalError()` only a restart has an effect. -/
def step (E : Env) (c : Cfg) (s : Dev) : Ev → Dev
  | .change d => if s.halted then s else { s with eep := ⟨d, true⟩ }
  | .poke d => if s.halted then s else { s with eep := { s.eep with data := d } }
  | .save =>
    if s.halted then s
    else
      let r := writeUserEeprom E c s.hw s.eep
      ⟨r.2.1, r.2.2, !r.1⟩
  | .restart => ⟨s.hw, readUserEeprom E c s.hw.flash, false⟩

def run (E : Env) (c : Cfg) (s : Dev) (es : List Ev) : Dev := es.foldl (step E c) s

/-- The device after power-up with the flash content `f`. -/
def powerUp (E : Env) (c : Cfg) (f : Nat → Byte) : Dev :=
  ⟨⟨f, 0⟩, readUserEeprom E c f, false⟩

end Verif.Eeprom
