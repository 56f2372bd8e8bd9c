import Verif.Dev.Loop

/-!
# Starting a device

`begin` of the device classes (sblib/src/eib/bcu_default.cpp, bcu1.cpp, bcu2.cpp; the classes `MASK0701`,
`MASK0705` and `SYSTEMB` inherit that of `BCU2`), the constructors before it, and power failures.

Simplifications

* The image from which the EEPROM is read is `Main.flash`; how it is found in flash is `Verif.Eeprom` (C28, C29).
  A power failure comes between two events of the loop, not during the saving (that is C29).
* The serial number computed from the unique ID of the processor (bcu2.cpp:50-71; `hashUID` is C37) is an input.
* The application calls `begin` with the same arguments after each start, and calls `setMemMapper` (if at all)
  before `begin`. Nothing else is called before the first loop.
* `ROUTER` is not defined (bcu_default.cpp:34-39).
-/

namespace Verif.Dev

open Verif.Knx

/-- The arguments of `begin`, and constants of the program and the processor. -/
structure Setup where
  manufacturer : Word
  deviceType : Word
  version : Byte
  /-- `readOnlyCommObjectTableAddress`, 0 if there is none (bcu2.cpp:79-82) -/
  comTab : Word
  /-- the six bytes of the serial number -/
  serial : Nat → Byte
  /-- `SBLIB_VERSION`, version.h:17 -/
  libVersion : Word

/-- `BcuDefault::begin`, bcu_default.cpp:85-105. The offsets: userEepromBCU1.h:24-34; `deviceControl`:
userRamBCU1.h:31; the status bits: userRam.h:20-25. Only the low 16 (8) bits of the arguments are used. -/
def defaultBegin (W : World) (s : Setup) (d : Dev) : Dev :=
  let d1 := setOwnAddress W d (makeWord (d.ee 0x17) (d.ee 0x18))
  { d1 with
    status := 0x2e#8
    ram := upd d1.ram 0x62 0#8
    runState := 1#8
    ee := upd (upd (upd (upd (upd (upd (upd d1.ee 0x0d 0xff#8) 0x0c 0#8)
      0x03 (highByte s.manufacturer)) 0x04 (lowByte s.manufacturer))
      0x05 (highByte s.deviceType)) 0x06 (lowByte s.deviceType)) 0x07 s.version
    eeModified := false }

/-- bcu2.cpp:36-40: the own address is read from the address table if it is being loaded. -/
def tableOwnAddress (W : World) (d : Dev) : Dev :=
  if d.ee (loadStateOff + 1) = lsLoading then
    match userMemoryPtr W.kind (wordAt d.ee (addrTabAddrOff W.kind)).toNat with
    | none => { d with undef := true }
    | some (ar, o) =>
      if inArray (areaSize W.kind ar) (o + 1 : Nat) 2 then
        let f := if ar = .ee then d.ee else d.ram
        setOwnAddress W d (makeWord (f (o + 1)) (f (o + 2)))
      else { d with undef := true }
  else d

/-- bcu2.cpp:42-47 (`commsTabAddrOffset`: userEepromBCU2.h:26). -/
def staticComTab (s : Setup) (d : Dev) : Dev :=
  if s.comTab ≠ 0#16 ∧ wordAt d.ee 0x37c ≠ s.comTab then
    { d with ee := setWord d.ee 0x37c s.comTab, comTabStatic := s.comTab, eeModified := true }
  else { d with comTabStatic := s.comTab }

/-- `BCU2::begin` without the call of `_begin`, bcu2.cpp:29-74 (`peiType`: userRamBCU1.h:32; `appType`, `serial`,
`orderInfo`: userEepromBCU2.h:21-36, sizes :50-52). -/
def bcu2Begin (W : World) (s : Setup) (d : Dev) : Dev :=
  let d1 := defaultBegin W s d
  let d2 := { d1 with ram := upd d1.ram 0x63 0#8, ee := upd d1.ee 0x15 0#8 }
  let d3 := staticComTab s (tableOwnAddress W d2)
  { d3 with ee := upd (upd (blit d3.ee 0x38a s.serial 0 6) 0x3a2 (highByte s.libVersion)) 0x3a3 (lowByte s.libVersion) }

/-- The beginning of `BcuDefault::_begin`, bcu_default.cpp:32-40 (the rest concerns the group telegram rate, C20), and `enabled`, knx_tlayer4.cpp:259. -/
def beginEnd (W : World) (d : Dev) : Dev :=
  let d1 := if d.ownAddr = 0#16 then setOwnAddress W d 0xffff#16 else d
  { d1 with enabled := true }

/-- `begin` of the device's class: bcu1.cpp:24-28, bcu2.cpp:29-82. -/
def beginDev (W : World) (s : Setup) (d : Dev) : Dev :=
  beginEnd W (if W.kind = .bcu1 then defaultBegin W s d else bcu2Begin W s d)

/-- The device after its constructors: the EEPROM is read from flash (userEeprom.cpp:115-121), the RAM is cleared
(userRam.cpp:25-34). The own address (knx_tlayer4.h:298) is not initialised before `begin`; here it is 0. -/
def constructed (flash : Nat → Byte) (mapper : Option MemMap.St) : Dev :=
  { ee := flash, ram := fun _ => 0#8, status := 0#8, runState := 0#8, enabled := false, eeModified := false,
    mapper := mapper, ownAddr := 0#16, comTabStatic := 0#16, restart := .none, undef := false }

/-- The device at its first loop. `clock` is `millis()` then, `deb` the uninitialised debouncer (debounce.cpp:16-19). -/
def boot (W : World) (s : Setup) (clock : Nat) (deb : Time.Debouncer) (led : Bool) (flash : Nat → Byte) (mapper : Option MemMap.St) : Main :=
  let d := beginDev W s (constructed flash mapper)
  Main.begin (TL4.init d.ownAddr clock d) deb flash led

/-- Off and on again: everything but the flash is lost (`MemMapper` constructor: mem_mapper.cpp:21-61). -/
def powerCycle (W : World) (s : Setup) (clock : Nat) (deb : Time.Debouncer) (led : Bool) (m : Main) : Main :=
  boot W s clock deb led m.flash (m.tl.app.mapper.map fun x => MemMap.ctor W.mc x.hw)

/-- What happens in the life of a device. -/
inductive LifeEv
  | ev (e : MainEv)
  | power (clock : Nat) (deb : Time.Debouncer) (led : Bool)

section
variable (W : World) (group : Dev → Buf → Nat → Dev × Option (Buf → Buf)) (s : Setup)

def lifeStep (m : Main) : LifeEv → Main
  | .ev e => (mainStep W group m e).1
  | .power clock deb led => powerCycle W s clock deb led m

def life (m : Main) (es : List LifeEv) : Main := es.foldl (lifeStep W group s) m

end

end Verif.Dev
