import Verif.Dev.System
import Verif.Dev.MemSpec

/-!
# Specification of the individual address services
-/

namespace Verif.Dev

open Verif.Knx

/-- Individual address write: set the address `a`. -/
structure IaWrite (t : Buf) (a : Word) : Prop where
  apci : apciCommand t = 0x0c0#16
  addr : makeWord (t 8) (t 9) = a

/-- Individual address read: who is in programming mode? -/
def IaRead (t : Buf) : Prop := apciCommand t = 0x100#16

/-- Individual address write for the device with the serial number `sn`. -/
structure IaSerialWrite (t : Buf) (sn : List Byte) (a : Word) : Prop where
  apci : apciCommand t = 0x3DE#16
  serial : (List.range 6).map (fun i => t (8 + i)) = sn
  addr : makeWord (t 14) (t 15) = a

/-- The serial number of a device (offset 0x38A of the EEPROM). -/
def serialNumber (d : Dev) : List Byte := (List.range 6).map (fun i => d.ee (0x38A + i))

/-- The address in the EEPROM, which is used after a restart (offset 0x17, high byte first). -/
def storedAddress (d : Dev) : Word := makeWord (d.ee 0x17) (d.ee 0x18)

/-- The individual address has been set to `a`, in the running device and in the EEPROM, and nothing
else has changed. -/
structure AddressSet (d d' : Dev) (a : Word) : Prop where
  own : d'.ownAddr = a
  stored : storedAddress d' = a
  ee : ∀ i, i ≠ 0x17 → i ≠ 0x18 → d'.ee i = d.ee i
  modified : d'.eeModified = true ↔ d.eeModified = true ∨ storedAddress d ≠ a
  ram : d'.ram = d.ram
  status : d'.status = d.status
  runState : d'.runState = d.runState
  enabled : d'.enabled = d.enabled
  mapper : d'.mapper = d.mapper
  comTabStatic : d'.comTabStatic = d.comTabStatic
  restart : d'.restart = d.restart
  undef : d'.undef = d.undef

/-- The address table object is being loaded (never on a BCU1, which has no load states). -/
def TableLoading (W : World) (d : Dev) : Prop := W.kind ≠ .bcu1 ∧ d.ee 0x371 = 2#8

end Verif.Dev
