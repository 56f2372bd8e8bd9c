import Verif.Dev.Mem
import Verif.MemMap.Words

/-!
# Specification of the memory services

`space W d a` is what the bus can see at the address `a`: the byte there, or `none` if the device
has no memory at this address.
-/

namespace Verif.Dev

/-- Is the address in the virtual flash memory? (`MemMapper::isMapped`) -/
def mappedAt (W : World) (d : Dev) (a : Nat) : Bool :=
  match d.mapper with
  | none => false
  | some s => MemMap.isMapped W.mc s (a : Int)

/-- The byte in the virtual flash memory (`MemMapper::readMem`). -/
def mappedByte (W : World) (d : Dev) (a : Nat) : Byte :=
  match d.mapper with
  | none => 0#8
  | some s => (MemMap.readMem W.E W.mc s (a : Int) false).2.2

/-- The address space of a device: virtual flash memory, user EEPROM, user RAM.  The system status
is kept outside the RAM array; it appears at offset 0x60 of the RAM. -/
def space (W : World) (d : Dev) (a : Nat) : Option Byte :=
  if mappedAt W d a then some (mappedByte W d a)
  else if W.kind.eeStart ≤ a ∧ a < W.kind.eeStart + W.kind.eeSize then
    some (d.ee (a - W.kind.eeStart))
  else if W.kind.ramStart ≤ a ∧ a < W.kind.ramStart + W.kind.ramSize then
    some (if a - W.kind.ramStart = 0x60 then d.status else d.ram (a - W.kind.ramStart))
  else none

/-- What the theorems assume about a virtual flash memory, if the device has one: no error of the
flash, a well-placed area, no `autoAddPage` (with it every address counts as mapped), a state some
disciplined history leads to, and no mapped page that hides EEPROM or RAM. -/
def MapperOk (W : World) (d : Dev) : Prop :=
  ∀ s, d.mapper = some s →
    (∀ k, W.E.fault k = none) ∧ MemMap.AreaOk W.E W.mc ∧ W.mc.autoAddPage = false ∧
    (∃ t, MemMap.Reached W.E W.mc s t) ∧
    ∀ a, (W.kind.eeStart ≤ a ∧ a < W.kind.eeStart + W.kind.eeSize) ∨
         (W.kind.ramStart ≤ a ∧ a < W.kind.ramStart + W.kind.ramSize) →
      MemMap.isMapped W.mc s (a : Int) = false

/-- The request is not the one byte request for address 0x60 of a device whose RAM does not begin at
address 0 (the code answers it with the system status). -/
def NotStatusAlias (W : World) (start len : Nat) : Prop :=
  W.kind.ramStart = 0 ∨ start ≠ 0x60 ∨ len ≠ 1

/-- Everything the bus cannot see at an address is unchanged. -/
structure SameElse (W : World) (d d' : Dev) : Prop where
  ownAddr : d'.ownAddr = d.ownAddr
  runState : d'.runState = d.runState
  enabled : d'.enabled = d.enabled
  comTabStatic : d'.comTabStatic = d.comTabStatic
  restart : d'.restart = d.restart
  undef : d'.undef = d.undef
  ee : ∀ i, W.kind.eeSize ≤ i → d'.ee i = d.ee i
  ram : ∀ i, W.kind.ramSize ≤ i ∨ i = 0x60 → d'.ram i = d.ram i
  mapper : d'.mapper.isSome = d.mapper.isSome

/-- Memory requests, byte by byte in the order of the addresses, up to the first address without
memory. -/
def writeBytes : (Nat → Option Byte) → Nat → List Byte → (Nat → Option Byte) × Bool
  | m, _, [] => (m, true)
  | m, a, x :: xs =>
    if (m a).isSome then writeBytes (fun b => if b = a then some x else m b) (a + 1) xs
    else (m, false)

end Verif.Dev
