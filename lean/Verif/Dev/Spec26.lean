import Verif.Dev.Model

/-!
# Specification of the property services
-/

namespace Verif.Dev

open Verif.Knx

/-- A property request: `count` elements of the property `pid` of the object `obj`, from the element
`start` (12 bits) on. -/
structure PropRequest (cmd : Word) (t : Buf) (obj pid count start : Nat) : Prop where
  apci : apciCommand t = cmd
  obj : (t 8).toNat = obj
  pid : (t 9).toNat = pid
  count : (t 10).toNat / 16 = count
  start : (t 10).toNat % 16 * 256 + (t 11).toNat = start

/-- Property value write. -/
abbrev PropWriteRequest := PropRequest 0x3d7#16
/-- Property value read. -/
abbrev PropReadRequest := PropRequest 0x3d5#16

/-- A property response with these data. -/
structure PropResponse (sb : Buf) (obj pid count start : Nat) (data : List Byte) : Prop where
  len : (sb 5).toNat = 0x65 + data.length
  apciHigh : sb 6 = 0x03#8
  apciLow : sb 7 = 0xd6#8
  obj : (sb 8).toNat = obj
  pid : (sb 9).toNat = pid
  count : (sb 10).toNat / 16 = count
  start : (sb 10).toNat % 16 * 256 + (sb 11).toNat = start
  data : ∀ i, i < data.length → sb (12 + i) = data.getD i 0#8

/-- A property response that reports a failure: no elements. -/
structure PropFailure (sb : Buf) (obj pid : Nat) : Prop where
  len : sb 5 = 0x65#8
  apciHigh : sb 6 = 0x03#8
  apciLow : sb 7 = 0xd6#8
  obj : (sb 8).toNat = obj
  pid : (sb 9).toNat = pid
  count : (sb 10).toNat / 16 = 0

/-- The properties that can be written (object, identifier), beside the load states. -/
def writables : List (Nat × Nat) :=
  [(0, 14), (0, 8), (0, 78), (1, 27), (2, 27), (3, 27), (4, 27), (2, 23), (3, 0xcc), (4, 13), (5, 13)]

/-- Is the property writable? The load state (5) of the six objects is, too. -/
def Writable (obj pid : Nat) : Prop := (obj, pid) ∈ writables ∨ (obj < 6 ∧ pid = 5)

/-- A place in the memory of the device. -/
structure Place where
  inEe : Bool
  offset : Nat
  size : Nat
  deriving DecidableEq

/-- Where the writable properties are kept (all but the load states and the table property 23, which has
no memory): object, identifier, place. -/
def places : List (Nat × Nat × Place) :=
  [(0, 14, ⟨false, 0x62, 1⟩), (0, 8, ⟨true, 0x386, 2⟩), (0, 78, ⟨true, 0x390, 6⟩),
   (1, 27, ⟨true, 0x3a4, 8⟩), (2, 27, ⟨true, 0x3ac, 8⟩), (3, 27, ⟨true, 0x3b4, 8⟩),
   (4, 27, ⟨true, 0x3bc, 8⟩), (3, 0xcc, ⟨false, 0xc8, 10⟩), (4, 13, ⟨true, 0x3cc, 5⟩),
   (5, 13, ⟨true, 0x3d1, 5⟩)]

/-- The memory a place lies in. -/
def memOf (d : Dev) (q : Place) : Nat → Byte := if q.inEe then d.ee else d.ram

/-- The number of bytes of that memory. -/
def memSize (W : World) (q : Place) : Nat :=
  if q.inEe then W.kind.eeSize else W.kind.ramSize + 3

/-- First byte of the elements from `start` (1, 2, …) on. -/
def Place.first (q : Place) (start : Nat) : Nat := q.offset + (start - 1) * q.size

/-- The properties of several bytes that read back as written: the service control, a number, and on
System B the memory control blocks. -/
def ReadsBack (W : World) (obj pid : Nat) : Prop :=
  (obj = 0 ∧ pid = 8) ∨ (W.kind = .systemb ∧ pid = 27)

end Verif.Dev
