import Verif.Dev.Spec26

/-!
# Specification of what a device tells about itself

The interface objects with their properties, the descriptions of the properties, the device descriptor,
the ADC service and the authorization, in terms of the bytes of the telegrams.
-/

namespace Verif.Dev

open Verif.Knx

/-- Where the value of a property comes from: a place in a memory of the device, or a constant (the bytes
of the answer). -/
inductive Source
  | memory (inEe : Bool) (offset : Nat)
  | constant (data : List Byte)
  deriving DecidableEq

/-- One property: object, identifier, type (KNX property data type), bytes of an element, can it be
written, is it an array whose first byte tells the number of elements, where the value comes from. -/
structure PropInfo where
  obj : Nat
  id : Nat
  type : Nat
  size : Nat
  writable : Bool
  array : Bool
  source : Source
  deriving DecidableEq

/-- The properties of the six interface objects (device, address table, association table, application,
interface program, object association table), in the order of their indexes. -/
def known : List PropInfo :=
  [⟨0, 1, 4, 2, false, false, .constant [0#8, 0#8]⟩,
   ⟨0, 14, 0x11, 1, true, false, .memory false 0x62⟩,
   ⟨0, 5, 0, 1, true, false, .memory true 0x370⟩,
   ⟨0, 8, 4, 2, true, false, .memory true 0x386⟩,
   ⟨0, 9, 2, 1, false, false, .constant [0x10#8]⟩,
   ⟨0, 11, 0x16, 6, false, false, .memory true 0x38a⟩,
   ⟨0, 12, 0x12, 2, false, false, .memory true 0x03⟩,
   ⟨0, 15, 0x1a, 10, false, false, .memory true 0x39a⟩,
   ⟨0, 16, 2, 1, false, false, .memory false 0x63⟩,
   ⟨0, 17, 2, 1, false, false, .memory true 0x0c⟩,
   ⟨0, 78, 0x16, 6, true, false, .memory true 0x390⟩,
   ⟨1, 1, 4, 2, false, false, .constant [0#8, 1#8]⟩,
   ⟨1, 5, 0, 1, true, false, .memory true 0x371⟩,
   ⟨1, 7, 4, 2, false, true, .memory true 0x378⟩,
   ⟨1, 27, 0x18, 8, true, false, .memory true 0x3a4⟩,
   ⟨2, 1, 4, 2, false, false, .constant [0#8, 2#8]⟩,
   ⟨2, 5, 0, 1, true, false, .memory true 0x372⟩,
   ⟨2, 7, 4, 2, false, true, .memory true 0x37a⟩,
   ⟨2, 23, 0x14, 4, true, false, .constant []⟩,
   ⟨2, 27, 0x18, 8, true, false, .memory true 0x3ac⟩,
   ⟨3, 1, 4, 2, false, false, .constant [0#8, 3#8]⟩,
   ⟨3, 5, 0, 1, true, false, .memory true 0x373⟩,
   ⟨3, 6, 2, 1, false, false, .memory false 0x61⟩,
   ⟨3, 13, 0x15, 5, false, false, .memory true 0x03⟩,
   ⟨3, 7, 4, 2, false, true, .memory true 0x37c⟩,
   ⟨3, 27, 0x18, 8, true, false, .memory true 0x3b4⟩,
   ⟨3, 0xcc, 0x1a, 10, true, false, .memory false 0xc8⟩,
   ⟨4, 1, 4, 2, false, false, .constant [0#8, 4#8]⟩,
   ⟨4, 5, 0, 1, true, false, .memory true 0x374⟩,
   ⟨4, 7, 4, 2, false, true, .memory true 0x382⟩,
   ⟨4, 13, 0x15, 5, true, true, .memory true 0x3cc⟩,
   ⟨4, 27, 0x18, 8, true, false, .memory true 0x3bc⟩,
   ⟨5, 1, 4, 2, false, false, .constant [0#8, 5#8]⟩,
   ⟨5, 5, 0, 1, true, false, .memory true 0x375⟩,
   ⟨5, 7, 4, 2, false, true, .memory true 0x37e⟩,
   ⟨5, 13, 0x15, 5, true, true, .memory true 0x3d1⟩,
   ⟨5, 28, 0x11, 1, false, false, .constant [0#8]⟩]

/-- The properties of one object. -/
def propsOf (obj : Nat) : List PropInfo := known.filter (fun i => i.obj == obj)

/-- The memory of a property. -/
def sourceMem (d : Dev) (inEe : Bool) : Nat → Byte := if inEe then d.ee else d.ram

/-- The number of elements that the description names. -/
def elements (d : Dev) (i : PropInfo) : Nat :=
  match i.array, i.source with
  | true, .memory inEe o => (sourceMem d inEe o).toNat
  | _, _ => 1

/-- A request for the description of a property: by its identifier, or, if that is 0, by its index. -/
structure DescRequest (t : Buf) (obj pid index : Nat) : Prop where
  apci : apciCommand t = 0x3d8#16
  obj : (t 8).toNat = obj
  pid : (t 9).toNat = pid
  index : (t 10).toNat = index

/-- The description of a property: identifier, index, type with the write bit, number of elements, access
levels. -/
structure DescResponse (sb : Buf) (index : Nat) (i : PropInfo) (n : Nat) : Prop where
  len : sb 5 = 0x68#8
  apciHigh : sb 6 = 0x03#8
  apciLow : sb 7 = 0xd9#8
  obj : (sb 8).toNat = i.obj
  pid : (sb 9).toNat = i.id
  index : (sb 10).toNat = index
  type : (sb 11).toNat % 128 = i.type
  write : (sb 11).getLsbD 7 = i.writable
  count : (sb 12).toNat % 16 * 256 + (sb 13).toNat = n
  levels : sb 14 = if i.writable then 0xf1#8 else 0x50#8

/-- The answer that there is no such property: no type, no elements. -/
structure DescFailure (sb : Buf) (obj pid index : Nat) : Prop where
  len : sb 5 = 0x68#8
  apciHigh : sb 6 = 0x03#8
  apciLow : sb 7 = 0xd9#8
  obj : (sb 8).toNat = obj
  pid : (sb 9).toNat = pid
  index : (sb 10).toNat = index
  type : sb 11 = 0#8
  count : sb 12 = 0#8 ∧ sb 13 = 0#8
  levels : sb 14 = 0#8

/-- `n` bytes of a memory from the address `a` on. -/
def bytesFrom (f : Nat → Byte) (a n : Nat) : List Byte := (List.range n).map (fun k => f (a + k))

/-- Is the property a number?  Numbers are kept with the low byte first and sent with the high byte first;
the other types are sent as they are kept. -/
def PropInfo.number (i : PropInfo) : Bool := decide (i.type < 0x0c)

/-- What a read of `count` elements from `start` on answers if the value is in a memory. -/
def readBytes (W : World) (i : PropInfo) (f : Nat → Byte) (o count start : Nat) : List Byte :=
  let raw := bytesFrom f (o + (start - 1) * i.size) (count * i.size)
  (if W.kind = .systemb ∧ i.id = 7 then [0#8, 0#8] else []) ++ (if i.number then raw.reverse else raw)

/-- The bytes of an answer for which there is room. -/
def readRoom (W : World) (i : PropInfo) : Nat :=
  if W.kind = .systemb then (if i.id = 7 then 9 else 11) else 10

/-- The mask versions of the five device types. -/
def maskOf : Kind → Nat
  | .bcu1 => 0x0012
  | .bcu2 => 0x0020
  | .mask0701 => 0x0701
  | .mask0705 => 0x0705
  | .systemb => 0x07b0

/-- The answer to the request for the device descriptor. -/
structure DescriptorResponse (sb : Buf) (mask : Nat) : Prop where
  len : sb 5 = 0x63#8
  apciHigh : sb 6 = 0x03#8
  apciLow : sb 7 = 0x40#8
  mask : (sb 8).toNat * 256 + (sb 9).toNat = mask

end Verif.Dev
