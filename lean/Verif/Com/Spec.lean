import Verif.Com.Model

/-!
# Specification: what ETS has configured, and what the object values and flags are

`Config` describes the configuration of a device in the terms ETS uses. `image` is the byte image of the tables
(KNX 3/5/1: group address table, association table, group object table) and `Configured` says that the memory of the
device holds this image and that the tables do not overlap the values and flags of the objects.
None of these definitions uses the model.
-/

namespace Verif.Com

/-- A communication object: pointer, configuration byte and type as ETS writes them. -/
structure Obj where
  ptr : Nat
  config : Byte
  type : Nat

/-- The configuration of a device. `groups` are the group addresses; an association `(g, o)` connects the `g`-th group
address, counted from 1, with the object `o`, counted from 0. -/
structure Config where
  own : Word
  groups : List Word
  assoc : List (Nat × Nat)
  objs : List Obj
  flagsAt : Nat
  addrAt : Nat
  assocAt : Nat
  commAt : Nat

/-- Bytes an object of the given type occupies (`ComType` of types.h). -/
def bytesOf : Nat → Nat
  | 8 => 2 | 9 => 3 | 10 => 4 | 11 => 6 | 12 => 8 | 13 => 10 | 14 => 14 | 15 => 14 | _ => 1

/-- Where the value of an object lies. With a BCU1 the configuration bit 0x20 selects the EEPROM. -/
def valueAt (B : Bcu) (o : Obj) : Nat :=
  match B.kind with
  | .bcu1 => if o.config &&& 0x20#8 = 0#8 then o.ptr else o.ptr + B.eepStart
  | .bcu2 => o.ptr

/-- Big-endian 16-bit number. -/
def be16 (n : Nat) : List Byte := [BitVec.ofNat 8 (n / 256), BitVec.ofNat 8 n]
/-- Little-endian 16-bit number. -/
def le16 (n : Nat) : List Byte := [BitVec.ofNat 8 n, BitVec.ofNat 8 (n / 256)]
/-- 16-bit pointer in the byte order of the device. -/
def ptr16 (B : Bcu) (n : Nat) : List Byte := if B.littleEndian then le16 n else be16 n
/-- One byte. -/
def b8 (n : Nat) : Byte := BitVec.ofNat 8 n

/-- Group address table: number of entries, own address, group addresses. -/
def addrImage (C : Config) : List Byte :=
  [b8 (C.groups.length + 1)] ++ be16 C.own.toNat ++ C.groups.flatMap (fun g => be16 g.toNat)
/-- Association table. -/
def assocImage (C : Config) : List Byte :=
  [b8 C.assoc.length] ++ C.assoc.flatMap (fun p => [b8 p.1, b8 p.2])
/-- Group object table. -/
def commImage (B : Bcu) (C : Config) : List Byte :=
  match B.kind with
  | .bcu1 => [b8 C.objs.length, b8 C.flagsAt] ++ C.objs.flatMap (fun o => [b8 o.ptr, o.config, b8 o.type])
  | .bcu2 => b8 C.objs.length :: ptr16 B C.flagsAt ++ C.objs.flatMap (fun o => ptr16 B o.ptr ++ [o.config, b8 o.type])

/-- All tables with their addresses. -/
def image (B : Bcu) (C : Config) : List (Nat × List Byte) :=
  [(C.addrAt, addrImage C), (C.assocAt, assocImage C), (C.commAt, commImage B C)] ++
  match B.kind with
  | .bcu1 => [(B.eepStart + 0x11, [b8 (C.assocAt - B.eepStart)]), (B.eepStart + 0x12, [b8 (C.commAt - B.eepStart)])]
  | .bcu2 => [(B.eepStart + 0x378, le16 C.addrAt), (B.eepStart + 0x37A, le16 C.assocAt), (B.eepStart + 0x37C, le16 C.commAt)]

/-- The memory holds the bytes at the address. -/
def At (m : Mem) (a : Nat) (bs : List Byte) : Prop := ∀ i, (h : i < bs.length) → m (a + i) = bs[i]

/-- A block lies inside the RAM or inside the EEPROM. -/
def inSegment (B : Bcu) (a len : Nat) : Prop :=
  (B.ramStart ≤ a ∧ a + len ≤ B.ramStart + B.ramSize) ∨ (B.eepStart ≤ a ∧ a + len ≤ B.eepStart + B.eepSize)

/-- The address belongs to the value of the object. -/
def inValue (B : Bcu) (o : Obj) (a : Nat) : Prop := valueAt B o ≤ a ∧ a < valueAt B o + bytesOf o.type
/-- The address belongs to the flags (half a byte per object). -/
def inFlags (C : Config) (a : Nat) : Prop := C.flagsAt ≤ a ∧ a < C.flagsAt + (C.objs.length + 1) / 2
/-- The address belongs to a value or to the flags. -/
def inData (B : Bcu) (C : Config) (a : Nat) : Prop := inFlags C a ∨ ∃ o ∈ C.objs, inValue B o a

/-- A configuration that fits the device. -/
structure Valid (B : Bcu) (C : Config) : Prop where
  counts : C.groups.length + 1 < 256 ∧ C.assoc.length < 256 ∧ C.objs.length < 256
  assocs : ∀ p ∈ C.assoc, 1 ≤ p.1 ∧ p.1 ≤ C.groups.length ∧ p.2 < C.objs.length
  /-- a group address occurs once in the table -/
  distinct : C.groups.Nodup
  types : ∀ o ∈ C.objs, o.type ≤ 15
  values : ∀ o ∈ C.objs, inSegment B (valueAt B o) (bytesOf o.type)
  flags : inSegment B C.flagsAt (max 1 ((C.objs.length + 1) / 2))
  tables : ∀ t ∈ image B C, B.eepStart ≤ t.1 ∧ t.1 + t.2.length ≤ B.eepStart + B.eepSize
  pointers : match B.kind with
    | .bcu1 => C.addrAt = B.eepStart + 0x16 ∧ C.assocAt < B.eepStart + 256 ∧ B.eepStart < C.commAt ∧
        C.commAt < B.eepStart + 256 ∧ C.flagsAt < 256 ∧ ∀ o ∈ C.objs, o.ptr < 256
    | .bcu2 => B.eepStart + B.eepSize ≤ 65536 ∧ B.ramStart + B.ramSize ≤ 65536
  /-- the tables do not overlap the values and flags -/
  separate : ∀ t ∈ image B C, ∀ i < t.2.length, ¬ inData B C (t.1 + i)
  /-- the flags do not overlap the values -/
  flagsSeparate : ∀ a, inFlags C a → ∀ o ∈ C.objs, ¬ inValue B o a

/-- The memory holds the configuration. -/
structure Configured (B : Bcu) (m : Mem) (C : Config) : Prop where
  valid : Valid B C
  tables : ∀ t ∈ image B C, At m t.1 t.2

/-- The storage of the values of different objects does not overlap. -/
def Separate (B : Bcu) (C : Config) : Prop :=
  ∀ i j, (hi : i < C.objs.length) → (hj : j < C.objs.length) → i ≠ j → ∀ a, ¬ (inValue B C.objs[i] a ∧ inValue B C.objs[j] a)

/-- The flags of object `i`: half a byte, odd objects in the upper half. -/
def flags (m : Mem) (C : Config) (i : Nat) : Byte :=
  if i % 2 = 1 then m (C.flagsAt + i / 2) >>> 4 else m (C.flagsAt + i / 2) &&& 0x0f#8

/-- The bytes of the value of an object. -/
def value (B : Bcu) (m : Mem) (o : Obj) : List Byte := (List.range (bytesOf o.type)).map (fun k => m (valueAt B o + k))

/-- The number encoded by bytes, low byte first. -/
def number : List Byte → Nat
  | [] => 0
  | b :: bs => b.toNat + 256 * number bs

end Verif.Com
