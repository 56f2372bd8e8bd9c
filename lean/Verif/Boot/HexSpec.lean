import Verif.Boot.Hex

/-!
# Specification: Intel Hexadecimal Object File Format (Intel, 1988)
-/

namespace Verif.Boot.HexSpec
open Verif

/-- The value of an ASCII hexadecimal digit. -/
def digit (c : Nat) : Option Nat :=
  if 48 ≤ c ∧ c ≤ 57 then some (c - 48)
  else if 65 ≤ c ∧ c ≤ 70 then some (c - 55)
  else if 97 ≤ c ∧ c ≤ 102 then some (c - 87)
  else none

/-- What is assumed of Java's `Character.digit(c, 16)`: it is right for ASCII, and never above 15. (It also knows digits of other
scripts.) -/
structure Java (dig : Nat → Option Nat) : Prop where
  ascii : ∀ c, c < 128 → dig c = digit c
  bound : ∀ c d, dig c = some d → d < 16

/-- The records. -/
inductive Rec where
  | data (offset : BitVec 16) (bytes : List Byte)
  | eof
  | segment (base : BitVec 16)
  | startSegment (cs ip : BitVec 16)
  | linear (base : BitVec 16)
  | startLinear (eip : BitVec 32)

def hi (w : BitVec 16) : Byte := w.extractLsb' 8 8
def lo (w : BitVec 16) : Byte := w.extractLsb' 0 8

/-- Number of the type, offset and contents. -/
def Rec.fields : Rec → Byte × BitVec 16 × List Byte
  | .data o bs => (0#8, o, bs)
  | .eof => (1#8, 0#16, [])
  | .segment b => (2#8, 0#16, [hi b, lo b])
  | .startSegment cs ip => (3#8, 0#16, [hi cs, lo cs, hi ip, lo ip])
  | .linear b => (4#8, 0#16, [hi b, lo b])
  | .startLinear e => (5#8, 0#16, [e.extractLsb' 24 8, e.extractLsb' 16 8, e.extractLsb' 8 8, e.extractLsb' 0 8])

/-- The bytes of a record before its checksum. -/
def Rec.body (r : Rec) : List Byte := BitVec.ofNat 8 r.fields.2.2.length :: hi r.fields.2.1 :: lo r.fields.2.1 :: r.fields.1 :: r.fields.2.2

/-- The bytes of a record: with the checksum the sum is a multiple of 256. -/
def Rec.octets (r : Rec) : List Byte := r.body ++ [-(r.body.foldl (· + ·) 0#8)]

/-- At most 255 bytes of data. -/
def Rec.Short : Rec → Prop
  | .data _ bs => bs.length ≤ 255
  | _ => True

/-- A character sequence writes bytes, two hexadecimal digits each, of either case. -/
inductive Writes : List Nat → List Byte → Prop where
  | nil : Writes [] []
  | cons {a b x y : Nat} {cs : List Nat} {bs : List Byte} (ha : digit a = some x) (hb : digit b = some y) (h : Writes cs bs) :
      Writes (a :: b :: cs) (BitVec.ofNat 8 (16 * x + y) :: bs)

/-- A line for a record: a colon and the bytes. -/
def Line (l : List Nat) (r : Rec) : Prop := ∃ cs, l = 58 :: cs ∧ Writes cs r.octets

/-- Lines for records in order; there may be empty lines. -/
inductive Lines : List (List Nat) → List Rec → Prop where
  | nil : Lines [] []
  | empty {ls rs} (h : Lines ls rs) : Lines ([] :: ls) rs
  | cons {l r ls rs} (hl : Line l r) (h : Lines ls rs) : Lines (l :: ls) (r :: rs)

/-- Where the offsets count from. -/
inductive Base where
  | linear (b : Nat) | segment (b : Nat)

/-- Address of byte `i` of a data record. Offsets wrap inside a segment; linear addresses have 32 bits. -/
def Base.address : Base → Nat → Nat → Nat
  | .linear b, offset, i => (b * 65536 + offset + i) % 2 ^ 32
  | .segment b, offset, i => b * 16 + (offset + i) % 65536

/-- The addresses and values a file gives, in the order of the file. -/
def placed : Base → List Rec → List (Nat × Byte)
  | _, [] => []
  | b, .data o bs :: rs => bs.mapIdx (fun i v => (b.address o.toNat i, v)) ++ placed b rs
  | _, .linear w :: rs => placed (.linear w.toNat) rs
  | _, .segment w :: rs => placed (.segment w.toNat) rs
  | b, _ :: rs => placed b rs

/-- The value a file gives to an address: the last one. At the beginning of a file offsets count from 0. -/
def content (rs : List Rec) (a : Nat) : Option Byte := ((placed (.linear 0) rs).reverse.find? (fun p => p.1 == a)).map (·.2)

/-- No empty data record, no wrapping of addresses, and a segment base has no bit in common with an offset. -/
def Plain : Base → List Rec → Prop
  | _, [] => True
  | b, .data o bs :: rs =>
    bs ≠ [] ∧
    (match b with
     | .linear b => b * 65536 + o.toNat + bs.length ≤ 2 ^ 32
     | .segment b => o.toNat + bs.length ≤ 65536 ∧ o.toNat &&& (b * 16) = 0) ∧ Plain b rs
  | _, .linear w :: rs => Plain (.linear w.toNat) rs
  | _, .segment w :: rs => Plain (.segment w.toNat) rs
  | b, _ :: rs => Plain b rs

/-- The two characters are read as this byte: two digits, or a sign and a digit. -/
def ReadAs (dig : Nat → Option Nat) (a b : Nat) (v : Byte) : Prop :=
  (∃ x y, 48 ≤ a ∧ dig a = some x ∧ dig b = some y ∧ v = BitVec.ofNat 8 (16 * x + y)) ∨
  (∃ y, dig b = some y ∧ ((a = 43 ∧ v = BitVec.ofNat 8 y) ∨ (a = 45 ∧ v = -BitVec.ofNat 8 y)))

/-- A character sequence read as bytes. -/
inductive Reads (dig : Nat → Option Nat) : List Nat → List Byte → Prop where
  | nil : Reads dig [] []
  | cons {a b : Nat} {v : Byte} {cs : List Nat} {bs : List Byte} (hv : ReadAs dig a b v) (h : Reads dig cs bs) :
      Reads dig (a :: b :: cs) (v :: bs)

/-- A line that may be accepted: colon, bytes in pairs of characters, as many bytes as the first one says (and five more), sum a multiple
of 256. -/
def Checked (dig : Nat → Option Nat) (l : List Nat) (bs : List Byte) : Prop :=
  ∃ cs, l = 58 :: cs ∧ Reads dig cs bs ∧ bs.length = (bs.getD 0 0#8).toNat + 5 ∧ (bs.map BitVec.toNat).sum % 256 = 0

end Verif.Boot.HexSpec
