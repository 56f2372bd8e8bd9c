import Verif.Com.GroupSpec

/-!
# Specification: the group objects of a System B device

The tables of a System B device (KNX 3/5/1: group address table, association table and group object table of the
realization types 6 and 7) and the values of its group objects. None of these definitions uses the model; `be16`, `le16`, `b8`,
`At` and `IsFrame` are those of the specification of the other devices.

Group addresses and objects are numbered from 1. The `k`-th entry of the list `objs` (counted from 0) is the object `k + 1`.
-/

namespace Verif.Com.SysB

/-- A group object: configuration byte and type as ETS writes them. -/
structure Obj where
  config : Byte
  type : Nat

/-- The configuration of a device. An association `(g, o)` connects the `g`-th group address with the object `o`. -/
structure Config where
  groups : List Word
  assoc : List (Nat × Nat)
  objs : List Obj
  addrAt : Nat
  assocAt : Nat
  commAt : Nat

/-- Bytes of a group object of the given type, KNX 3/5/1 4.12.5.2.4.1.4: up to type 7 at most one byte, then the sizes 2, 3, 4, 6,
8, 10, 14, the sizes 5, 7, 9, 11, 12, 13 that had been left out, and 15, 16, … to 248; the last type has 252 bytes. -/
def bytesOf (type : Nat) : Nat :=
  match type with
  | 0 | 1 | 2 | 3 | 4 | 5 | 6 | 7 => 1
  | 8 => 2 | 9 => 3 | 10 => 4 | 11 => 6 | 12 => 8 | 13 => 10 | 14 => 14
  | 15 => 5 | 16 => 7 | 17 => 9 | 18 => 11 | 19 => 12 | 20 => 13
  | n => if n < 255 then 15 + (n - 21) else 252

/-- The sizes of the objects in order. -/
def sizes (C : Config) : List Nat := C.objs.map (fun o => bytesOf o.type)
/-- Size of the object `k + 1`. -/
def bytesAt (C : Config) (k : Nat) : Nat := ((sizes C)[k]?).getD 0
/-- The values follow each other in the order of the objects, from the third byte of the user RAM (0x5FC to 0x8FF) on. -/
def valueAt (C : Config) (k : Nat) : Nat := 0x5FE + ((sizes C).take k).sum

/-- Group address table: number of entries, group addresses. -/
def addrImage (C : Config) : List Byte := be16 C.groups.length ++ C.groups.flatMap (fun g => be16 g.toNat)
/-- Association table: number of entries, pairs of group address number and object number. -/
def assocImage (C : Config) : List Byte := be16 C.assoc.length ++ C.assoc.flatMap (fun p => be16 p.1 ++ be16 p.2)
/-- Group object table: number of entries, configuration and type of each object. -/
def commImage (C : Config) : List Byte := be16 C.objs.length ++ C.objs.flatMap (fun o => [o.config, b8 o.type])

/-- All tables with their addresses, and the three table pointers. -/
def image (C : Config) : List (Nat × List Byte) :=
  [(C.addrAt, addrImage C), (C.assocAt, assocImage C), (C.commAt, commImage C),
   (0x3321, le16 C.addrAt), (0x3323, le16 C.assocAt), (0x367C, le16 C.commAt)]

/-- A configuration that fits the device: user RAM 0x5FC to 0x8FF, user EEPROM 0x3300 to 0x3EFF. -/
structure Valid (C : Config) : Prop where
  assocs : ∀ p ∈ C.assoc, 1 ≤ p.1 ∧ p.1 ≤ C.groups.length ∧ 1 ≤ p.2 ∧ p.2 ≤ C.objs.length
  /-- a group address occurs once in the table -/
  distinct : C.groups.Nodup
  types : ∀ o ∈ C.objs, o.type < 256
  /-- the values fit into the user RAM -/
  values : 2 + (sizes C).sum ≤ 0x304
  /-- the tables lie in the user EEPROM -/
  tables : ∀ t ∈ image C, 0x3300 ≤ t.1 ∧ t.1 + t.2.length ≤ 0x3F00

/-- The memory holds the configuration. -/
structure Configured (m : Mem) (C : Config) : Prop where
  valid : Valid C
  tables : ∀ t ∈ image C, At m t.1 t.2

/-- The bytes of the value of the object `k + 1`, low byte first. -/
def value (m : Mem) (C : Config) (k : Nat) : List Byte := (List.range (bytesAt C k)).map (fun j => m (valueAt C k + j))

/-- The address belongs to the value of the object `k + 1`. -/
def inValue (C : Config) (k a : Nat) : Prop := valueAt C k ≤ a ∧ a < valueAt C k + bytesAt C k

/-- The object `i` is associated with the group address `g`. -/
def Linked (C : Config) (g : Word) (i : Nat) : Prop := ∃ k, (k, i) ∈ C.assoc ∧ C.groups[k - 1]? = some g

/-- The object accepts write telegrams: write enable 0x10 and communication enable 0x04. -/
def Writable (o : Obj) : Prop := o.config &&& 0x10#8 ≠ 0#8 ∧ o.config &&& 0x04#8 ≠ 0#8
/-- The object answers read requests: read enable 0x08 and communication enable 0x04. -/
def Readable (o : Obj) : Prop := o.config &&& 0x08#8 ≠ 0#8 ∧ o.config &&& 0x04#8 ≠ 0#8

/-- The value that the telegram `tel` carries for an object of type `type`, low byte first: types below 6 (up to 6 bits)
are packed into byte 7, longer ones follow it with the high byte first. -/
def payload (type : Nat) (tel : Tel) : List Byte :=
  if type < 6 then [tel 7 &&& 0x3f#8] else ((List.range (bytesOf type)).map (fun k => tel (8 + k))).reverse

/-- The bytes of a value telegram from the destination address on. `cmd` is 0x80 for a write, 0x40 for a response. -/
def valueBody (g : Word) (o : Obj) (v : List Byte) (cmd : Byte) : List Byte :=
  be16 g.toNat ++
  if o.type < 6 then [0xe1#8, 0#8, cmd ||| v.headD 0#8]
  else [0xe0#8 ||| b8 (bytesOf o.type + 1), 0#8, cmd] ++ v.reverse

/-- The objects for which `S` holds have taken the value of the telegram; everything else in the memory is unchanged. -/
structure Takes (C : Config) (S : Nat → Prop) (tel : Tel) (m m' : Mem) : Prop where
  value : ∀ k, (hk : k < C.objs.length) → S (k + 1) → value m' C k = payload C.objs[k].type tel
  keepValue : ∀ k < C.objs.length, ¬ S (k + 1) → SysB.value m' C k = SysB.value m C k
  keep : ∀ a, (∀ k < C.objs.length, S (k + 1) → ¬ inValue C k a) → m' a = m a

/-- The two bytes that the library takes for the address of the flags: the low byte of the number of objects and the
configuration byte of the first object. -/
def flagsWord (le : Bool) (C : Config) : Nat :=
  let n := C.objs.length % 256
  let c := ((C.objs.head?.map Obj.config).getD 0#8).toNat
  if le then c * 256 + n else n * 256 + c
/-- They are no address of the user memory. -/
def NoFlags (le : Bool) (C : Config) : Prop :=
  ¬ (0x5FC ≤ flagsWord le C ∧ flagsWord le C < 0x900) ∧ ¬ (0x3300 ≤ flagsWord le C ∧ flagsWord le C < 0x3F00)

/-- The association is one of the address with a readable object. -/
def answersTo (C : Config) (g : Word) (p : Nat × Nat) : Bool :=
  C.groups[p.1 - 1]? == some g && (match C.objs[p.2 - 1]? with
    | some o => o.config &&& 0x08#8 ≠ 0#8 && o.config &&& 0x04#8 ≠ 0#8
    | none => false)
/-- The readable objects of a group address in the order of the association table. -/
def answering (C : Config) (g : Word) : List Nat := (C.assoc.filter (answersTo C g)).map (·.2)

/-- Every byte of the frame from the destination address on is found in the telegram buffer. -/
def Carries (tel : Tel) (f : List Byte) : Prop := ∀ k, 3 ≤ k → (h : k < f.length) → tel k = f[k]

/-- The objects `os` answer one after the other: each sends a response telegram with its current value, and the other
writable objects on the address take the sent value. -/
inductive Answers (C : Config) (g : Word) : List Nat → Mem → Mem → List (List Byte) → Prop
  | nil (m) : Answers C g [] m m []
  | cons {k os m m1 m2 f fs tel} (hk : k < C.objs.length)
      (frame : IsFrame f (valueBody g C.objs[k] (value m C k) 0x40#8)) (carries : Carries tel f)
      (sync : Takes C (fun i => Linked C g i ∧ i ≠ k + 1 ∧ ∃ j, ∃ h : j < C.objs.length, i = j + 1 ∧ Writable C.objs[j]) tel m m1)
      (rest : Answers C g os m1 m2 fs) : Answers C g ((k + 1) :: os) m m2 (f :: fs)

end Verif.Com.SysB
