import Verif.Com.Spec

/-!
# Specification: group telegrams

What KNX says about group telegrams, in terms of the configuration `Config`, of values and of flags. None of these
definitions uses the model.
-/

namespace Verif.Com

/-- Object `i` is associated with the group address `g`. -/
def Linked (C : Config) (g : Word) (i : Nat) : Prop := ∃ k, (k, i) ∈ C.assoc ∧ C.groups[k - 1]? = some g

/-- The object accepts write telegrams: write enable 0x10 and communication enable 0x04. -/
def Writable (o : Obj) : Prop := o.config &&& 0x10#8 ≠ 0#8 ∧ o.config &&& 0x04#8 ≠ 0#8
/-- The object answers read requests: read enable 0x08 and communication enable 0x04. -/
def Readable (o : Obj) : Prop := o.config &&& 0x08#8 ≠ 0#8 ∧ o.config &&& 0x04#8 ≠ 0#8
/-- The object may send on its own: transmit enable 0x40 and communication enable 0x04. -/
def MaySend (o : Obj) : Prop := o.config &&& 0x40#8 ≠ 0#8 ∧ o.config &&& 0x04#8 ≠ 0#8

/-- The group address under which an object sends: its first association. 0 if there is none. -/
def sendAddr (C : Config) (i : Nat) : Word :=
  ((C.assoc.find? (fun p => p.2 = i)).map (fun p => C.groups.getD (p.1 - 1) 0#16)).getD 0#16

/-- The value that the telegram `tel` carries for an object of type `type`, low byte first: types below 6 (up to 6 bits)
are packed into byte 7, longer ones follow it with the high byte first. -/
def payload (type : Nat) (tel : Tel) : List Byte :=
  if type < 6 then [tel 7 &&& 0x3f#8] else ((List.range (bytesOf type)).map (fun k => tel (8 + k))).reverse

/-- The bytes of a value telegram from the destination address on. `cmd` is 0x80 for a write, 0x40 for a response. -/
def valueBody (g : Word) (o : Obj) (v : List Byte) (cmd : Byte) : List Byte :=
  be16 g.toNat ++
  if o.type < 6 then [0xe1#8, 0#8, cmd ||| v.headD 0#8]
  else [0xe0#8 ||| b8 (bytesOf o.type + 1), 0#8, cmd] ++ v.reverse

/-- The bytes of a read request from the destination address on. -/
def readBody (g : Word) : List Byte := be16 g.toNat ++ [0xe1#8, 0#8, 0#8]

/-- A frame with the given bytes from the destination address on and low priority. Bytes 1 and 2 are the sender address,
which the bus layer fills in. -/
def IsFrame (f : List Byte) (body : List Byte) : Prop := f.head? = some 0xBC#8 ∧ f.length = 3 + body.length ∧ f.drop 3 = body

/-- The service of a group telegram. -/
inductive Service where
  | read | write | response | other
  deriving DecidableEq

/-- Service of a telegram: the upper four of the ten APCI bits. -/
def serviceOf (tel : Tel) : Service :=
  let hi := (tel 6).toNat % 4
  let lo := (tel 7).toNat / 64
  if hi = 0 ∧ lo = 0 then .read else if hi = 0 ∧ lo = 1 then .response else if hi = 0 ∧ lo = 2 then .write else .other

/-- Destination address of a telegram. -/
def destOf (tel : Tel) : Nat := (tel 3).toNat * 256 + (tel 4).toNat

/-- The objects for which `S` holds have taken the value of the telegram and are marked updated; everything else in the
memory is unchanged. -/
structure Takes (B : Bcu) (C : Config) (S : Nat → Prop) (tel : Tel) (m m' : Mem) : Prop where
  value : ∀ i, (hi : i < C.objs.length) → S i → value B m' C.objs[i] = payload C.objs[i].type tel
  flags : ∀ i < C.objs.length, S i → flags m' C i = flags m C i ||| 8#8
  keepValue : ∀ i, (hi : i < C.objs.length) → ¬ S i → Com.value B m' C.objs[i] = Com.value B m C.objs[i]
  keepFlags : ∀ i < C.objs.length, ¬ S i → Com.flags m' C i = Com.flags m C i
  keepRest : ∀ a, ¬ inData B C a → m' a = m a

/-- A transmission request of object `i` is pending. -/
def Pending (m : Mem) (C : Config) (i : Nat) : Prop := flags m C i &&& 3#8 = 3#8
/-- The pending request asks for a read telegram. -/
def WantsRead (m : Mem) (C : Config) (i : Nat) : Prop := flags m C i &&& 4#8 ≠ 0#8
/-- The object can send: it may send and has a group address. -/
def CanSend (C : Config) (i : Nat) : Prop := (∃ h : i < C.objs.length, MaySend C.objs[i]) ∧ sendAddr C i ≠ 0#16

end Verif.Com
