import Verif.Dev.MemSpec
import Verif.Dev.Model

/-!
# Requests and responses of the memory services

What the telegrams mean, in terms of their bytes only (KNX standard frame: byte 5 holds the length in
its low half, bytes 6 and 7 the transport and application control, the data begin at byte 8).
-/

namespace Verif.Dev

open Verif.Knx

/-- The telegram asks to write `data` at the address `a`. -/
structure MemWriteRequest (t : Buf) (a : Word) (data : List Byte) : Prop where
  apci : apciCommand t = 0x280#16
  count : (t 7).toNat % 16 = data.length
  addr : makeWord (t 8) (t 9) = a
  data : ∀ i, i < data.length → t (10 + i) = data.getD i 0#8

/-- The telegram asks to read `n` bytes at the address `a`. -/
structure MemReadRequest (t : Buf) (a : Word) (n : Nat) : Prop where
  apci : apciCommand t = 0x200#16
  count : (t 7).toNat % 16 = n
  addr : makeWord (t 8) (t 9) = a

/-- The telegram is a memory response: these bytes stand at the address `a`. -/
structure MemResponse (sb : Buf) (a : Word) (data : List Byte) : Prop where
  len : (sb 5).toNat = 0x60 + 3 + data.length
  apciHigh : sb 6 = 0x02#8
  apciLow : (sb 7).toNat = 0x40 + data.length
  addr : makeWord (sb 8) (sb 9) = a
  data : ∀ i, i < data.length → sb (10 + i) = data.getD i 0#8

/-- The device types that keep the load control record at 0x104 and show the load states from
0xb6e9 on (all but BCU1 and BCU2). -/
def LoadRecords (W : World) : Prop := W.kind ≠ .bcu1 ∧ W.kind ≠ .bcu2

/-- The request concerns neither the load control record nor the load states. -/
def PlainAddress (W : World) (a : Word) : Prop :=
  LoadRecords W → a.toNat ≠ 0x104 ∧ ¬ (0xb6e9 ≤ a.toNat ∧ a.toNat < 0xb6e9 + 8)

/-- The conditions under which the theorems about the memory services hold. -/
structure MemCond (W : World) (d : Dev) (a : Word) (n : Nat) : Prop where
  mapper : MapperOk W d
  alias : NotStatusAlias W a.toNat n
  plain : PlainAddress W a
  short : n ≤ 12

/-- All addresses from `a` on exist. -/
def AllPresent (W : World) (d : Dev) (a : Word) (n : Nat) : Prop :=
  ∀ i, i < n → (space W d (a.toNat + i)).isSome = true

/-- What a write request does: the address space changes as if the bytes were stored one after the
other up to the first address without memory, everything else is as before (and the virtual memory
stays in a good state), and the EEPROM is marked as modified iff it was or one of these bytes lies in
it. -/
structure Written (W : World) (d d' : Dev) (a : Nat) (data : List Byte) : Prop where
  space : ∀ b, Dev.space W d' b = (writeBytes (Dev.space W d) a data).1 b
  same : SameElse W d d'
  mapper : MapperOk W d'
  modified : d'.eeModified = true ↔ d.eeModified = true ∨
    ∃ i, i < data.length ∧ (W.kind.eeStart ≤ a + i ∧ a + i < W.kind.eeStart + W.kind.eeSize) ∧
      ∀ j, j < i → (Dev.space W d (a + j)).isSome = true

end Verif.Dev
