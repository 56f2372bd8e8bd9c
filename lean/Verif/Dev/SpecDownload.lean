import Verif.Dev.LoopSpec
import Verif.Dev.Loop

/-!
# Specification of a download (C88)

What a list of executed memory write requests leaves at an address of the user EEPROM, in terms of the telegrams
alone.
-/

namespace Verif.Dev

open Verif.Knx

/-- The services executed, in order: the numbered and the connectionless telegrams handed to the device's services. -/
def executed : List MainOut → List Buf
  | [] => []
  | .bus (.apciConnected t _) :: o => t :: executed o
  | .bus (.apciIndividual t _) :: o => t :: executed o
  | _ :: o => executed o

/-- A device of this kind, without virtual memory, has memory at the address `a`. -/
def MemoryAt (k : Kind) (a : Nat) : Prop :=
  (k.eeStart ≤ a ∧ a < k.eeStart + k.eeSize) ∨ (k.ramStart ≤ a ∧ a < k.ramStart + k.ramSize)

instance (k : Kind) (a : Nat) : Decidable (MemoryAt k a) := inferInstanceAs (Decidable (_ ∨ _))

/-- On these kinds a write to the address 0x104 is load control, not a write to memory. -/
def LoadAddress (k : Kind) (a : Nat) : Prop := k ≠ .bcu1 ∧ k ≠ .bcu2 ∧ a = 0x104

instance (k : Kind) (a : Nat) : Decidable (LoadAddress k a) := inferInstanceAs (Decidable (_ ∧ _))

/-- The first address in an A_Memory_Write telegram. -/
def writeAddress (t : Buf) : Nat := (makeWord (t 8) (t 9)).toNat

/-- The number of bytes in an A_Memory_Write telegram. -/
def writeCount (t : Buf) : Nat := (t 7).toNat % 16

/-- The telegram is an A_Memory_Write that writes the address `a`: `a` is in its range, and there is memory at every
address from the first one up to `a`. -/
def WritesTo (k : Kind) (t : Buf) (a : Nat) : Prop :=
  apciCommand t = 0x280#16 ∧ ¬ LoadAddress k (writeAddress t) ∧ writeAddress t ≤ a ∧
  a < writeAddress t + writeCount t ∧ ∀ j, j < a + 1 - writeAddress t → MemoryAt k (writeAddress t + j)

instance (k : Kind) (t : Buf) (a : Nat) : Decidable (WritesTo k t a) := inferInstanceAs (Decidable (_ ∧ _))

/-- The byte an A_Memory_Write telegram carries for the address `a`. -/
def byteFor (t : Buf) (a : Nat) : Byte := t (10 + (a - writeAddress t))

/-- The last byte the telegrams write to the address `a`; `v` if there is none. -/
def lastWritten (k : Kind) (a : Nat) : List Buf → Byte → Byte
  | [], v => v
  | t :: ts, v => lastWritten k a ts (if WritesTo k t a then byteFor t a else v)

/-- These telegrams change the EEPROM in another way than by a memory write: a property is written, an individual
address is assigned, on `SYSTEMB` a load record is written. -/
def OtherChange (k : Kind) (t : Buf) : Prop :=
  (k ≠ .bcu1 ∧ apciCommand t = 0x3d7#16) ∨
  (destinationAddress t = 0#16 ∧ (apciCommand t = 0x0c0#16 ∨ apciCommand t = 0x3de#16)) ∨
  (k = .systemb ∧ apciCommand t = 0x280#16 ∧ writeAddress t = 0x104)

/-- A history in which the EEPROM changes by memory writes (and by load records) only. -/
def MemoryOnly (k : Kind) (es : List MainEv) : Prop :=
  ∀ e ∈ es, (∀ i t len, e = .loop i → i.rx = some (t, len) → ¬ OtherChange k t) ∧ ∀ a, e ≠ .setOwnAddress a

/-- The bytes which load records change: the load states, the addresses of the tables, and the fields for the
application's run control. -/
def ManagedByte (k : Kind) (i : Nat) : Prop :=
  k ≠ .bcu1 ∧ k ≠ .bcu2 ∧ ((3 ≤ i ∧ i ≤ 9) ∨ (0x370 ≤ i ∧ i ≤ 0x384))

instance (k : Kind) (i : Nat) : Decidable (ManagedByte k i) := inferInstanceAs (Decidable (_ ∧ _))

end Verif.Dev
