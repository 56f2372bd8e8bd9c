import Verif.Dev.Spec24
import Verif.Crc.Spec

/-!
# Specification: what a load control stores

All positions are offsets in the EEPROM.
-/

namespace Verif.Dev

open Verif.Knx

/-- The EEPROM after some bytes were replaced. -/
def patched : List (Nat × Byte) → (Nat → Byte) → Nat → Byte
  | [], e, i => e i
  | (k, b) :: l, e, i => if i = k then b else patched l e i

/-- Besides the load state of `obj` exactly the listed bytes of the EEPROM were replaced. -/
def Stored (d d' : Dev) (obj : Nat) (l : List (Nat × Byte)) : Prop :=
  ∀ i, i ≠ 0x370 + obj → d'.ee i = patched l d.ee i

/-- The record (of `n` bytes) is an additional load control of the type `seg`, with parameters from position `p`. -/
def Asks (rec : Nat → Byte) (n : Int) (seg : Byte) (p : Nat) : Prop :=
  (rec 0).toNat % 8 = 3 ∧ rec 1 = seg ∧ ((n = 10 ∧ p = 2) ∨ (n = 11 ∧ p = 3))

/-- A 16 bit address in the EEPROM, low byte first. -/
def addressAt (e : Nat → Byte) (o : Nat) : Nat := (e o).toNat + 256 * (e (o + 1)).toNat

/-- Where System B keeps the addresses of the five tables: address table, association table, group objects, interface
objects, second application. -/
def tablePlace : Nat → Nat
  | 1 => 0x21 | 2 => 0x23 | 3 => 0x37C | 4 => 0x382 | _ => 0x37E

/-- Where System B keeps the sizes of the five tables (four bytes, high byte first). -/
def sizePlace : Nat → Nat
  | 1 => 0x4D | 2 => 0x55 | 3 => 0x5D | 4 => 0x65 | _ => 0x6D

/-- Where the property "table reference" of the objects 1 to 5 is. -/
def referencePlace : Nat → Nat
  | 1 => 0x378 | 2 => 0x37A | 3 => 0x37C | 4 => 0x382 | _ => 0x37E

/-- Where the property "memory control block" of the objects 1 to 4 is. -/
def blockPlace : Nat → Nat
  | 1 => 0x3A4 | 2 => 0x3AC | 3 => 0x3B4 | _ => 0x3BC

/-- `v` is the lowest address in use: 0x3A9E, or the lowest of the table addresses that are not 0 if that is lower. -/
def LowestUsed (e : Nat → Byte) (v : Nat) : Prop :=
  (v = 0x3A9E ∨ ∃ o, 1 ≤ o ∧ o ≤ 5 ∧ addressAt e (tablePlace o) = v ∧ v ≠ 0) ∧ v ≤ 0x3A9E ∧
  ∀ o, 1 ≤ o → o ≤ 5 → addressAt e (tablePlace o) ≠ 0 → v ≤ addressAt e (tablePlace o)

/-- A size of four bytes, high byte first. -/
def size4 (a b c d : Byte) : Nat := ((a.toNat * 256 + b.toNat) * 256 + c.toNat) * 256 + d.toNat

/-- The size System B keeps for a table. -/
def sizeAt (e : Nat → Byte) (o : Nat) : Nat := size4 (e o) (e (o + 1)) (e (o + 2)) (e (o + 3))

/-- No two of the five tables (those with an address) overlap, and all end at 0x3A9E or below. -/
def Apart (e : Nat → Byte) : Prop :=
  ∀ a, 1 ≤ a → a ≤ 5 → addressAt e (tablePlace a) ≠ 0 →
    addressAt e (tablePlace a) + sizeAt e (sizePlace a) ≤ 0x3A9E ∧
    ∀ b, 1 ≤ b → b ≤ 5 → b ≠ a → addressAt e (tablePlace b) ≠ 0 →
      addressAt e (tablePlace a) + sizeAt e (sizePlace a) ≤ addressAt e (tablePlace b) ∨
      addressAt e (tablePlace b) + sizeAt e (sizePlace b) ≤ addressAt e (tablePlace a)

end Verif.Dev
