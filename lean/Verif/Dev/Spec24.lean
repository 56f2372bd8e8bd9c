import Verif.Dev.Model
import Verif.Dev.MemSpec

/-!
# Specification of the load control

An interface object is *unloaded* (0), *loaded* (1), *loading* (2) or in *error* (3).  A load control
record is a sequence of bytes: the event, and for the event "additional load control" the segment type
and its parameters.
-/

namespace Verif.Dev

open Verif.Knx

/-- The load state of an interface object (EEPROM offset 0x370). -/
def loadState (d : Dev) (obj : Nat) : Byte := d.ee (0x370 + obj)

/-- The telegram carries the load control record `rec` (of `n` bytes) for the object `obj`. -/
inductive LoadRequest (W : World) (t : Buf) (telLen : Nat) (obj : Nat) : (Nat → Byte) → Int → Prop
  /-- property value write to the property 5 of the object (telegram: 12 bytes header, the record,
  one byte checksum) -/
  | property (hk : W.kind ≠ .bcu1) (apci : apciCommand t = 0x3d7#16) (ho : (t 8).toNat = obj)
      (hobj : obj < 6) (pid : t 9 = 5#8) :
      LoadRequest W t telLen obj (fun i => t (12 + i)) ((telLen : Int) - 13)
  /-- memory write to 0x104; the object stands in the upper half of the first byte -/
  | memory (hk : W.kind ≠ .bcu1 ∧ W.kind ≠ .bcu2) (apci : apciCommand t = 0x280#16)
      (addr : makeWord (t 8) (t 9) = 0x104#16) (ho : (t 10).toNat / 16 = obj) (hobj : obj < 8) :
      LoadRequest W t telLen obj (fun i => t (10 + i)) (((t 7).toNat % 16 : Nat) : Int)

/-- Is there memory at this address? (the BCU2 also has RAM from 0x900 to 0x9bb) -/
def HasMemory (W : World) (d : Dev) (a : Nat) : Prop :=
  (space W d a).isSome = true ∨ (W.kind = .bcu2 ∧ 0x900 ≤ a ∧ a ≤ 0x9bb)

/-- Does the virtual memory add pages by itself?  Then an empty segment at address 0 counts as present
(its end is the address -1). -/
def AddsPages (W : World) (d : Dev) : Prop := d.mapper.isSome = true ∧ W.mc.autoAddPage = true

/-- Is the segment of the given type, with these parameters, accepted for the object? -/
def SegmentAccepted (W : World) (d : Dev) (obj : Nat) (seg : Nat) (par : Nat → Byte) : Prop :=
  match seg with
  /- absolute data segment: a memory type that exists, start and end in the memory -/
  | 0 => (1 ≤ (par 5).toNat % 8 ∧ (par 5).toNat % 8 ≤ 3) ∧
      HasMemory W d (makeWord (par 0) (par 1)).toNat ∧
      ((∃ last, last + 1 = (makeWord (par 0) (par 1)).toNat + (makeWord (par 2) (par 3)).toNat ∧
        HasMemory W d last) ∨
       ((makeWord (par 0) (par 1)).toNat + (makeWord (par 2) (par 3)).toNat = 0 ∧ AddsPages W d))
  /- absolute task segment: address table, association table or application -/
  | 2 => 1 ≤ obj ∧ obj ≤ 3
  /- task control segments: not on System B -/
  | 4 => W.kind ≠ .systemb
  | 5 => W.kind ≠ .systemb
  /- absolute stack segment, task pointer, relative allocation, relative data allocation -/
  | 1 => True
  | 3 => True
  | 0x0a => True
  | 0x0b => True
  | _ => False

/-- The load state prescribed by a record of `n` bytes. -/
inductive Prescribed (W : World) (d : Dev) (obj : Nat) (rec : Nat → Byte) (n : Int) : Byte → Prop
  | badLength (h : n ≠ 10 ∧ n ≠ 11) : Prescribed W d obj rec n 3#8
  | startLoading (hn : n = 10 ∨ n = 11) (h : (rec 0).toNat % 8 = 1) : Prescribed W d obj rec n 2#8
  | loadCompleted (hn : n = 10 ∨ n = 11) (h : (rec 0).toNat % 8 = 2) : Prescribed W d obj rec n 1#8
  | unload (hn : n = 10 ∨ n = 11) (h : (rec 0).toNat % 8 = 4) : Prescribed W d obj rec n 0#8
  | segment (p : Nat) (hn : (n = 10 ∧ p = 2) ∨ (n = 11 ∧ p = 3)) (h : (rec 0).toNat % 8 = 3)
      (ha : SegmentAccepted W d obj (rec 1).toNat (fun i => rec (p + i))) : Prescribed W d obj rec n 2#8
  | segmentRefused (p : Nat) (hn : (n = 10 ∧ p = 2) ∨ (n = 11 ∧ p = 3)) (h : (rec 0).toNat % 8 = 3)
      (ha : ¬ SegmentAccepted W d obj (rec 1).toNat (fun i => rec (p + i))) : Prescribed W d obj rec n 3#8
  | other (hn : n = 10 ∨ n = 11)
      (h : (rec 0).toNat % 8 = 0 ∨ 5 ≤ (rec 0).toNat % 8) : Prescribed W d obj rec n 3#8

/-- The record asks System B to allocate memory and to fill it. -/
def Fills (W : World) (rec : Nat → Byte) (n : Int) : Prop :=
  W.kind = .systemb ∧ (rec 0).toNat % 8 = 3 ∧ rec 1 = 0x0b#8 ∧
    rec ((if n = 10 then 2 else 3) + 4) ≠ 0#8

end Verif.Dev
