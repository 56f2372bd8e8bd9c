import Verif.Dev.Props22

/-!
# C22: at which addresses a device has memory

The theorems of `Props22.lean` speak of the address space `space`.  Here the addresses are given as
numbers, for each device type, as the documentation of the mask versions lists them: a tool which
reads or writes memory relies on them.
-/

namespace Verif.Dev

open Verif.Knx

variable {W : World}

/-- RAM of the device type: BCU1 and BCU2 have 256 bytes from address 0 on, the others 772 bytes from
0x5fc on. -/
def RamAt : Kind → Nat → Prop
  | .bcu1, a => a ≤ 0xff
  | .bcu2, a => a ≤ 0xff
  | .mask0701, a => 0x5fc ≤ a ∧ a ≤ 0x8ff
  | .mask0705, a => 0x5fc ≤ a ∧ a ≤ 0x8ff
  | .systemb, a => 0x5fc ≤ a ∧ a ≤ 0x8ff

/-- EEPROM of the device type. -/
def EepromAt : Kind → Nat → Prop
  | .bcu1, a => 0x100 ≤ a ∧ a ≤ 0x1ff
  | .bcu2, a => 0x100 ≤ a ∧ a ≤ 0x4ff
  | .mask0701, a => 0x3f00 ≤ a ∧ a ≤ 0x4aff
  | .mask0705, a => 0x3f00 ≤ a ∧ a ≤ 0x4aff
  | .systemb, a => 0x3300 ≤ a ∧ a ≤ 0x3eff

/-- Number of the first address of the RAM and of the EEPROM. -/
def ramBase : Kind → Nat
  | .bcu1 => 0
  | .bcu2 => 0
  | .mask0701 => 0x5fc
  | .mask0705 => 0x5fc
  | .systemb => 0x5fc

@[inherit_doc ramBase]
def eepromBase : Kind → Nat
  | .bcu1 => 0x100
  | .bcu2 => 0x100
  | .mask0701 => 0x3f00
  | .mask0705 => 0x3f00
  | .systemb => 0x3300

theorem eepromAt_iff (k : Kind) (a : Nat) :
    (k.eeStart ≤ a ∧ a < k.eeStart + k.eeSize) ↔ EepromAt k a := by
  cases k <;> unfold Kind.eeStart Kind.eeSize EepromAt <;> dsimp only <;> omega

theorem ramAt_iff (k : Kind) (a : Nat) :
    (k.ramStart ≤ a ∧ a < k.ramStart + k.ramSize) ↔ RamAt k a := by
  cases k <;> unfold Kind.ramStart Kind.ramSize RamAt <;> dsimp only <;> omega

theorem ram_eeprom_apart (k : Kind) (a : Nat) (h : RamAt k a) : ¬ EepromAt k a := by
  cases k <;> unfold RamAt at h <;> unfold EepromAt <;> dsimp only at * <;> omega

/-- C22: which addresses exist on a device without virtual flash memory, and what stands there: the
byte of the EEPROM or of the RAM with the number the address has within it.  The system status stands
at byte 0x60 of the RAM. -/
theorem C22_memory_map (d : Dev) (hm : d.mapper = none) (a : Nat) :
    ((space W d a).isSome = true ↔ RamAt W.kind a ∨ EepromAt W.kind a) ∧
    (EepromAt W.kind a → space W d a = some (d.ee (a - eepromBase W.kind))) ∧
    (RamAt W.kind a → space W d a = some (
      if a - ramBase W.kind = 0x60 then d.status else d.ram (a - ramBase W.kind))) := by
  have hmap : mappedAt W d a = false := by
    unfold mappedAt
    rw [hm]
  have e1 : eepromBase W.kind = W.kind.eeStart := by cases W.kind <;> rfl
  have e2 : ramBase W.kind = W.kind.ramStart := by cases W.kind <;> rfl
  unfold space
  rw [hmap, e1, e2, ← eepromAt_iff, ← ramAt_iff, if_neg (by decide)]
  refine ⟨⟨fun h => ?_, fun h => ?_⟩, fun h => ?_, fun h => ?_⟩
  · by_cases h1 : W.kind.eeStart ≤ a ∧ a < W.kind.eeStart + W.kind.eeSize
    · exact Or.inr h1
    · rw [if_neg h1] at h
      by_cases h2 : W.kind.ramStart ≤ a ∧ a < W.kind.ramStart + W.kind.ramSize
      · exact Or.inl h2
      · rw [if_neg h2] at h
        cases h
  · by_cases h1 : W.kind.eeStart ≤ a ∧ a < W.kind.eeStart + W.kind.eeSize
    · rw [if_pos h1]; rfl
    · rw [if_neg h1, if_pos (h.resolve_right h1)]; rfl
  · rw [if_pos h]
  · have h1 : ¬ (W.kind.eeStart ≤ a ∧ a < W.kind.eeStart + W.kind.eeSize) := by
      rw [eepromAt_iff]
      exact ram_eeprom_apart _ _ ((ramAt_iff _ _).1 h)
    rw [if_neg h1, if_pos h]

/-- C22 (partial): a memory write request to a device without virtual flash memory succeeds exactly if
it carries data and all its addresses lie in the RAM or in the EEPROM of the device type. -/
theorem C22_write_addresses_partial (d : Dev) (hm : d.mapper = none) (t : Buf) (a : Word)
    (data : List Byte) (ht : MemWriteRequest t a data) (hc : MemCond W d a data.length) :
    (memWritePDU W d a.toNat t data.length).2 = true ↔
      data ≠ [] ∧ ∀ i, i < data.length → RamAt W.kind (a.toNat + i) ∨ EepromAt W.kind (a.toNat + i) := by
  rw [C22_reported_partial d t a data ht hc]
  unfold AllPresent
  exact and_congr_right fun _ =>
    forall_congr' fun i => imp_congr_right fun _ => (C22_memory_map d hm (a.toNat + i)).1

/-- C22 (partial): the EEPROM is scheduled for saving by a write exactly if it was before or the write
put a byte into the EEPROM area of the device type. -/
theorem C22_eeprom_scheduled_partial (d : Dev) (hm : d.mapper = none) (t : Buf) (l : Nat) (sb : Buf)
    (a : Word) (data : List Byte) (ht : MemWriteRequest t a data) (hc : MemCond W d a data.length) :
    (processApci W d t l sb).1.eeModified = true ↔ d.eeModified = true ∨
      ∃ i, i < data.length ∧ EepromAt W.kind (a.toNat + i) ∧
        ∀ j, j < i → RamAt W.kind (a.toNat + j) ∨ EepromAt W.kind (a.toNat + j) := by
  rw [(C22_write_partial d t l sb a data ht hc).modified]
  apply or_congr_right
  apply exists_congr
  intro i
  apply and_congr_right
  intro _
  rw [eepromAt_iff]
  exact and_congr_right fun _ =>
    forall_congr' fun j => imp_congr_right fun _ => (C22_memory_map d hm (a.toNat + j)).1

/-- C22 (partial): a write is answered exactly if it succeeded, the device is not a BCU1, and bit 2 of the
device control byte, which stands at byte 0x62 of the RAM, is set after the write. -/
theorem C22_write_answered_partial (d : Dev) (hm : d.mapper = none) (t : Buf) (l : Nat) (sb : Buf) (a : Word)
    (data : List Byte) (ht : MemWriteRequest t a data) (hc : MemCond W d a data.length) :
    (processApci W d t l sb).2.2 = true ↔
      (data ≠ [] ∧ ∀ i, i < data.length → RamAt W.kind (a.toNat + i) ∨ EepromAt W.kind (a.toNat + i)) ∧
      W.kind ≠ .bcu1 ∧
      ∃ x, space W (processApci W d t l sb).1 (ramBase W.kind + 0x62) = some x ∧ x &&& 0x04#8 ≠ 0#8 := by
  have hw := C22_write_partial d t l sb a data ht hc
  rw [(C22_write_response_partial d t l sb a data ht hc).1]
  have e : (data ≠ [] ∧ AllPresent W d a data.length) ↔
      (data ≠ [] ∧ ∀ i, i < data.length → RamAt W.kind (a.toNat + i) ∨ EepromAt W.kind (a.toNat + i)) := by
    unfold AllPresent
    exact and_congr_right fun _ =>
      forall_congr' fun i => imp_congr_right fun _ => (C22_memory_map d hm (a.toNat + i)).1
  rw [e]
  apply and_congr_right
  intro _
  obtain ⟨d', hd'⟩ : ∃ d', (processApci W d t l sb).1 = d' := ⟨_, rfl⟩
  rw [hd'] at hw ⊢
  have hm' : d'.mapper = none := by
    have := hw.same.mapper
    rw [hm] at this
    cases hx : d'.mapper with
    | none => rfl
    | some s => rw [hx] at this; cases this
  have hr : RamAt W.kind (ramBase W.kind + 0x62) := by
    unfold RamAt ramBase
    cases W.kind <;> decide
  rw [(C22_memory_map d' hm' _).2.2 hr, Nat.add_sub_cancel_left, if_neg (by decide)]
  have bit : ∀ b : Byte, b.getLsbD 2 = true ↔ b &&& 0x04#8 ≠ 0#8 := by decide +kernel
  unfold autoResponse
  rw [Bool.and_eq_true, bit, decide_eq_true_iff]
  refine and_congr ?_ ⟨fun h => ⟨_, rfl, h⟩, fun ⟨x, h1, h2⟩ => by rw [Option.some.inj h1]; exact h2⟩
  unfold Kind.maskVersion
  cases W.kind <;> decide

/-! ## The hypotheses are met

The write of three bytes across the border of RAM and EEPROM from `Props22.lean`. -/

example : exDev.mapper = none := rfl
example : RamAt exWorld.kind 0xfe ∧ EepromAt exWorld.kind 0x100 ∧
    ¬ (RamAt exWorld.kind 0x600 ∨ EepromAt exWorld.kind 0x600) := by
  unfold RamAt EepromAt exWorld
  decide
example : (memWritePDU exWorld exDev 0x00fe exWrite 3).2 = true := by
  refine (C22_write_addresses_partial exDev rfl exWrite 0x00fe#16 [0x11#8, 0x22#8, 0x33#8]
    ⟨by decide, by decide, by decide, by decide⟩
    ⟨fun s hs => (by cases hs), Or.inl rfl, fun h => absurd rfl h.2, by decide⟩).2 ⟨by decide, fun i hi => ?_⟩
  have : i < 3 := hi
  unfold RamAt EepromAt exWorld
  dsimp only
  have : (0x00fe#16).toNat = 0xfe := rfl
  omega

end Verif.Dev
