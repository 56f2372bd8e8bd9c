import Verif.Dev.Mem

/-!
# C130: how the application reads its memory

Models the class `Memory` and the accesses of `UserEeprom` and `UserRam` (memory.h, memory.cpp,
userEeprom.cpp, userRam.cpp), with which the application reads its parameters and state.
-/

namespace Verif.Dev.Region

open Verif Verif.Knx

/-- A `Memory` with its array: `startAddress`, `endAddress`, `sizeTotal` (memory.h:102-104), the number
of bytes the array was created with, and the array `userEepromData` or `userRamData`. -/
structure Mem where
  start : U32
  stop : U32
  size : U32
  room : Nat
  data : Nat → Byte

/-- `UserEeprom::UserEeprom`, userEeprom.cpp:115-121, with `Memory::Memory`, memory.cpp:24-28; `data` is
what `readUserEeprom` finds. -/
def newEeprom (start size : U32) (data : Nat → Byte) : Mem :=
  ⟨start, start + size - 1#32, size, size.toNat, data⟩

/-- `UserRam::UserRam`, userRam.cpp:25-34; the array is zero at first. -/
def newRam (start size shadow : U32) : Mem :=
  let total := size + shadow
  ⟨start, start + total - 1#32 - shadow, total - shadow, total.toNat, fun _ => 0#8⟩

/-- `Memory::normalizeAddress`, memory.h:112. -/
def normalize (m : Mem) (a : U32) : U32 := a - m.start

/-- An element of the array; `none` if it lies outside of it, which the C++ standard leaves undefined. -/
def elem (m : Mem) (i : U32) : Option Byte := if i.toNat < m.room then some (m.data i.toNat) else none

/-- `UserEeprom::getUInt8`, userEeprom.cpp:130-138, and `UserRam::getUInt8`, userRam.cpp:121-129. -/
def getUInt8 (m : Mem) (a : U32) : Option Byte :=
  let i := normalize m a
  if m.size - 1#32 < i then some 0#8 else elem m i

/-- `UserEeprom::getUInt16`, userEeprom.cpp:140-148, and `UserRam::getUInt16`, userRam.cpp:131-139. -/
def getUInt16 (m : Mem) (a : U32) : Option Word :=
  let i := normalize m a
  if m.size - 1#32 < i + 1#32 then some 0#16
  else match elem m i, elem m (i + 1#32) with
    | some h, some l => some (makeWord h l)
    | _, _ => none

/-- Reading through `operator[]`, userEeprom.cpp:123-127 and userRam.cpp:115-119. -/
def index (m : Mem) (a : U32) : Option Byte := elem m (normalize m a)

/-- Writing through `operator[]` (same lines). -/
def store (m : Mem) (a : U32) (v : Byte) : Option Mem :=
  let i := normalize m a
  if i.toNat < m.room then some { m with data := fun j => if j = i.toNat then v else m.data j } else none

/-- `Memory::inRange(address)`, memory.cpp:45-48. -/
def inRange (m : Mem) (a : U32) : Bool := decide (m.start ≤ a ∧ a ≤ m.stop)

/-- `Memory::inRange(start, end)`, memory.cpp:50-55. -/
def inRange2 (m : Mem) (a b : U32) : Bool := decide (a ≤ b ∧ m.start ≤ a ∧ b ≤ m.stop)

/-- `UserRam::setUserRamStart`, userRam.cpp:109-113. -/
def setStart (m : Mem) (new : U32) : Mem := { m with start := new, stop := new + m.size - 1#32 }

/-! ## Specification -/

/-- The memory occupies the addresses from `first` on, `n` of them, with the contents `c`. -/
structure Holds (m : Mem) (first n : Nat) (c : Nat → Byte) : Prop where
  start : m.start.toNat = first
  size : m.size.toNat = n
  nonempty : 1 ≤ n
  fits : first + n ≤ 2 ^ 32
  stop : m.stop.toNat + 1 = first + n
  room : n ≤ m.room
  data : ∀ i, i < n → m.data i = c (first + i)

/-! ## Helper lemmas -/

variable {m : Mem} {first n : Nat} {c : Nat → Byte}

theorem norm_toNat (h : Holds m first n c) (a : U32) :
    (normalize m a).toNat = if first ≤ a.toNat then a.toNat - first else a.toNat + 2 ^ 32 - first := by
  unfold normalize
  have h1 := h.start
  have h2 := a.isLt
  have h3 := m.start.isLt
  rw [BitVec.toNat_sub, h1]
  split <;> omega

theorem last_toNat (h : Holds m first n c) : (m.size - 1#32).toNat = n - 1 := by
  have h1 := h.size
  have h2 := h.nonempty
  have h3 := m.size.isLt
  rw [BitVec.toNat_sub, h1]
  show (2 ^ 32 - 1 + n) % 2 ^ 32 = _
  omega

theorem elem_in (h : Holds m first n c) {i : U32} (hi : i.toNat < n) :
    elem m i = some (c (first + i.toNat)) := by
  unfold elem
  rw [if_pos (Nat.lt_of_lt_of_le hi h.room), h.data _ hi]

theorem word_toNat (h l : Byte) : (makeWord h l).toNat = h.toNat * 256 + l.toNat := by
  unfold makeWord
  have h1 := h.isLt
  have h2 := l.isLt
  rw [BitVec.toNat_or, BitVec.toNat_shiftLeft, BitVec.toNat_setWidth, BitVec.toNat_setWidth, Nat.shiftLeft_eq]
  rw [Nat.mod_eq_of_lt (show h.toNat < 2 ^ 16 by omega), Nat.mod_eq_of_lt (show l.toNat < 2 ^ 16 by omega),
    Nat.mod_eq_of_lt (show h.toNat * 2 ^ 8 < 2 ^ 16 by omega), ← Nat.shiftLeft_eq, ← Nat.shiftLeft_add_eq_or_of_lt (by omega : l.toNat < 2 ^ 8),
    Nat.shiftLeft_eq]

/-! ## The property -/

/-- **C130**: the memories of a device: a new EEPROM holds what was read from flash, a new RAM is zero,
each at its addresses. -/
theorem C130_created (start size shadow : U32) (hs : 1 ≤ size.toNat)
    (hf : start.toNat + size.toNat ≤ 2 ^ 32) :
    (∀ data, Holds (newEeprom start size data) start.toNat size.toNat
      (fun a => data (a - start.toNat))) ∧
    (size.toNat + shadow.toNat < 2 ^ 32 →
      Holds (newRam start size shadow) start.toNat size.toNat (fun _ => 0#8)) := by
  have h1 := start.isLt
  have h2 := size.isLt
  refine ⟨fun data => ⟨rfl, rfl, hs, hf, ?_, Nat.le_refl _, fun i _ => ?_⟩,
    fun h => ⟨rfl, ?_, hs, hf, ?_, ?_, fun _ _ => rfl⟩⟩
  · show (start + size - 1#32).toNat + 1 = _
    rw [BitVec.toNat_sub, BitVec.toNat_add]
    show (2 ^ 32 - 1 + (start.toNat + size.toNat) % 2 ^ 32) % 2 ^ 32 + 1 = _
    omega
  · show data i = data (start.toNat + i - start.toNat)
    rw [Nat.add_sub_cancel_left]
  · show (size + shadow - shadow).toNat = _
    rw [BitVec.add_sub_cancel]
  · show (start + (size + shadow) - 1#32 - shadow).toNat + 1 = _
    have e : start + (size + shadow) - 1#32 - shadow = start + size - 1#32 := by bv_omega
    rw [e, BitVec.toNat_sub, BitVec.toNat_add]
    show (2 ^ 32 - 1 + (start.toNat + size.toNat) % 2 ^ 32) % 2 ^ 32 + 1 = _
    omega
  · show size.toNat ≤ (size + shadow).toNat
    rw [BitVec.toNat_add, Nat.mod_eq_of_lt h]
    omega

/-- **C130**: reading a byte returns the byte at that address, and 0 for every address outside the
memory; nothing outside the array is read. -/
theorem C130_byte (h : Holds m first n c) (a : U32) :
    getUInt8 m a = some (if first ≤ a.toNat ∧ a.toNat < first + n then c a.toNat else 0#8) := by
  have h1 := norm_toNat h a
  have h2 := last_toNat h
  have h3 := h.nonempty
  have h4 := h.fits
  have h5 := a.isLt
  unfold getUInt8
  dsimp only
  by_cases hin : first ≤ a.toNat ∧ a.toNat < first + n
  · rw [if_pos hin.1] at h1
    rw [if_pos hin, if_neg (by rw [BitVec.lt_def]; omega), elem_in h (by omega), h1,
      Nat.add_sub_cancel' hin.1]
  · rw [if_neg hin, if_pos]
    rw [BitVec.lt_def, h1, h2]
    split <;> omega

/-- **C130** (partial): reading a word returns the two bytes at the address and behind it, the first one
in the upper half, and 0 if one of them lies outside the memory; nothing outside the array is read.
Missing: the address just before the memory (`C130_word_before`). -/
theorem C130_word_partial (h : Holds m first n c) (a : U32) (ha : (a + 1#32).toNat ≠ first) :
    ∃ w, getUInt16 m a = some w ∧
      w.toNat = if first ≤ a.toNat ∧ a.toNat + 1 < first + n then
        (c a.toNat).toNat * 256 + (c (a.toNat + 1)).toNat else 0 := by
  have h1 := norm_toNat h a
  have h2 := last_toNat h
  have h3 := h.nonempty
  have h4 := h.fits
  have h5 := a.isLt
  have h6 : (a + 1#32).toNat = (a.toNat + 1) % 2 ^ 32 := BitVec.toNat_add _ _
  have h7 : (normalize m a + 1#32).toNat = ((normalize m a).toNat + 1) % 2 ^ 32 := BitVec.toNat_add _ _
  rw [h6] at ha
  unfold getUInt16
  dsimp only
  by_cases hin : first ≤ a.toNat ∧ a.toNat + 1 < first + n
  · rw [if_pos hin.1] at h1
    rw [if_neg (by rw [BitVec.lt_def]; omega), elem_in h (i := normalize m a) (by omega),
      elem_in h (i := normalize m a + 1#32) (by omega)]
    refine ⟨_, rfl, ?_⟩
    rw [if_pos hin, word_toNat]
    congr 3
    · congr 1; omega
    · omega
  · refine ⟨0#16, ?_, by rw [if_neg hin]; rfl⟩
    rw [if_pos]
    rw [BitVec.lt_def, h7, h1, h2]
    split <;> omega

/-- **C130** (finding): for the address just before the memory the check wraps around: the code reads
the array at the index 2^32 - 1, which is outside of it. -/
theorem C130_word_before (h : Holds m first n c) (a : U32) (ha : (a + 1#32).toNat = first)
    (hr : m.room < 2 ^ 32) : getUInt16 m a = none := by
  have h1 := norm_toNat h a
  have h2 := last_toNat h
  have h4 := h.fits
  have h3 := h.nonempty
  have h5 := a.isLt
  have h6 : (a + 1#32).toNat = (a.toNat + 1) % 2 ^ 32 := BitVec.toNat_add _ _
  have h7 : (normalize m a + 1#32).toNat = ((normalize m a).toNat + 1) % 2 ^ 32 := BitVec.toNat_add _ _
  have h8 : (normalize m a).toNat = 2 ^ 32 - 1 := by
    rw [h1]
    split <;> omega
  have he : elem m (normalize m a) = none := by
    unfold elem
    rw [if_neg (by omega)]
  unfold getUInt16
  dsimp only
  rw [if_neg (by rw [BitVec.lt_def, h7, h8, h2]; omega), he]

/-- **C130**: `inRange` tells which addresses the memory has, one or from one to another. -/
theorem C130_in_range (h : Holds m first n c) (a b : U32) :
    (inRange m a = true ↔ first ≤ a.toNat ∧ a.toNat < first + n) ∧
    (inRange2 m a b = true ↔ a.toNat ≤ b.toNat ∧
      ∀ x, a.toNat ≤ x → x ≤ b.toNat → first ≤ x ∧ x < first + n) := by
  have h1 := h.start
  have h2 := h.stop
  unfold inRange inRange2
  rw [decide_eq_true_iff, decide_eq_true_iff, BitVec.le_def, BitVec.le_def, BitVec.le_def, BitVec.le_def,
    h1]
  refine ⟨⟨fun h => by omega, fun h => by omega⟩, ⟨fun h => ⟨h.1, fun x _ _ => by omega⟩, fun h => ?_⟩⟩
  have h3 := h.2 a.toNat (Nat.le_refl _) h.1
  have h4 := h.2 b.toNat h.1 (Nat.le_refl _)
  omega

/-- **C130**: at an address of the memory the array access reads the byte there, and a byte written with
it is the only one that changes. -/
theorem C130_array (h : Holds m first n c) (a : U32) (v : Byte)
    (hin : first ≤ a.toNat ∧ a.toNat < first + n) :
    index m a = some (c a.toNat) ∧
    ∃ m', store m a v = some m' ∧ Holds m' first n (fun x => if x = a.toNat then v else c x) := by
  have h1 := norm_toNat h a
  rw [if_pos hin.1] at h1
  have hr := h.room
  constructor
  · unfold index
    rw [elem_in h (by omega), h1, Nat.add_sub_cancel' hin.1]
  · unfold store
    dsimp only
    rw [if_pos (by omega)]
    refine ⟨_, rfl, ⟨h.start, h.size, h.nonempty, h.fits, h.stop, h.room, fun i hi => ?_⟩⟩
    dsimp only
    rw [h1]
    by_cases hc : i = a.toNat - first
    · rw [if_pos hc, if_pos (by omega)]
    · rw [if_neg hc, if_neg (by omega), h.data i hi]

/-- **C130**: moving the RAM gives the same contents at the new addresses. -/
theorem C130_moved (h : Holds m first n c) (new : U32) (hf : new.toNat + n ≤ 2 ^ 32) :
    Holds (setStart m new) new.toNat n (fun a => c (first + (a - new.toNat))) := by
  have h1 := h.size
  have h3 := h.nonempty
  refine ⟨rfl, h1, h3, hf, ?_, h.room, fun i hi => ?_⟩
  · show (new + m.size - 1#32).toNat + 1 = _
    rw [BitVec.toNat_sub, BitVec.toNat_add, h1]
    show (2 ^ 32 - 1 + (new.toNat + n) % 2 ^ 32) % 2 ^ 32 + 1 = _
    omega
  · show m.data i = _
    rw [h.data i hi, Nat.add_sub_cancel_left]

/-! ## The hypotheses are met -/

/-- The EEPROM of the mask 0701 (userEepromMASK0701.h:19), each byte the lower half of its offset. -/
def exEe : Mem := newEeprom 0x3f00#32 3072#32 (fun i => BitVec.ofNat 8 i)

theorem exEe_holds : Holds exEe 0x3f00 3072 (fun a => BitVec.ofNat 8 (a - 0x3f00)) :=
  (C130_created 0x3f00#32 3072#32 0#32 (by decide) (by decide)).1 _

/-- The memories of all device types meet the hypotheses. -/
example (k : Kind) : (∀ data, Holds (newEeprom (BitVec.ofNat 32 k.eeStart) (BitVec.ofNat 32 k.eeSize) data)
      k.eeStart k.eeSize (fun a => data (a - k.eeStart))) ∧
    Holds (newRam (BitVec.ofNat 32 k.ramStart) (BitVec.ofNat 32 k.ramSize) 3#32)
      k.ramStart k.ramSize (fun _ => 0#8) := by
  cases k <;>
    exact ⟨(C130_created _ _ 0#32 (by decide) (by decide)).1,
      (C130_created _ _ 3#32 (by decide) (by decide)).2 (by decide)⟩

example : getUInt8 exEe 0x4aff#32 = some 0xff#8 ∧ getUInt8 exEe 0x4b00#32 = some 0#8 ∧
    getUInt8 exEe 0x3eff#32 = some 0#8 :=
  ⟨C130_byte exEe_holds _, C130_byte exEe_holds _, C130_byte exEe_holds _⟩

example : ∃ w, getUInt16 exEe 0x4012#32 = some w ∧ w.toNat = 0x1213 :=
  C130_word_partial exEe_holds 0x4012#32 (by decide)

example : ∃ w, getUInt16 exEe 0x4aff#32 = some w ∧ w.toNat = 0 :=
  C130_word_partial exEe_holds 0x4aff#32 (by decide)

example : getUInt16 exEe 0x3eff#32 = none := C130_word_before exEe_holds _ (by decide) (by decide)

example : inRange exEe 0x4aff#32 = true ∧ inRange2 exEe 0x4aff#32 0x4b00#32 = false := by
  refine ⟨((C130_in_range exEe_holds 0x4aff#32 0#32).1).2 (by decide), ?_⟩
  rw [Bool.eq_false_iff]
  intro h
  have := (((C130_in_range exEe_holds 0x4aff#32 0x4b00#32).2).1 h).2 0x4b00 (by decide) (by decide)
  omega

example : ∃ m', store exEe 0x3f05#32 0x77#8 = some m' ∧ getUInt8 m' 0x3f05#32 = some 0x77#8 ∧
    getUInt8 m' 0x3f06#32 = some 6#8 := by
  obtain ⟨m', h1, h2⟩ := (C130_array exEe_holds 0x3f05#32 0x77#8 (by decide)).2
  exact ⟨m', h1, C130_byte h2 _, C130_byte h2 _⟩

example : getUInt8 (setStart exEe 0x5000#32) 0x5005#32 = some 5#8 :=
  C130_byte (C130_moved exEe_holds 0x5000#32 (by decide)) _

end Verif.Dev.Region
