import Verif.Dev.Props26

/-!
# C129: the hardware type the program sets

Models `BCU2::setHardwareType` (bcu2.cpp), which the application calls to tell tools what kind of
device it is; the classes for the masks 0701, 0705 and System B inherit it.
-/

namespace Verif.Dev

open Verif.Knx

/-- `UserEepromBCU2::orderSize`, userEepromBCU2.h:50. -/
def orderSize : Nat := 10

/-- `orderOffset`, userEepromBCU2.h:36, where `order()` points (userEepromBCU2.h:63). -/
def orderOff : Nat := 0x390

/-- `BCU2::setHardwareType`, bcu2.cpp:159-166: the caller's buffer `hw` of `size` bytes, cut off at the
size of the field, is copied into the EEPROM's array.  The EEPROM is not marked as modified. -/
def setHardwareType (d : Dev) (hw : Nat → Byte) (size : Nat) : Dev :=
  let size := if orderSize < size then orderSize else size
  { d with ee := blit d.ee orderOff hw 0 size }

variable {W : World}

/-! ## Helper lemmas -/

theorem setHw_ee (d : Dev) (hw : Nat → Byte) (size i : Nat) :
    (setHardwareType d hw size).ee i =
      if 0x390 ≤ i ∧ i < 0x390 + size ∧ i < 0x39A then hw (i - 0x390) else d.ee i := by
  show blit d.ee orderOff hw 0 (if orderSize < size then orderSize else size) i = _
  unfold blit orderOff orderSize
  by_cases h : 0x390 ≤ i ∧ i < 0x390 + size ∧ i < 0x39A
  · rw [if_pos h, if_pos (by split <;> omega), Nat.zero_add]
  · rw [if_neg h, if_neg (by split <;> omega)]

theorem blit_same (dst : Nat → Byte) (a : Nat) {s s' : Nat → Byte} {o n : Nat}
    (h : ∀ i, o ≤ i → i < o + n → s i = s' i) : blit dst a s o n = blit dst a s' o n := by
  funext i
  unfold blit
  split
  · exact h _ (by omega) (by omega)
  · rfl

theorem revBlit_same (dst : Nat → Byte) (a : Nat) {s s' : Nat → Byte} {o n : Nat}
    (h : ∀ i, o ≤ i → i < o + n → s i = s' i) : revBlit dst a s o n = revBlit dst a s' o n := by
  funext i
  unfold revBlit
  split
  · exact h _ (by omega) (by omega)
  · rfl

/-- The other properties lie elsewhere. -/
theorem elsewhere : ∀ obj, obj < 6 → ∀ p ∈ propTab obj, (obj = 0 ∧ p.id = 78) ∨ p.area ≠ .ee ∨
    p.offset + p.size ≤ 0x390 ∨ 0x39A ≤ p.offset := by decide

theorem areaBytes_same (d : Dev) (hw : Nat → Byte) (size : Nat) (p : PropDef)
    (h : p.area ≠ .ee ∨ p.offset + p.size ≤ 0x390 ∨ 0x39A ≤ p.offset) :
    ∀ i, p.offset ≤ i → i < p.offset + p.size →
      areaBytes (setHardwareType d hw size) p i = areaBytes d p i := by
  intro i h1 h2
  unfold areaBytes
  cases ha : p.area with
  | ram => rfl
  | own => rfl
  | ee =>
    dsimp only
    rw [setHw_ee, if_neg]
    rcases h with h | h
    · exact absurd ha h
    · omega

theorem propRead_same (d : Dev) (hw : Nat → Byte) (size obj pid : Nat) (sb : Buf)
    (h : ¬ (obj = 0 ∧ pid = 78)) :
    (propRead W (setHardwareType d hw size) obj pid 1 1 sb).2 = (propRead W d obj pid 1 1 sb).2 := by
  unfold propRead
  cases hp : propertyDef obj pid with
  | none => rfl
  | some p =>
    have hid : p.id = pid := eq_of_beq (List.find?_some (p := fun p : PropDef => p.id == pid) hp)
    have hm : p ∈ propTab obj := List.mem_of_find?_eq_some hp
    have hobj : obj < 6 := by
      refine Decidable.byContradiction (fun hc => ?_)
      have : propTab obj = [] := by
        unfold propTab
        split <;> first | omega | rfl
      rw [this] at hm
      cases hm
    have hs : p.area ≠ .ee ∨ p.offset + p.size ≤ 0x390 ∨ 0x39A ≤ p.offset := by
      rcases elsewhere obj hobj p hm with h' | h'
      · exact absurd ⟨h'.1, hid ▸ h'.2⟩ h
      · exact h'
    have ho : ((p.offset : Int) + (((1 : Nat) : Int) - 1) * p.size) = (p.offset : Int) := by simp
    have hb := areaBytes_same d hw size p hs
    dsimp only
    rw [ho, Nat.one_mul, Int.toNat_natCast]
    rw [revBlit_same (upd (upd sb 12 0#8) 13 0#8) 14 hb, revBlit_same sb 12 hb, blit_same sb 12 hb]
    simp only [apply_ite Prod.snd]

/-! ## The property -/

/-- **C129**: setting the hardware type changes at most the ten bytes of that field: they become the
first bytes of the caller's buffer, as many as it has; everything else in the device stays. -/
theorem C129_stored (d : Dev) (hw : Nat → Byte) (size : Nat) :
    (∀ i, i < size → i < 10 → (setHardwareType d hw size).ee (0x390 + i) = hw i) ∧
    (∀ i, (∀ j, j < size → j < 10 → i ≠ 0x390 + j) → (setHardwareType d hw size).ee i = d.ee i) ∧
    { setHardwareType d hw size with ee := d.ee } = d := by
  refine ⟨fun i h1 h2 => ?_, fun i h => ?_, rfl⟩
  · rw [setHw_ee, if_pos (by omega), Nat.add_sub_cancel_left]
  · rw [setHw_ee, if_neg]
    intro hc
    exact h (i - 0x390) (by omega) (by omega) (by omega)

/-- **C129**: the write stays inside the memory of every device that has the function, whatever size
the caller gives. -/
theorem C129_inside (hk : W.kind ≠ .bcu1) (d : Dev) (hw : Nat → Byte) (size i : Nat)
    (h : (setHardwareType d hw size).ee i ≠ d.ee i) : i < W.kind.eeSize := by
  rw [setHw_ee] at h
  split at h
  · cases hK : W.kind
    · exact absurd hK hk
    all_goals (unfold Kind.eeSize; dsimp only; omega)
  · exact absurd rfl h

/-- **C129**: a tool that reads the hardware type (object 0, property 78) afterwards is answered with
the first six bytes set, in the order of the caller's buffer; if the buffer was shorter, what was there
before follows. -/
theorem C129_read (hk : W.kind ≠ .bcu1) (d : Dev) (hw : Nat → Byte) (size : Nat) (t : Buf) (l : Nat)
    (sb : Buf) (hr : PropReadRequest t 0 78 1 1) :
    PropResponse (processApci W (setHardwareType d hw size) t l sb).2.1 0 78 1 1
      ((List.range 6).map (fun i => if i < size then hw i else d.ee (0x390 + i))) := by
  obtain ⟨_, _, h3⟩ := start_eq hr (by decide)
  have hq : ((0, 78, ⟨true, 0x390, 6⟩) : Nat × Nat × Place) ∈ places := by decide
  have hroom : (⟨true, 0x390, 6⟩ : Place).first 1 + 1 * 6 ≤ memSize W ⟨true, 0x390, 6⟩ := by
    show 0x396 ≤ W.kind.eeSize
    cases hK : W.kind
    · exact absurd hK hk
    all_goals decide
  rw [propRead_apply hk _ l sb hr.apci, hr.obj, hr.pid, hr.count, h3,
    propRead_eq hq (by decide) hroom (by decide)]
  refine response_build hr sb _ _ (by decide) (fun j hj => ?_) _ (by simp) (fun i hi => ?_)
  · rw [if_neg (by decide)]
    unfold blit
    rw [if_neg (by omega)]
  · have hi' : i < 6 := hi
    rw [if_neg (by decide)]
    unfold blit
    rw [if_pos (by omega)]
    show (setHardwareType d hw size).ee (0x390 + (12 + i - 12)) = _
    rw [setHw_ee]
    have e : ((List.range 6).map (fun i => if i < size then hw i else d.ee (0x390 + i))).getD i 0#8 =
        if i < size then hw i else d.ee (0x390 + i) := by
      rw [List.getD_eq_getElem?_getD, List.getElem?_map, List.getElem?_range hi']
      rfl
    rw [e]
    by_cases hs : i < size
    · rw [if_pos hs, if_pos (by omega), Nat.add_sub_cancel_left, Nat.add_sub_cancel_left]
    · rw [if_neg hs, if_neg (by omega), Nat.add_sub_cancel_left]

/-- **C129**: what a tool is answered when it reads any other property stays the same. -/
theorem C129_others (hk : W.kind ≠ .bcu1) (d : Dev) (hw : Nat → Byte) (size obj pid : Nat) (t : Buf)
    (l : Nat) (sb : Buf) (hr : PropReadRequest t obj pid 1 1) (h : ¬ (obj = 0 ∧ pid = 78)) :
    (processApci W (setHardwareType d hw size) t l sb).2 = (processApci W d t l sb).2 := by
  obtain ⟨_, _, h3⟩ := start_eq hr (by decide)
  rw [propRead_apply hk _ l sb hr.apci, propRead_apply hk _ l sb hr.apci, hr.obj, hr.pid, hr.count, h3]
  dsimp only
  rw [propRead_same d hw size obj pid _ h]

/-- **C129** (finding): a tool that writes back what it has read stores the bytes the other way round:
the value the program set is then read in reverse order. -/
theorem C129_written_back (hk : W.kind ≠ .bcu1) (d : Dev) (hw : Nat → Byte) (size : Nat) (h6 : 6 ≤ size)
    (t t' : Buf) (l l' : Nat) (sb sb' : Buf) (hr : PropWriteRequest t 0 78 1 1)
    (hd : ∀ i, i < 6 → t (12 + i) = hw i) (hr' : PropReadRequest t' 0 78 1 1) :
    PropResponse (processApci W (setHardwareType d hw size) t' l' sb').2.1
      0 78 1 1 [hw 0, hw 1, hw 2, hw 3, hw 4, hw 5] ∧
    PropResponse (processApci W (processApci W (setHardwareType d hw size) t l sb).1 t' l' sb').2.1
      0 78 1 1 [hw 5, hw 4, hw 3, hw 2, hw 1, hw 0] := by
  have hroom : (⟨true, 0x390, 6⟩ : Place).first 1 + 1 * 6 ≤ memSize W ⟨true, 0x390, 6⟩ := by
    show 0x396 ≤ W.kind.eeSize
    cases hK : W.kind
    · exact absurd hK hk
    all_goals decide
  have h := C26_generic_reversed_partial hk (setHardwareType d hw size) t t' l l' sb sb' 0 78 1 1
    ⟨true, 0x390, 6⟩ (by decide)
    (fun h => h.elim (fun h => absurd h.2 (by decide)) (fun h => absurd h.2 (by decide)))
    hr hr' (by decide) hroom (by decide)
  have e : ((List.range (1 * 6)).map (fun i => t (12 + i))).reverse =
      [hw 5, hw 4, hw 3, hw 2, hw 1, hw 0] := by
    show [t 17, t 16, t 15, t 14, t 13, t 12] = _
    rw [← hd 0 (by decide), ← hd 1 (by decide), ← hd 2 (by decide), ← hd 3 (by decide),
      ← hd 4 (by decide), ← hd 5 (by decide)]
  have e' : ((List.range 6).map (fun i => if i < size then hw i else d.ee (0x390 + i))) =
      [hw 0, hw 1, hw 2, hw 3, hw 4, hw 5] := by
    have h1 : ∀ i, i < 6 → (if i < size then hw i else d.ee (0x390 + i)) = hw i :=
      fun i hi => if_pos (by omega)
    rw [List.map_congr_left (fun i hi => h1 i (List.mem_range.1 hi))]
    rfl
  refine ⟨e' ▸ C129_read hk d hw size t' l' sb' hr', ?_⟩
  rw [← e]
  exact h

/-! ## The hypotheses are met -/

/-- A hardware type of twelve bytes, two too many. -/
def exHw : Nat → Byte := fun i => BitVec.ofNat 8 (i + 1)

example : PropResponse (processApci exWorld (setHardwareType exDev exHw 12) exRead78 12 exSb).2.1 0 78 1 1
    [1#8, 2#8, 3#8, 4#8, 5#8, 6#8] :=
  C129_read (W := exWorld) (by decide) exDev exHw 12 exRead78 12 exSb
    ⟨by decide, by decide, by decide, by decide, by decide⟩

/-- A short one: the rest is what the EEPROM held. -/
example : PropResponse (processApci exWorld (setHardwareType exDev exHw 2) exRead78 12 exSb).2.1 0 78 1 1
    [1#8, 2#8, 0x92#8, 0x93#8, 0x94#8, 0x95#8] :=
  C129_read (W := exWorld) (by decide) exDev exHw 2 exRead78 12 exSb
    ⟨by decide, by decide, by decide, by decide, by decide⟩

example : (setHardwareType exDev exHw 12).ee 0x399 = 10#8 ∧
    (setHardwareType exDev exHw 12).ee 0x39A = exDev.ee 0x39A :=
  ⟨(C129_stored exDev exHw 12).1 9 (by decide) (by decide),
   (C129_stored exDev exHw 12).2.1 0x39A (fun j _ h => by omega)⟩

example : (0x399 : Nat) < exWorld.kind.eeSize :=
  C129_inside (W := exWorld) (by decide) exDev exHw 12 0x399 (by decide)

example : (processApci exWorld (setHardwareType exDev exHw 12) exReadSerial 12 exSb).2 =
    (processApci exWorld exDev exReadSerial 12 exSb).2 :=
  C129_others (W := exWorld) (by decide) exDev exHw 12 0 11 exReadSerial 12 exSb
    ⟨by decide, by decide, by decide, by decide, by decide⟩ (by decide)

example : PropResponse (processApci exWorld (processApci exWorld (setHardwareType exDev exHw 12)
    exWrite78 18 exSb).1 exRead78 12 exSb).2.1 0 78 1 1 [6#8, 5#8, 4#8, 3#8, 2#8, 1#8] :=
  (C129_written_back (W := exWorld) (by decide) exDev exHw 12 (by decide) exWrite78 exRead78 18 12 exSb exSb
    ⟨by decide, by decide, by decide, by decide, by decide⟩ (by decide)
    ⟨by decide, by decide, by decide, by decide, by decide⟩).2

end Verif.Dev
