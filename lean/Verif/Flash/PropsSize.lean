import Verif.Flash.Size
import Verif.Eeprom.Model

/-!
# C113 — the size of the flash, and the place of the EEPROM image
-/

namespace Verif.Iap

/-! ## Specification -/

/-- No call of the ROM fails with the status that means "there is no such sector". Other failures may happen. -/
def NoFalseEnd (E : Env) : Prop := ∀ k, E.fault k ≠ some 6

/-! ## Lemmas -/

theorem blankCheckSector_status (E : Env) (h : NoFalseEnd E) (hw : Hw) (s : Nat) :
    (blankCheckSector E hw s).1 = 7 ↔ E.top / 0x1000 ≤ s := by
  unfold blankCheckSector call sectorArgs
  by_cases hs : s < E.top / 0x1000
  · simp only [Nat.le_refl, hs, and_self, if_true, ne_eq, not_true_eq_false, if_false]
    have hb : blankCheck hw.flash (s * 0x1000) 0x1000 ≠ 7 := by unfold blankCheck; split <;> decide
    have hn : ¬ E.top / 0x1000 ≤ s := by omega
    by_cases hz : blankCheck hw.flash (s * 0x1000) 0x1000 = 0
    · simp only [hz, not_true_eq_false, if_false]
      have hk := h hw.calls
      cases hf : E.fault hw.calls with
      | none => simp [hn]
      | some n =>
        rw [hf] at hk
        have hn6 : n ≠ 6 := fun e => hk (by rw [e])
        constructor
        · intro (e : n + 1 = 7); omega
        · intro e; exact absurd e hn
    · simp only [hz, not_false_eq_true, if_true]
      exact ⟨fun e => absurd e hb, fun e => absurd e hn⟩
  · simp [hs]; omega

theorem blankCheckSector_flash (E : Env) (hw : Hw) (s : Nat) : (blankCheckSector E hw s).2.flash = hw.flash := by
  unfold blankCheckSector call
  generalize (if sectorArgs E s s ≠ 0 then sectorArgs E s s else blankCheck hw.flash (s * 0x1000) 0x1000) = q
  by_cases hq : q ≠ 0
  · rw [if_pos hq]
  · rw [if_neg hq]
    cases E.fault hw.calls <;> (funext a; simp [writeRange])

theorem loop_flash (E : Env) : ∀ n s hw, (flashSizeLoop E n s hw).2.flash = hw.flash := by
  intro n
  induction n with
  | zero => intro s hw; rfl
  | succ n ih =>
    intro s hw
    unfold flashSizeLoop
    by_cases h1 : s < 0x80000 / 0x1000
    · rw [if_pos h1]
      by_cases h2 : (blankCheckSector E hw s).1 = 7
      · rw [if_pos h2]; exact blankCheckSector_flash E hw s
      · rw [if_neg h2, ih]; exact blankCheckSector_flash E hw s
    · rw [if_neg h1]

theorem loop_sector (E : Env) (h : NoFalseEnd E) : ∀ n j hw, 64 ≤ n + j → 1 ≤ j → j ≤ 64 →
    (flashSizeLoop E n (2 * j) hw).1 = 2 * min 64 (max j ((E.top / 0x1000 + 1) / 2)) := by
  intro n
  induction n with
  | zero =>
    intro j hw hj _ h64
    have : j = 64 := by omega
    subst this
    show 128 = _
    omega
  | succ n ih =>
    intro j hw hj h1 h64
    unfold flashSizeLoop
    by_cases h2 : 2 * j < 0x80000 / 0x1000
    · rw [if_pos h2]
      by_cases h3 : (blankCheckSector E hw (2 * j)).1 = 7
      · rw [if_pos h3]
        have := (blankCheckSector_status E h hw _).1 h3
        show 2 * j = _
        omega
      · rw [if_neg h3]
        have := mt (blankCheckSector_status E h hw _).2 h3
        rw [show 2 * j + 0x2000 / 0x1000 = 2 * (j + 1) by omega, ih (j + 1) _ (by omega) (by omega) (by omega)]
        omega
    · rw [if_neg h2]
      show 2 * j = _
      omega

/-! ## Theorems -/

/-- **C113.** The first call: the smallest multiple of 8 KB that is not less than the flash has in whole sectors, at least 8 KB
and at most 512 KB; the flash is not changed. For flashes of a multiple of 8 KB from 8 to 512 KB it is the size. -/
theorem C113_flash_size_partial (E : Env) (h : NoFalseEnd E) (hw : Hw) :
    (flashSize E hw 0).1 = 0x2000 * min 64 (max 1 ((E.top / 0x1000 + 1) / 2)) ∧
    (∀ k, 1 ≤ k → k ≤ 64 → E.top = 0x2000 * k → (flashSize E hw 0).1 = E.top) := by
  have h1 : (flashSize E hw 0).1 = 0x2000 * min 64 (max 1 ((E.top / 0x1000 + 1) / 2)) := by
    show (flashSizeLoop E 64 (2 * 1) hw).1 * 0x1000 = _
    rw [loop_sector E h 64 1 hw (by omega) (by omega) (by omega)]
    omega
  refine ⟨h1, fun k hk1 hk2 hk => ?_⟩
  rw [h1, hk]
  omega

/-- **C113.** Asking for the size never changes the flash, whatever the ROM does, and later calls give the same answer without
calling the ROM. -/
theorem C113_harmless (E : Env) (hw : Hw) (c : Nat) :
    (flashSize E hw c).2.flash = hw.flash ∧
    flashSize E (flashSize E hw c).2 (flashSize E hw c).1 = ((flashSize E hw c).1, (flashSize E hw c).2) := by
  constructor
  · unfold flashSize
    by_cases hc : c ≠ 0
    · rw [if_pos hc]
    · rw [if_neg hc]; exact loop_flash E _ _ _
  · have hpos : ∀ n s hw, s ≠ 0 → (flashSizeLoop E n s hw).1 ≠ 0 := by
      intro n
      induction n with
      | zero => intro s hw hs; exact hs
      | succ n ih =>
        intro s hw hs
        unfold flashSizeLoop
        by_cases h1 : s < 0x80000 / 0x1000
        · rw [if_pos h1]
          by_cases h2 : (blankCheckSector E hw s).1 = 7
          · rw [if_pos h2]; exact hs
          · rw [if_neg h2]; exact ih _ _ (by omega)
        · rw [if_neg h1]; exact hs
    have hne : (flashSize E hw c).1 ≠ 0 := by
      unfold flashSize
      by_cases hc : c ≠ 0
      · rw [if_pos hc]; exact hc
      · rw [if_neg hc]
        have := hpos 64 (0x2000 / 0x1000) hw (by decide)
        show _ * 0x1000 ≠ 0
        omega
    generalize flashSize E hw c = r at *
    unfold flashSize
    rw [if_pos hne]

/-- **C113.** For flashes of a multiple of 8 KB the sector of the EEPROM image is the last one of the flash: the address the
model of the EEPROM uses (`Eeprom.sectorAddr`), and a sector the ROM accepts. -/
theorem C113_eeprom_sector_partial (E : Env) (h : NoFalseEnd E) (hw : Hw) (k : Nat) (hk : 1 ≤ k ∧ k ≤ 64) (ht : E.top = 0x2000 * k) :
    (flashSize E hw 0).1 - 0x1000 = Eeprom.sectorAddr E ∧ Eeprom.sectorAddr E + 0x1000 = E.top ∧
    sectorArgs E ((flashSize E hw 0).1 / 0x1000 - 1) ((flashSize E hw 0).1 / 0x1000 - 1) = 0 := by
  have e := (C113_flash_size_partial E h hw).2 k hk.1 hk.2 ht
  rw [e]
  refine ⟨rfl, ?_, ?_⟩
  · unfold Eeprom.sectorAddr; omega
  · unfold sectorArgs
    rw [if_pos ⟨Nat.le_refl _, by omega⟩]

/-- **C113 (violated part).** A flash with an odd number of sectors is taken for one sector larger: the sector for the EEPROM
image does not exist, the ROM refuses it. -/
theorem C113_odd_sectors (E : Env) (h : NoFalseEnd E) (hw : Hw) (k : Nat) (hk : k < 64) (ht : E.top = 0x2000 * k + 0x1000) :
    (flashSize E hw 0).1 = E.top + 0x1000 ∧
    sectorArgs E ((flashSize E hw 0).1 / 0x1000 - 1) ((flashSize E hw 0).1 / 0x1000 - 1) = 7 := by
  have e := (C113_flash_size_partial E h hw).1
  have e2 : (flashSize E hw 0).1 = E.top + 0x1000 := by rw [e, ht]; omega
  rw [e2]
  refine ⟨rfl, ?_⟩
  unfold sectorArgs
  rw [if_neg]
  rintro ⟨-, h2⟩
  omega

/-- **C113 (violated part).** If a call fails with the status for a missing sector although the sector exists, the flash is
taken for smaller, for good: the EEPROM image is then looked for and saved in the middle of the flash. -/
theorem C113_false_end (E : Env) (hw : Hw) (ht : 0x3000 ≤ E.top) (hb : blankCheck hw.flash 0x2000 0x1000 = 0)
    (hf : E.fault hw.calls = some 6) : (flashSize E hw 0).1 = 0x2000 := by
  have hs : (blankCheckSector E hw 2).1 = 7 := by
    unfold blankCheckSector call sectorArgs
    have h2 : 2 < E.top / 0x1000 := by omega
    simp only [Nat.le_refl, h2, and_self, if_true, ne_eq, not_true_eq_false, if_false]
    rw [show 2 * 0x1000 = 0x2000 from rfl, hb]
    simp [hf]
  have : (flashSizeLoop E 64 2 hw).1 = 2 := by
    unfold flashSizeLoop
    rw [if_pos (by decide), if_pos hs]
  show (flashSizeLoop E 64 2 hw).1 * 0x1000 = _
  rw [this]

/-! ## Concrete cases -/

/-- 64 KB. -/
def chip64 : Env := ⟨0x10000, fun _ => none, fun _ _ => 0#8⟩

example : NoFalseEnd chip64 ∧ chip64.top = 0x2000 * 8 := ⟨fun k => by simp [chip64], rfl⟩

/-- `C113_flash_size_partial` and `C113_eeprom_sector_partial` applied. -/
example : (flashSize chip64 ⟨fun _ => 0#8, 0⟩ 0).1 = 0x10000 :=
  (C113_flash_size_partial chip64 (fun k => by simp [chip64]) _).2 8 (by decide) (by decide) rfl

/-- `C113_odd_sectors` applied: 12 KB. -/
example : (flashSize ⟨0x3000, fun _ => none, fun _ _ => 0#8⟩ ⟨fun _ => 0xff#8, 0⟩ 0).1 = 0x4000 :=
  (C113_odd_sectors _ (fun k => by simp) _ 1 (by decide) rfl).1

end Verif.Iap
