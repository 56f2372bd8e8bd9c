import Verif.Flash.IapLemmas
import Verif.Boot.Update

/-! Address arithmetic and frame lemmas for the bootloader model. -/

namespace Verif.Boot
open Verif.Iap

/-- What the linker script and the hardware guarantee: the bootloader starts at address 0 and is not
empty, the flash consists of whole 4 KiB sectors and has at most 64 KiB, there is room for the boot
descriptor and at least one application page. -/
structure Layout (E : Env) : Prop where
  image : 0 < E.imageEnd
  sectors : E.top % 0x1000 = 0
  size : E.top ≤ 0x10000
  room : E.imageEnd + 767 < E.top

/-- First address of the application area in terms of the size of the bootloader image. -/
def appFirst (E : Env) : Nat :=
  if E.imageEnd % 256 = 1 then E.imageEnd + 256 else (E.imageEnd + 255) / 256 * 256 + 256

theorem alignMask (p : Nat) (h : p < 2 ^ 31) :
    ((BitVec.ofNat 32 p + 0xFF#32) &&& 0xFFFFFF00#32).toNat = (p + 255) / 256 * 256 := by
  have : (BitVec.ofNat 32 p + 0xFF#32) &&& 0xFFFFFF00#32
      = ((BitVec.ofNat 32 p + 0xFF#32) >>> 8) <<< 8 := by
    apply BitVec.eq_of_getLsbD_eq
    intro i hi
    simp only [BitVec.getLsbD_and, BitVec.getLsbD_shiftLeft, BitVec.getLsbD_ushiftRight]
    have hm : ∀ i : Fin 32, (0xFFFFFF00#32).getLsbD i.val = decide (8 ≤ i.val) := by decide
    rw [hm ⟨i, hi⟩]
    by_cases h8 : 8 ≤ i
    · have : 8 + (i - 8) = i := by omega
      simp [hi, h8, this, show ¬ i < 8 by omega]
    · simp [hi, h8, show i < 8 by omega]
  rw [this]
  simp only [BitVec.toNat_shiftLeft, BitVec.toNat_ushiftRight, BitVec.toNat_add, BitVec.toNat_ofNat,
    Nat.shiftRight_eq_div_pow, Nat.shiftLeft_eq]
  omega

theorem appFirst_eq {E : Env} (L : Layout E) : (applicationFirstAddress E).toNat = appFirst E := by
  have hs := L.size
  have hr := L.room
  have hp : (BitVec.ofNat 32 E.imageEnd + 0x100#32) = BitVec.ofNat 32 (E.imageEnd + 256) := by
    apply BitVec.eq_of_toNat_eq; simp
  unfold applicationFirstAddress stdAlign
  rw [hp]
  have hm := alignMask (E.imageEnd + 256) (by omega)
  have hn : (BitVec.ofNat 32 (E.imageEnd + 256)).toNat = E.imageEnd + 256 := by
    simp; omega
  have hd : (((BitVec.ofNat 32 (E.imageEnd + 256) + 0xFF#32) &&& 0xFFFFFF00#32)
      - BitVec.ofNat 32 (E.imageEnd + 256)).toNat
      = (E.imageEnd + 256 + 255) / 256 * 256 - (E.imageEnd + 256) := by
    rw [BitVec.toNat_sub, hm, hn]; omega
  dsimp only
  rw [hd]
  unfold appFirst
  by_cases h1 : E.imageEnd % 256 = 1
  · rw [if_pos (by omega), if_pos h1, hn]
  · rw [if_neg (by omega), if_neg h1, hm]; omega

theorem appFirst_ge (E : Env) : E.imageEnd + 256 ≤ appFirst E := by
  unfold appFirst; split <;> omega

theorem appFirst_le (E : Env) : appFirst E ≤ E.imageEnd + 511 := by
  unfold appFirst; split <;> omega

theorem appFirst_aligned {E : Env} (h : E.imageEnd % 256 ≠ 1) : appFirst E % 256 = 0 := by
  unfold appFirst; rw [if_neg h]; omega

theorem descAddr_eq {E : Env} (L : Layout E) :
    (bootDescriptorBlockAddress E).toNat = appFirst E - 256 := by
  unfold bootDescriptorBlockAddress
  have := appFirst_ge E
  have := appFirst_le E
  have := L.size
  have := L.room
  rw [BitVec.toNat_sub, appFirst_eq L]
  simp; omega

theorem flashLast_eq {E : Env} (L : Layout E) : (flashLastAddress E).toNat = E.top - 1 := by
  have := L.size
  unfold flashLastAddress; simp; omega

theorem bootLast_eq {E : Env} (L : Layout E) : (bootLoaderLastAddress E).toNat = E.imageEnd - 1 := by
  have := L.size
  have := L.room
  unfold bootLoaderLastAddress; simp; omega

theorem aligned_iff (p : U32) : isAligned p 0x100#32 = true ↔ p.toNat % 256 = 0 := by
  unfold isAligned
  rw [beq_iff_eq]
  have : (0x100#32 - 1#32) = BitVec.ofNat 32 (2 ^ 8 - 1) := by decide
  rw [this, ← BitVec.toNat_inj, BitVec.toNat_and]
  simp only [BitVec.toNat_ofNat]
  rw [show (2 ^ 8 - 1) % 2 ^ 32 = 2 ^ 8 - 1 by decide, Nat.and_two_pow_sub_one_eq_mod]

theorem alignedSector_iff (p : U32) : isAligned p 0x1000#32 = true ↔ p.toNat % 4096 = 0 := by
  unfold isAligned
  rw [beq_iff_eq]
  have : (0x1000#32 - 1#32) = BitVec.ofNat 32 (2 ^ 12 - 1) := by decide
  rw [this, ← BitVec.toNat_inj, BitVec.toNat_and]
  simp only [BitVec.toNat_ofNat]
  rw [show (2 ^ 12 - 1) % 2 ^ 32 = 2 ^ 12 - 1 by decide, Nat.and_two_pow_sub_one_eq_mod]

/-- Meaning of `addressAllowedToProgram` for application data. The end address wraps at 32 bits. -/
theorem allowed_iff {E : Env} (L : Layout E) (start len : U32) :
    addressAllowedToProgram E start len false = true ↔
      start.toNat % 256 = 0 ∧ len ≠ 0#32 ∧ appFirst E ≤ start.toNat ∧
        (start + len - 1#32).toNat < E.top := by
  have hl := flashLast_eq L
  have ha := appFirst_eq L
  have hr := L.room
  unfold addressAllowedToProgram
  have h1 := aligned_iff start
  by_cases h : start.toNat % 256 = 0
  · have h2 := h1.mpr h
    by_cases h3 : len = 0#32
    · simp [h2, h3]
    · have : (len == 0#32) = false := by simp [h3]
      simp only [h2, this, Bool.not_true, Bool.or_false, Bool.false_eq_true, if_false, Bool.and_eq_true,
        decide_eq_true_eq, GE.ge, BitVec.le_def, hl, ha, h, h3, ne_eq, not_false_eq_true, true_and]
      constructor <;> intro ⟨a, b⟩ <;> exact ⟨a, by omega⟩
  · have h2 : isAligned start 0x100#32 = false := by
      cases hc : isAligned start 0x100#32 with
      | false => rfl
      | true => exact absurd (h1.mp hc) h
    simp [h2, h]

theorem allowedDesc_iff {E : Env} (L : Layout E) (start len : U32) :
    addressAllowedToProgram E start len true = true ↔
      start.toNat % 256 = 0 ∧ len ≠ 0#32 ∧ appFirst E - 256 ≤ start.toNat ∧
        (start + len - 1#32).toNat < appFirst E := by
  have hl := descAddr_eq L
  have ha := appFirst_eq L
  unfold addressAllowedToProgram
  have h1 := aligned_iff start
  by_cases h : start.toNat % 256 = 0
  · have h2 := h1.mpr h
    by_cases h3 : len = 0#32
    · simp [h2, h3]
    · have : (len == 0#32) = false := by simp [h3]
      simp [h2, h3, GE.ge, BitVec.le_def, BitVec.lt_def, hl, ha, h]
  · have h2 : isAligned start 0x100#32 = false := by
      cases hc : isAligned start 0x100#32 with
      | false => rfl
      | true => exact absurd (h1.mp hc) h
    simp [h2, h]

theorem pageAllowed_iff {E : Env} (L : Layout E) (p : Nat) :
    pageAllowedToErase E p = true ↔ (E.imageEnd - 1) / 256 < p ∧ p < E.top / 256 := by
  have hs := L.size; have hr := L.room; have ht := L.sectors
  unfold pageAllowedToErase
  rw [pageOfAddress_small _ (by rw [bootLast_eq L]; omega),
    pageOfAddress_small _ (by rw [flashLast_eq L]; omega), bootLast_eq L, flashLast_eq L]
  simp only [Bool.and_eq_true, decide_eq_true_eq]
  omega

theorem sectorAllowed_iff {E : Env} (L : Layout E) (p : Nat) :
    sectorAllowedToErase E p = true ↔ (E.imageEnd - 1) / 4096 < p ∧ p < E.top / 4096 := by
  have hs := L.size; have hr := L.room; have ht := L.sectors
  unfold sectorAllowedToErase
  rw [sectorOfAddress_small _ (by rw [bootLast_eq L]; omega),
    sectorOfAddress_small _ (by rw [flashLast_eq L]; omega), bootLast_eq L, flashLast_eq L]
  simp only [Bool.and_eq_true, decide_eq_true_eq]
  omega

/-! ## Frame: the first `imageEnd` bytes are never touched -/

/-- The bytes below the end of the bootloader image agree. -/
def Keeps (E : Env) (hw hw' : Hw) : Prop := ∀ a, a < E.imageEnd → hw'.flash a = hw.flash a

theorem Keeps.refl (E : Env) (hw : Hw) : Keeps E hw hw := fun _ _ => rfl
theorem Keeps.trans {E : Env} {a b c : Hw} (h1 : Keeps E a b) (h2 : Keeps E b c) : Keeps E a c :=
  fun x hx => (h2 x hx).trans (h1 x hx)

theorem erasePageRange_keeps {E : Env} (L : Layout E) (hw : Hw) (s e : Nat) :
    Keeps E hw (erasePageRange E hw s e).2 := by
  have := L.image
  intro a ha
  unfold erasePageRange
  split
  · rfl
  · rename_i h
    simp only [Bool.or_eq_true, Bool.not_eq_true', not_or, Bool.not_eq_false] at h
    have := (pageAllowed_iff L s).mp h.1
    exact erasePageRange_out _ _ _ _ _ (by omega)

theorem eraseSectorRange_keeps {E : Env} (L : Layout E) (hw : Hw) (s e : Nat) :
    Keeps E hw (eraseSectorRange E hw s e).2 := by
  have := L.image
  intro a ha
  unfold eraseSectorRange
  split
  · rfl
  · rename_i h
    simp only [Bool.or_eq_true, Bool.not_eq_true', not_or, Bool.not_eq_false] at h
    have := (sectorAllowed_iff L s).mp h.1
    exact eraseSectorRange_out _ _ _ _ _ (by omega)

theorem eraseWholeSectors_keeps {E : Env} (L : Layout E) (hw : Hw) (r : Byte) (s e : Nat) :
    Keeps E hw (eraseWholeSectors E hw r s e).2 := by
  unfold eraseWholeSectors
  split
  · exact eraseSectorRange_keeps L _ _ _
  · exact .refl _ _

theorem eraseTail_keeps {E : Env} (L : Layout E) (hw : Hw) (r : Byte) (a : U32) (p s : Nat) :
    Keeps E hw (eraseTail E hw r a p s).2 := by
  unfold eraseTail
  dsimp only
  split
  · split
    · exact erasePageRange_keeps L _ _ _
    · exact (erasePageRange_keeps L _ _ _).trans (eraseWholeSectors_keeps L _ _ _ _)
  · exact eraseWholeSectors_keeps L _ _ _ _

theorem eraseAddressRange_keeps {E : Env} (L : Layout E) (hw : Hw) (a b : U32) (c : Bool) :
    Keeps E hw (eraseAddressRange E hw a b c).2 := by
  unfold eraseAddressRange
  dsimp only
  split
  · exact .refl _ _
  · split
    · exact erasePageRange_keeps L _ _ _
    · split
      · split
        · exact erasePageRange_keeps L _ _ _
        · exact (erasePageRange_keeps L _ _ _).trans (eraseTail_keeps L _ _ _ _ _)
      · exact eraseTail_keeps L _ _ _ _ _

theorem executeProgramFlash_keeps {E : Env} (L : Layout E) (hw : Hw) (a : U32) (ram : Nat → Byte)
    (n : Nat) (d : Bool) : Keeps E hw (executeProgramFlash E hw a ram n d).2 := by
  have := appFirst_ge E
  intro x hx
  unfold executeProgramFlash
  split
  · rfl
  · rename_i h
    simp only [Bool.not_eq_true', Bool.not_eq_false] at h
    refine program_out _ _ _ _ _ _ ?_
    cases d with
    | false => have := (allowed_iff L _ _).mp h; omega
    | true => have := (allowedDesc_iff L _ _).mp h; omega

theorem programBlocks_keeps {E : Env} (L : Layout E) (ram : Nat → Byte) (bs fuel : Nat) :
    ∀ hw left a pos, Keeps E hw (programBlocks E ram bs fuel hw left a pos).2.1 := by
  induction fuel with
  | zero => intro hw left a pos; exact .refl _ _
  | succ n ih =>
    intro hw left a pos
    unfold programBlocks
    dsimp only
    split
    · split
      · exact executeProgramFlash_keeps L _ _ _ _ _
      · exact (executeProgramFlash_keeps L _ _ _ _ _).trans (ih _ _ _ _)
    · exact .refl _ _

theorem programSizes_keeps {E : Env} (L : Layout E) (ram : Nat → Byte) (sizes : List Nat) :
    ∀ hw left a pos, Keeps E hw (programSizes E ram sizes hw left a pos).2.1 := by
  induction sizes with
  | nil => intro hw left a pos; exact .refl _ _
  | cons bs rest ih =>
    intro hw left a pos
    unfold programSizes
    dsimp only
    split
    · exact ih _ _ _ _
    · split
      · exact programBlocks_keeps L _ _ _ _ _ _ _
      · exact (programBlocks_keeps L _ _ _ _ _ _ _).trans (ih _ _ _ _)

theorem programAll_keeps {E : Env} (L : Layout E) (hw : Hw) (ram : Nat → Byte) (n : Nat) (a : U32) :
    Keeps E hw (programAll E hw ram n a).2 := by
  unfold programAll
  dsimp only
  split
  · exact (programSizes_keeps L _ _ _ _ _ _).trans (executeProgramFlash_keeps L _ _ _ _ _)
  · exact programSizes_keeps L _ _ _ _ _ _

theorem pageCompleted_keeps {E : Env} (L : Layout E) (hw : Hw) (d : Decomp.State) :
    Keeps E hw (Decomp.pageCompletedDoFlash E hw d).2.1 := by
  unfold Decomp.pageCompletedDoFlash
  dsimp only
  split
  · exact .refl _ _
  · exact (erasePageRange_keeps L _ _ _).trans (executeProgramFlash_keeps L _ _ _ _ _)

theorem readUid_flash (E : Iap.Env) (hw : Hw) : (readUidStatus E hw).2.flash = hw.flash :=
  call_zero _ _ _ _

theorem dispatch_keeps {E : Env} (L : Layout E) (I : Info) (s : State) (c : Byte) (data : Nat → Byte)
    (n : Nat) (r : State × Resp) (h : dispatch E I s c data n = some r) : Keeps E s.hw r.1.hw := by
  have hd := appFirst_ge E
  have hda := descAddr_eq L
  have hu : Keeps E s.hw (readUidStatus E.toEnv s.hw).2 := fun a _ => by rw [readUid_flash]
  unfold dispatch at h
  by_cases c0 : c = 0xbf#8
  · rw [if_pos c0] at h
    cases h
    unfold updUnlockDevice
    dsimp only
    split
    · exact .refl _ _
    · split
      · exact hu
      · split
        · exact hu
        · exact hu
  rw [if_neg c0] at h
  by_cases c1 : c = 0xbe#8
  · rw [if_pos c1] at h
    cases h
    unfold updRequestUID
    dsimp only
    split <;> exact hu
  rw [if_neg c1] at h
  by_cases c2 : c = 0xbc#8
  · rw [if_pos c2] at h
    cases h; exact .refl _ _
  rw [if_neg c2] at h
  by_cases c3 : c = 0xef#8
  · rw [if_pos c3] at h
    cases h
    unfold updSendData
    split <;> exact .refl _ _
  rw [if_neg c3] at h
  by_cases c4 : c = 0xee#8
  · rw [if_pos c4] at h
    cases h
    unfold updProgram
    dsimp only
    repeat' split
    all_goals first | exact .refl _ _ | exact programAll_keeps L _ _ _ _
  rw [if_neg c4] at h
  by_cases c5 : c = 0xec#8
  · rw [if_pos c5] at h
    unfold updSendDataToDecompress at h
    split at h
    · cases h; exact .refl _ _
    · rw [Option.map_eq_some_iff] at h
      obtain ⟨d, _, h⟩ := h
      cases h; exact .refl _ _
  rw [if_neg c5] at h
  by_cases c6 : c = 0xeb#8
  · rw [if_pos c6] at h
    cases h
    unfold updProgramDecompressedDataToFlash
    dsimp only
    repeat' split
    all_goals first | exact .refl _ _ | exact pageCompleted_keeps L _ _
  rw [if_neg c6] at h
  by_cases c7 : c = 0xea#8
  · rw [if_pos c7] at h
    cases h; exact eraseAddressRange_keeps L _ _ _ _
  rw [if_neg c7] at h
  by_cases c8 : c = 0xe9#8
  · rw [if_pos c8] at h
    cases h; exact eraseAddressRange_keeps L _ _ _ _
  rw [if_neg c8] at h
  by_cases c9 : c = 0xe7#8
  · rw [if_pos c9] at h
    cases h; exact .refl _ _
  rw [if_neg c9] at h
  by_cases c10 : c = 0xdf#8
  · rw [if_pos c10] at h
    cases h; exact .refl _ _
  rw [if_neg c10] at h
  by_cases c11 : c = 0xed#8
  · rw [if_pos c11] at h
    cases h
    unfold updUpdateBootDescriptorBlock
    dsimp only
    repeat' split
    all_goals first
      | exact .refl _ _
      | exact erasePageRange_keeps L _ _ _
      | exact (erasePageRange_keeps L _ _ _).trans (executeProgramFlash_keeps L _ _ _ _ _)
  rw [if_neg c11] at h
  by_cases c12 : c = 0xba#8
  · rw [if_pos c12] at h
    cases h
    unfold udpRequestBootDescriptionBlock
    dsimp only
    intro a ha
    dsimp only
    split
    · exact writeRange_out (by omega)
    · rfl
  rw [if_neg c12] at h
  by_cases c13 : c = 0xb8#8
  · rw [if_pos c13] at h
    cases h; exact .refl _ _
  rw [if_neg c13] at h
  by_cases c14 : c = 0xe8#8
  · rw [if_pos c14] at h
    cases h; exact .refl _ _
  rw [if_neg c14] at h
  cases h; exact .refl _ _

theorem handle_keeps {E : Env} (L : Layout E) (I : Info) (s : State) (data : Nat → Byte)
    (n : U32) (r : State × Resp) (h : handle E I s data n = some r) : Keeps E s.hw r.1.hw := by
  unfold handle at h
  dsimp only at h
  split at h
  · cases h; exact .refl _ _
  split at h
  · cases h; exact .refl _ _
  split at h
  · cases h; exact .refl _ _
  split at h
  · cases h; exact .refl _ _
  exact dispatch_keeps L I s _ _ _ r h

theorem run_cons {E : Env} {I : Info} {s : State} {m : List Byte} {ms : List (List Byte)}
    {r : State × List Resp} (h : run E I s (m :: ms) = some r) :
    ∃ r1 r2, handle E I s (fun i => m.getD i 0#8) (BitVec.ofNat 32 m.length) = some r1 ∧
      run E I r1.1 ms = some r2 ∧ r = (r2.1, r1.2 :: r2.2) := by
  unfold run at h
  rw [Option.bind_eq_some_iff] at h
  obtain ⟨r1, h1, h2⟩ := h
  rw [Option.map_eq_some_iff] at h2
  obtain ⟨r2, h3, h4⟩ := h2
  exact ⟨r1, r2, h1, h3, h4.symm⟩

end Verif.Boot
