import Verif.Flash.Iap

/-! Frame and success lemmas for the IAP layer. -/

namespace Verif.Iap

theorem writeRange_out {f g : Nat → Byte} {lo hi a : Nat} (h : ¬ (lo ≤ a ∧ a < hi)) :
    writeRange f g lo hi a = f a := if_neg h

theorem writeRange_in {f g : Nat → Byte} {lo hi a : Nat} (h : lo ≤ a ∧ a < hi) :
    writeRange f g lo hi a = g a := if_pos h

theorem writeRange_zero (f g : Nat → Byte) : writeRange f g 0 0 = f := by
  funext a; exact writeRange_out (by omega)

theorem call_out (E : Env) (hw : Hw) (st lo hi : Nat) (new : Nat → Byte) (a : Nat)
    (h : ¬ (lo ≤ a ∧ a < hi)) : (call E hw st lo hi new).2.flash a = hw.flash a := by
  unfold call
  split
  · rfl
  · split
    · exact writeRange_out h
    · exact writeRange_out h

theorem call_zero (E : Env) (hw : Hw) (st : Nat) (new : Nat → Byte) :
    (call E hw st 0 0 new).2.flash = hw.flash := by
  funext a; exact call_out E hw st 0 0 new a (by omega)

theorem call_bad (E : Env) (hw : Hw) (st lo hi : Nat) (new : Nat → Byte) (h : st ≠ 0) :
    (call E hw st lo hi new).2.flash = hw.flash ∧ (call E hw st lo hi new).1 ≠ 0 := by
  unfold call; simp [h]

theorem call_ok (E : Env) (hw : Hw) (st lo hi : Nat) (new : Nat → Byte)
    (h : (call E hw st lo hi new).1 = 0) :
    st = 0 ∧ (call E hw st lo hi new).2.flash = writeRange hw.flash new lo hi := by
  unfold call at h ⊢
  split
  · rename_i h0; rw [if_pos h0] at h; exact absurd h h0
  · rename_i h0; rw [if_neg h0] at h
    cases hf : E.fault hw.calls with
    | some n => rw [hf] at h; simp at h
    | none => exact ⟨by omega, rfl⟩

theorem call_noFault (E : Env) (hE : ∀ k, E.fault k = none) (hw : Hw) (lo hi : Nat) (new : Nat → Byte) :
    (call E hw 0 lo hi new).1 = 0 ∧ (call E hw 0 lo hi new).2.flash = writeRange hw.flash new lo hi := by
  unfold call; simp [hE]

theorem prepare_flash (E : Env) (hw : Hw) (s e : Nat) :
    (prepareSectorRange E hw s e).2.flash = hw.flash := call_zero _ _ _ _

theorem prepare_ok (E : Env) (hE : ∀ k, E.fault k = none) (hw : Hw) (s e : Nat)
    (h : s ≤ e ∧ e < E.top / 0x1000) : (prepareSectorRange E hw s e).1 = 0 := by
  unfold prepareSectorRange sectorArgs; rw [if_pos h]; exact (call_noFault E hE _ _ _ _).1

theorem sdiv_small (a b : U32) (ha : a.toNat < 2 ^ 31) (hb : b.toNat < 2 ^ 31) :
    (a.sdiv b).toNat = a.toNat / b.toNat := by
  have h1 : a.msb = false := by rw [BitVec.msb_eq_decide]; simp; omega
  have h2 : b.msb = false := by rw [BitVec.msb_eq_decide]; simp; omega
  rw [BitVec.sdiv_eq, h1, h2]
  simp

theorem sectorOfAddress_small (a : U32) (h : a.toNat < 2 ^ 31) : sectorOfAddress a = a.toNat / 4096 := by
  unfold sectorOfAddress; rw [sdiv_small _ _ h (by decide)]; rfl

theorem pageOfAddress_small (a : U32) (h : a.toNat < 2 ^ 31) : pageOfAddress a = a.toNat / 256 := by
  unfold pageOfAddress; rw [sdiv_small _ _ h (by decide)]; rfl

/-! ## erase pages -/

theorem erasePageRange_out (E : Env) (hw : Hw) (s e a : Nat) (h : ¬ (s * 256 ≤ a ∧ a < (e + 1) * 256)) :
    (erasePageRange E hw s e).2.flash a = hw.flash a := by
  unfold erasePageRange
  dsimp only
  split
  · rw [prepare_flash]
  · rw [call_out _ _ _ _ _ _ _ h, prepare_flash]

theorem erasePageRange_bad (E : Env) (hw : Hw) (s e : Nat) (h : ¬ (s ≤ e ∧ e < E.top / 256)) :
    (erasePageRange E hw s e).2.flash = hw.flash := by
  unfold erasePageRange
  dsimp only
  split
  · rw [prepare_flash]
  · rw [(call_bad _ _ _ _ _ _ (by simp [pageArgs, h])).1, prepare_flash]

theorem erasePageRange_ok (E : Env) (hw : Hw) (s e : Nat) (h : (erasePageRange E hw s e).1 = 0) :
    s ≤ e ∧ e < E.top / 256 ∧
    (erasePageRange E hw s e).2.flash = writeRange hw.flash (fun _ => 0xFF#8) (s * 256) ((e + 1) * 256) := by
  unfold erasePageRange at h ⊢
  dsimp only at h ⊢
  split at h
  · contradiction
  · rename_i h0
    rw [if_neg h0]
    have := call_ok _ _ _ _ _ _ h
    refine ⟨?_, ?_, ?_⟩
    · by_cases hc : s ≤ e ∧ e < E.top / 256
      · exact hc.1
      · simp [pageArgs, hc] at this
    · by_cases hc : s ≤ e ∧ e < E.top / 256
      · exact hc.2
      · simp [pageArgs, hc] at this
    · rw [this.2, prepare_flash]

theorem erasePageRange_noFault (E : Env) (hE : ∀ k, E.fault k = none) (htop : E.top % 0x1000 = 0)
    (hw : Hw) (s e : Nat) (h : s ≤ e) (he : e < E.top / 256) : (erasePageRange E hw s e).1 = 0 := by
  unfold erasePageRange
  dsimp only
  rw [prepare_ok E hE]
  · simp [pageArgs, h, he, (call_noFault E hE _ _ _ _).1]
  · refine ⟨Nat.div_le_div_right h, ?_⟩
    omega

/-! ## erase sectors -/

theorem eraseSectorRange_out (E : Env) (hw : Hw) (s e a : Nat)
    (h : ¬ (s * 0x1000 ≤ a ∧ a < (e + 1) * 0x1000)) :
    (eraseSectorRange E hw s e).2.flash a = hw.flash a := by
  unfold eraseSectorRange
  dsimp only
  split
  · rw [prepare_flash]
  · split
    · rw [call_out _ _ _ _ _ _ _ h, prepare_flash]
    · rw [call_zero, call_out _ _ _ _ _ _ _ h, prepare_flash]

theorem eraseSectorRange_bad (E : Env) (hw : Hw) (s e : Nat) (h : ¬ (s ≤ e ∧ e < E.top / 0x1000)) :
    (eraseSectorRange E hw s e).2.flash = hw.flash := by
  unfold eraseSectorRange
  dsimp only
  split
  · rw [prepare_flash]
  · have := call_bad E (prepareSectorRange E hw s e).2 (sectorArgs E s e)
      (s * 0x1000) ((e + 1) * 0x1000) (fun _ => 0xFF#8) (by simp [sectorArgs, h])
    rw [if_pos this.2, this.1, prepare_flash]

theorem eraseSectorRange_ok (E : Env) (hw : Hw) (s e : Nat) (h : (eraseSectorRange E hw s e).1 = 0) :
    (eraseSectorRange E hw s e).2.flash
      = writeRange hw.flash (fun _ => 0xFF#8) (s * 0x1000) ((e + 1) * 0x1000) := by
  unfold eraseSectorRange at h ⊢
  dsimp only at h ⊢
  split at h
  · contradiction
  · rename_i h0
    rw [if_neg h0]
    split at h
    · contradiction
    · rename_i h1
      rw [if_neg h1, call_zero]
      have := call_ok E (prepareSectorRange E hw s e).2 (sectorArgs E s e)
        (s * 0x1000) ((e + 1) * 0x1000) (fun _ => 0xFF#8) (by simpa using h1)
      rw [this.2, prepare_flash]

theorem eraseSectorRange_noFault (E : Env) (hE : ∀ k, E.fault k = none) (hw : Hw) (s e : Nat)
    (h : s ≤ e) (he : e < E.top / 0x1000) :
    (eraseSectorRange E hw s e).1 = 0 ∧ (eraseSectorRange E hw s e).2.flash =
      writeRange hw.flash (fun _ => 0xFF#8) (s * 0x1000) ((e + 1) * 0x1000) := by
  unfold eraseSectorRange
  dsimp only
  have hp := prepare_ok E hE hw s e ⟨h, he⟩
  have hsa : sectorArgs E s e = 0 := if_pos ⟨h, he⟩
  rw [if_neg (by rw [hp]; simp), hsa]
  have hc := call_noFault E hE (prepareSectorRange E hw s e).2 (s * 0x1000) ((e + 1) * 0x1000)
    (fun _ => 0xFF#8)
  rw [if_neg (by rw [hc.1]; simp)]
  have hb : blankCheck (call E (prepareSectorRange E hw s e).2 0 (s * 0x1000) ((e + 1) * 0x1000)
      fun _ => 0xFF#8).2.flash (s * 0x1000) ((e + 1) * 0x1000 - s * 0x1000) = 0 := by
    apply if_pos
    unfold allBytes
    rw [List.all_eq_true]
    intro i hi
    rw [List.mem_range] at hi
    rw [hc.2, writeRange_in (by omega)]
    rfl
  rw [hb]
  refine ⟨(call_noFault E hE _ _ _ _).1, ?_⟩
  rw [call_zero, hc.2, prepare_flash]

/-! ## program -/

theorem program_out (E : Env) (hw : Hw) (rom : U32) (ram : Nat → Byte) (size a : Nat)
    (h : ¬ (rom.toNat ≤ a ∧ a < rom.toNat + size)) :
    (program E hw rom ram size).2.flash a = hw.flash a := by
  unfold program
  dsimp only
  split
  · rw [prepare_flash]
  · split
    · rw [call_out _ _ _ _ _ _ _ h, prepare_flash]
    · rw [call_zero, call_out _ _ _ _ _ _ _ h, prepare_flash]

/-- A destination that does not fit into the flash is refused. -/
theorem program_outside (E : Env) (hw : Hw) (rom : U32) (ram : Nat → Byte) (size : Nat)
    (h : rom.toNat + size > E.top) : (program E hw rom ram size).2.flash = hw.flash := by
  unfold program
  dsimp only
  split
  · rw [prepare_flash]
  · have hst : copyArgs E rom.toNat size ≠ 0 := by
      unfold copyArgs; rw [if_pos h]; split <;> simp
    split
    · rw [(call_bad _ _ _ _ _ _ hst).1, prepare_flash]
    · rw [call_zero, (call_bad _ _ _ _ _ _ hst).1, prepare_flash]

/-- Status 0 means the flash now holds the RAM bytes (the compare step has seen them). -/
theorem program_args (E : Env) (hw : Hw) (rom : U32) (ram : Nat → Byte) (size : Nat)
    (h : (program E hw rom ram size).1 = 0) : copyArgs E rom.toNat size = 0 := by
  unfold program at h
  dsimp only at h
  split at h
  · contradiction
  · split at h
    · contradiction
    · rename_i h1
      exact (call_ok E _ _ _ _ _ (by simpa using h1)).1

theorem program_ok (E : Env) (hw : Hw) (rom : U32) (ram : Nat → Byte) (size : Nat)
    (h : (program E hw rom ram size).1 = 0) (i : Nat) (hi : i < size) :
    (program E hw rom ram size).2.flash (rom.toNat + i) = ram i := by
  unfold program at h ⊢
  dsimp only at h ⊢
  split at h
  · contradiction
  · rename_i h0
    rw [if_neg h0]
    split at h
    · contradiction
    · rename_i h1
      rw [if_neg h1]
      have := (call_ok _ _ _ _ _ _ h).1
      rw [call_zero]
      unfold compare at this
      split at this
      · rename_i hc
        unfold allBytes at hc
        rw [List.all_eq_true] at hc
        exact eq_of_beq (hc i (List.mem_range.mpr hi))
      · simp at this

/-- On faultless hardware, programming an erased range succeeds. -/
theorem program_noFault (E : Env) (hE : ∀ k, E.fault k = none) (hw : Hw) (rom : U32) (ram : Nat → Byte)
    (size : Nat) (hal : rom.toNat % 256 = 0) (hfit : rom.toNat + size ≤ E.top) (htop : E.top % 4096 = 0)
    (htop2 : E.top ≤ 0x10000)
    (hsz : size = 256 ∨ size = 512 ∨ size = 1024 ∨ size = 4096)
    (hblank : ∀ i, i < size → hw.flash (rom.toNat + i) = 0xFF#8) :
    (program E hw rom ram size).1 = 0 := by
  have hpos : 0 < size := by omega
  have hs1 : sectorOfAddress rom = rom.toNat / 4096 := sectorOfAddress_small _ (by omega)
  have hend : (rom + BitVec.ofNat 32 size - 1#32).toNat = rom.toNat + size - 1 := by
    have : rom.toNat < 2 ^ 32 := rom.isLt
    simp only [BitVec.toNat_sub, BitVec.toNat_add, BitVec.toNat_ofNat]
    omega
  have hs2 : sectorOfAddress (rom + BitVec.ofNat 32 size - 1#32) = (rom.toNat + size - 1) / 4096 := by
    rw [sectorOfAddress_small _ (by omega), hend]
  unfold program
  dsimp only
  have hp := prepare_ok E hE hw (sectorOfAddress rom) (sectorOfAddress (rom + BitVec.ofNat 32 size - 1#32))
    ⟨by rw [hs1, hs2]; omega, by rw [hs2]; omega⟩
  rw [if_neg (by rw [hp]; simp)]
  have hca : copyArgs E rom.toNat size = 0 := by
    unfold copyArgs; rw [if_neg (by omega), if_neg (by omega), if_pos hsz]
  rw [hca, prepare_flash]
  have hc := call_noFault E hE (prepareSectorRange E hw (sectorOfAddress rom)
    (sectorOfAddress (rom + BitVec.ofNat 32 size - 1#32))).2 rom.toNat (rom.toNat + size)
    (fun a => hw.flash a &&& ram (a - rom.toNat))
  rw [if_neg (by rw [hc.1]; simp)]
  have hcmp : compare (call E (prepareSectorRange E hw (sectorOfAddress rom)
      (sectorOfAddress (rom + BitVec.ofNat 32 size - 1#32))).2 0 rom.toNat (rom.toNat + size)
      (fun a => hw.flash a &&& ram (a - rom.toNat))).2.flash rom.toNat size ram = 0 := by
    apply if_pos
    unfold allBytes
    rw [List.all_eq_true]
    intro i hi
    rw [List.mem_range] at hi
    rw [hc.2, writeRange_in (by omega), hblank i hi]
    have : rom.toNat + i - rom.toNat = i := by omega
    rw [this]
    have : 0xFF#8 &&& ram i = ram i := by
      have h : 0xFF#8 = BitVec.allOnes 8 := by decide
      rw [h, BitVec.allOnes_and]
    rw [this]; exact beq_self_eq_true _
  rw [hcmp]
  exact (call_noFault E hE _ _ _ _).1

end Verif.Iap
