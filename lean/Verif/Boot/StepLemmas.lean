import Verif.Boot.EraseLemmas
import Verif.Boot.Spec
import Verif.Crc.Props

/-! One telegram at a time: case analysis and the download buffer invariant. -/

namespace Verif.Boot
open Verif.Iap Spec

theorem code2_spec (c : Byte) :
    code2UPDCommand c = (0#8, 0, 0) ∨ (code2UPDCommand c).1 = c := by
  have : ∀ c : Byte, code2UPDCommand c = (0#8, 0, 0) ∨ (code2UPDCommand c).1 = c := by decide +kernel
  exact this c

/-- What one telegram can do: it is refused, or it is dispatched. -/
theorem receive_cons {E : Env} {I : Info} {s : State} {c : Byte} {d : List Byte}
    (hlen : d.length < 255) {r : State × Resp} (h : receive E I s (c :: d) = some r) :
    (∃ e, r = (s, status e) ∧ (e = 0x01#8 ∨ e = 0x55#8 ∨ e = 0x58#8) ∧
      (e = 0x01#8 → c ≠ 0xbf#8 ∧ c ≠ 0xbe#8 ∧ c ≠ 0xbc#8 ∧ c ≠ 0xef#8 ∧ c ≠ 0xee#8 ∧ c ≠ 0xeb#8 ∧
        c ≠ 0xe9#8 ∧ c ≠ 0xea#8)) ∨
    ((code2UPDCommand c).1 = c ∧ (code2UPDCommand c).2.1 ≤ d.length ∧ d.length ≤ (code2UPDCommand c).2.2 ∧
      (s.deviceLocked = DEVICE_UNLOCKED ∨ c = 0xbf#8 ∨ c = 0xbe#8 ∨ c = 0xbc#8) ∧
      dispatch E I s c (fun i => d.getD i 0#8) d.length = some r) := by
  have hl : (BitVec.ofNat 32 (c :: d).length).toNat = d.length + 1 := by
    simp only [List.length_cons, BitVec.toNat_ofNat]; omega
  unfold receive handle at h
  rw [hl, if_neg (by omega)] at h
  dsimp only at h
  rw [List.getD_cons_zero] at h
  have hdata : (fun i => (c :: d).getD (i + 1) 0#8) = (fun i => d.getD i 0#8) := by
    funext i; rw [List.getD_cons_succ]
  rw [hdata, Nat.add_sub_cancel] at h
  by_cases h0 : (code2UPDCommand c).1 = 0#8
  · rw [if_pos h0] at h
    left
    refine ⟨0x01#8, (Option.some.inj h).symm, .inl rfl, fun _ => ?_⟩
    refine ⟨?_, ?_, ?_, ?_, ?_, ?_, ?_, ?_⟩ <;> (rintro rfl; revert h0; decide)
  · rw [if_neg h0] at h
    have hc : (code2UPDCommand c).1 = c := by
      rcases code2_spec c with h' | h'
      · exact absurd (by rw [h']) h0
      · exact h'
    by_cases h1 : d.length < (code2UPDCommand c).2.1 ∨ d.length > (code2UPDCommand c).2.2
    · rw [if_pos h1] at h
      left
      exact ⟨0x55#8, (Option.some.inj h).symm, .inr (.inl rfl), fun h => absurd h (by decide)⟩
    · rw [if_neg h1, hc] at h
      by_cases h2 : s.deviceLocked ≠ DEVICE_UNLOCKED ∧ c ≠ 0xbf#8 ∧ c ≠ 0xbe#8 ∧ c ≠ 0xbc#8
      · rw [if_pos h2] at h
        left
        exact ⟨0x58#8, (Option.some.inj h).symm, .inr (.inr rfl), fun h => absurd h (by decide)⟩
      · rw [if_neg h2] at h
        right
        refine ⟨hc, by omega, by omega, ?_, h⟩
        by_cases u : s.deviceLocked = DEVICE_UNLOCKED
        · exact .inl u
        · by_cases a : c = 0xbf#8
          · exact .inr (.inl a)
          · by_cases b : c = 0xbe#8
            · exact .inr (.inr (.inl b))
            · by_cases e : c = 0xbc#8
              · exact .inr (.inr (.inr e))
              · exact absurd ⟨u, a, b, e⟩ h2

theorem receive_nil {E : Env} {I : Info} {s : State} {r : State × Resp}
    (h : receive E I s [] = some r) : r = (s, status 0x54#8) := by
  unfold receive handle at h
  rw [if_pos (by decide)] at h
  exact (Option.some.inj h).symm

/-- The converse: a well-formed request to an unlocked device is dispatched. -/
theorem receive_unlocked {E : Env} {I : Info} {s : State} {c : Byte} {d : List Byte}
    (hlen : d.length < 255) (hu : s.deviceLocked = DEVICE_UNLOCKED) (h0 : (code2UPDCommand c).1 ≠ 0#8)
    (h1 : (code2UPDCommand c).2.1 ≤ d.length) (h2 : d.length ≤ (code2UPDCommand c).2.2) :
    receive E I s (c :: d) = dispatch E I s c (fun i => d.getD i 0#8) d.length := by
  have hl : (BitVec.ofNat 32 (c :: d).length).toNat = d.length + 1 := by
    simp only [List.length_cons, BitVec.toNat_ofNat]; omega
  unfold receive handle
  rw [hl, if_neg (by omega)]
  dsimp only
  rw [List.getD_cons_zero, if_neg h0]
  have hdata : (fun i => (c :: d).getD (i + 1) 0#8) = (fun i => d.getD i 0#8) := by
    funext i; rw [List.getD_cons_succ]
  have hc : (code2UPDCommand c).1 = c := by
    rcases code2_spec c with h' | h'
    · exact absurd (by rw [h']) h0
    · exact h'
  rw [hdata, Nat.add_sub_cancel, if_neg (by omega), hc, if_neg (fun h => h.1 hu)]

/-! ## Decoding -/

theorem le32_cat (a : U32) :
    a.extractLsb' 24 8 ++ a.extractLsb' 16 8 ++ a.extractLsb' 8 8 ++ a.extractLsb' 0 8 = a := by
  apply BitVec.eq_of_getLsbD_eq
  intro i hi
  simp only [BitVec.getLsbD_append, BitVec.getLsbD_extractLsb']
  by_cases h1 : i < 8
  · simp [h1]
  · by_cases h2 : i < 16
    · simp [h1, show i - 8 < 8 by omega, show 8 + (i - 8) = i by omega]
    · by_cases h3 : i < 24
      · simp [h1, show ¬ i - 8 < 8 by omega, show i - 8 - 8 < 8 by omega,
          show 16 + (i - 8 - 8) = i by omega]
      · simp [h1, show ¬ i - 8 < 8 by omega, show ¬ i - 8 - 8 < 8 by omega,
          show i - 8 - 8 - 8 < 8 by omega, show 24 + (i - 8 - 8 - 8) = i by omega]

theorem le16_cat (a : Word) : a.extractLsb' 8 8 ++ a.extractLsb' 0 8 = a := by
  apply BitVec.eq_of_getLsbD_eq
  intro i hi
  simp only [BitVec.getLsbD_append, BitVec.getLsbD_extractLsb']
  by_cases h1 : i < 8
  · simp [h1]
  · simp [h1, show i - 8 < 8 by omega, show 8 + (i - 8) = i by omega]

theorem load_eraseRange (a b : U32) :
    load32 (fun i => (le32 a ++ le32 b).getD i 0#8) 0 = a ∧
    load32 (fun i => (le32 a ++ le32 b).getD i 0#8) 4 = b := ⟨le32_cat a, le32_cat b⟩

theorem load_program (n : Word) (a b : U32) :
    load16 (fun i => (le16 n ++ le32 a ++ le32 b).getD i 0#8) 0 = n ∧
    load32 (fun i => (le16 n ++ le32 a ++ le32 b).getD i 0#8) 2 = a ∧
    load32 (fun i => (le16 n ++ le32 a ++ le32 b).getD i 0#8) 6 = b :=
  ⟨le16_cat n, le32_cat a, le32_cat b⟩

theorem load_le32 (a : U32) : load32 (fun i => (le32 a).getD i 0#8) 0 = a := le32_cat a

/-! ## The decompressor's counters -/

structure DInv (E : Env) (d : Decomp.State) : Prop where
  addr : d.startAddrOfPageToBeFlashed.toNat ≤ E.top
  count : d.bytesToFlash ≤ 256

theorem putByte_inv {E : Env} {f : Nat → Byte} {d d' : Decomp.State} {b : Byte} (hi : DInv E d)
    (h : Decomp.putByte E f d b = some d') : DInv E d' := by
  unfold Decomp.putByte at h
  split at h
  · dsimp only at h
    split at h <;> (obtain rfl := Option.some.inj h; exact ⟨hi.addr, hi.count⟩)
  · dsimp only at h
    split at h
    · exact absurd h (by simp)
    · split at h
      · split at h
        · unfold Decomp.doCopy at h
          dsimp only at h
          split at h
          · exact absurd h (by simp)
          · split at h
            · split at h
              · exact absurd h (by simp)
              · obtain rfl := Option.some.inj h; exact ⟨hi.addr, by dsimp only at *; omega⟩
            · split at h
              · exact absurd h (by simp)
              · obtain rfl := Option.some.inj h; exact ⟨hi.addr, by dsimp only at *; omega⟩
        · obtain rfl := Option.some.inj h; exact ⟨hi.addr, hi.count⟩
      · obtain rfl := Option.some.inj h; exact ⟨hi.addr, hi.count⟩
  · split at h
    · exact absurd h (by simp)
    · dsimp only at h
      split at h <;> (obtain rfl := Option.some.inj h; exact ⟨hi.addr, by dsimp only; omega⟩)

theorem putBytes_inv {E : Env} {f : Nat → Byte} (bs : List Byte) : ∀ {d d' : Decomp.State}, DInv E d →
    Decomp.putBytes E f d bs = some d' → DInv E d' := by
  induction bs with
  | nil => intro d d' hi h; obtain rfl := Option.some.inj h; exact hi
  | cons b bs ih =>
    intro d d' hi h
    unfold Decomp.putBytes at h
    cases hp : Decomp.putByte E f d b with
    | none => rw [hp] at h; exact absurd h (by simp)
    | some d1 => rw [hp] at h; exact ih (putByte_inv hi hp) h

/-- An allowed page to be flashed is a page of the application area. -/
theorem decomp_allowed {E : Env} (L : Layout E) {d : Decomp.State} (hi : DInv E d)
    (h : addressAllowedToProgram E d.startAddrOfPageToBeFlashed (BitVec.ofNat 32 d.bytesToFlash) false = true) :
    d.startAddrOfPageToBeFlashed.toNat % 256 = 0 ∧ appFirst E ≤ d.startAddrOfPageToBeFlashed.toNat ∧
    d.startAddrOfPageToBeFlashed.toNat + 256 ≤ E.top ∧ 0 < d.bytesToFlash := by
  rw [allowed_iff L] at h
  obtain ⟨h1, h2, h3, h4⟩ := h
  have hc := hi.count
  have ha := hi.addr
  have hs := L.size
  have ht := L.sectors
  have hne : d.bytesToFlash ≠ 0 := by
    intro h0; apply h2; rw [h0]
  simp only [BitVec.toNat_add, BitVec.toNat_sub, BitVec.toNat_ofNat] at h4
  exact ⟨h1, h3, by omega, by omega⟩

theorem pageCompleted_status {E : Env} (L : Layout E) {d : Decomp.State} (hi : DInv E d) (hw : Hw)
    (h : addressAllowedToProgram E d.startAddrOfPageToBeFlashed (BitVec.ofNat 32 d.bytesToFlash) false = true) :
    0x73 ≤ (Decomp.pageCompletedDoFlash E hw d).1.toNat := by
  obtain ⟨h1, h2, h3, _⟩ := decomp_allowed L hi h
  unfold Decomp.pageCompletedDoFlash
  dsimp only
  split
  · exact (by decide : 0x73 ≤ (UDP_IAP_SUCCESS).toNat)
  · exact (exec_spec L _ _ _ 256 h1 (by omega) h2 h3).1

/-! ## Status codes of the erase functions -/

def EraseStatus (e : Byte) : Prop := e = 0x51#8 ∨ e = 0x52#8 ∨ e = 0x5c#8 ∨ 0x73 ≤ e.toNat

theorem erasePages_status (E : Env) (hw : Hw) (s e : Nat) : EraseStatus (erasePageRange E hw s e).1 := by
  unfold erasePageRange
  split
  · exact .inr (.inl rfl)
  · exact .inr (.inr (.inr (iapState_range _)))

theorem eraseSectors_status (E : Env) (hw : Hw) (s e : Nat) :
    EraseStatus (eraseSectorRange E hw s e).1 := by
  unfold eraseSectorRange
  split
  · exact .inr (.inr (.inl rfl))
  · exact .inr (.inr (.inr (iapState_range _)))

theorem eraseWhole_status (E : Env) (hw : Hw) (r : Byte) (s e : Nat) (hr : EraseStatus r) :
    EraseStatus (eraseWholeSectors E hw r s e).1 := by
  unfold eraseWholeSectors
  split
  · exact eraseSectors_status _ _ _ _
  · exact hr

theorem eraseTail_status (E : Env) (hw : Hw) (r : Byte) (a : U32) (p s : Nat) (hr : EraseStatus r) :
    EraseStatus (eraseTail E hw r a p s).1 := by
  unfold eraseTail
  dsimp only
  split
  · split
    · exact erasePages_status _ _ _ _
    · exact eraseWhole_status _ _ _ _ _ (erasePages_status _ _ _ _)
  · exact eraseWhole_status _ _ _ _ _ hr

theorem eraseRange_status (E : Env) (hw : Hw) (a b : U32) (c : Bool) :
    EraseStatus (eraseAddressRange E hw a b c).1 := by
  unfold eraseAddressRange
  dsimp only
  split
  · exact .inl rfl
  · split
    · exact erasePages_status _ _ _ _
    · split
      · split
        · exact erasePages_status _ _ _ _
        · exact eraseTail_status _ _ _ _ _ _ (erasePages_status _ _ _ _)
      · exact eraseTail_status _ _ _ _ _ _ (.inl rfl)

theorem eraseStatus_not {e : Byte} (h : EraseStatus e) :
    ¬ (lastError e = status 0x55#8 ∨ lastError e = status 0x58#8) := by
  unfold lastError status
  simp only [Resp.mk.injEq, List.cons.injEq, and_true, true_and]
  rintro (rfl | rfl) <;> revert h <;> unfold EraseStatus <;> decide

/-! ## Programming requests -/

/-- Meaning of the address check of a programming request. -/
theorem target_of_allowed {E : Env} (L : Layout E) {a : U32} {n : Nat} (hn : n ≤ bufferSize)
    (h : addressAllowedToProgram E a (BitVec.ofNat 32 n) false = true) :
    0 < n ∧ (Target E a n ∨ E.top ≤ a.toNat) := by
  rw [allowed_iff L] at h
  obtain ⟨h1, h2, h3, h4⟩ := h
  have hs := L.size
  have ht := L.sectors
  have hb : bufferSize = 1265 := rfl
  have hne : n ≠ 0 := by
    intro h0; apply h2; rw [h0]
  refine ⟨by omega, ?_⟩
  by_cases hat : E.top ≤ a.toNat
  · exact .inr hat
  · left
    simp only [BitVec.toNat_add, BitVec.toNat_sub, BitVec.toNat_ofNat] at h4
    exact ⟨h1, h3, by omega⟩

/-- A request at an address behind the end of the flash never gets through to the flash. -/
theorem exec_beyond {E : Env} (hw : Hw) (a : U32) (ram : Nat → Byte) (n : Nat) (hn : 0 < n)
    (ha : E.top ≤ a.toNat) : (executeProgramFlash E hw a ram n false).1 ≠ UDP_IAP_SUCCESS ∧
      (executeProgramFlash E hw a ram n false).2.flash = hw.flash ∧
      ((executeProgramFlash E hw a ram n false).1 = 0x5d#8 ∨
        0x73 ≤ (executeProgramFlash E hw a ram n false).1.toNat) := by
  unfold executeProgramFlash
  split
  · exact ⟨(by decide : (0x5d#8 : Byte) ≠ UDP_IAP_SUCCESS), rfl, .inl rfl⟩
  · dsimp only
    have hc : copyArgs E.toEnv a.toNat n ≠ 0 := by
      unfold copyArgs
      split
      · decide
      · rw [if_pos (by omega)]; decide
    refine ⟨?_, ?_, .inr (iapState_range _)⟩
    · rw [Ne, iapState_success]
      intro h
      exact hc (program_args _ _ _ _ _ h)
    · exact program_outside _ _ _ _ _ (by omega)

theorem programAll_beyond {E : Env} (hw : Hw) (ram : Nat → Byte) (count : Nat) (a : U32)
    (hn : 0 < count) (ha : E.top ≤ a.toNat) : (programAll E hw ram count a).1 ≠ UDP_IAP_SUCCESS ∧
      (programAll E hw ram count a).2.flash = hw.flash ∧
      ((programAll E hw ram count a).1 = 0x5d#8 ∨ 0x73 ≤ (programAll E hw ram count a).1.toNat) := by
  have hns : ¬ (UDP_IAP_SUCCESS ≠ UDP_IAP_SUCCESS ∨ count = 0) := by
    rintro (h | h)
    · exact h rfl
    · omega
  have hblk : ∀ bs, 0 < bs → programBlocks E ram bs count hw count a 0
      = (if bs ≤ count then ((executeProgramFlash E hw a ram bs false).1,
          (executeProgramFlash E hw a ram bs false).2, count, a, 0)
         else (UDP_IAP_SUCCESS, hw, count, a, 0)) := by
    intro bs hb
    obtain ⟨k, rfl⟩ : ∃ k, count = k + 1 := ⟨count - 1, by omega⟩
    unfold programBlocks
    by_cases h : bs ≤ k + 1
    · rw [if_pos h, if_pos h]
      have := (exec_beyond hw a ram bs hb ha).1
      simp only [Nat.zero_add]
      rw [if_pos this]
    · rw [if_neg h, if_neg h]
  have hsz : ∀ l, (∀ b ∈ l, 0 < b) → programSizes E ram l hw count a 0 = (UDP_IAP_SUCCESS, hw, count, a, 0) ∨
      ((programSizes E ram l hw count a 0).1 ≠ UDP_IAP_SUCCESS ∧
        (programSizes E ram l hw count a 0).2.1.flash = hw.flash ∧
        ((programSizes E ram l hw count a 0).1 = 0x5d#8 ∨
          0x73 ≤ (programSizes E ram l hw count a 0).1.toNat)) := by
    intro l
    induction l with
    | nil => intro _; exact .inl rfl
    | cons b l ih =>
      intro hpos
      have ih := ih (fun b hb => hpos b (List.mem_cons_of_mem _ hb))
      have hb := hpos b (List.mem_cons_self)
      unfold programSizes
      split
      · exact ih
      · rw [hblk b hb]
        by_cases h : b ≤ count
        · rw [if_pos h]
          have h' := exec_beyond hw a ram b hb ha
          dsimp only
          rw [if_pos (.inl h'.1)]
          exact .inr h'
        · rw [if_neg h]
          dsimp only
          rw [if_neg hns]
          exact ih
  unfold programAll
  dsimp only
  rcases hsz iapBlockSizes (by decide) with h | h
  · rw [h]
    dsimp only
    by_cases hc : count ≤ 256
    · rw [if_pos ⟨rfl, hn, hc⟩]
      exact exec_beyond hw a _ 256 (by omega) ha
    · exfalso
      revert h
      unfold iapBlockSizes
      unfold programSizes; rw [if_pos (by decide)]
      unfold programSizes; rw [if_neg (by decide), hblk 0x400 (by omega)]
      by_cases h1 : 0x400 ≤ count
      · rw [if_pos h1]
        dsimp only
        have h' := (exec_beyond hw a ram 0x400 (by omega) ha).1
        rw [if_pos (.inl h')]
        intro h
        exact h' (congrArg Prod.fst h)
      · rw [if_neg h1]
        dsimp only
        rw [if_neg hns]
        unfold programSizes; rw [if_neg (by decide), hblk 0x200 (by omega)]
        by_cases h2 : 0x200 ≤ count
        · rw [if_pos h2]
          dsimp only
          have h' := (exec_beyond hw a ram 0x200 (by omega) ha).1
          rw [if_pos (.inl h')]
          intro h
          exact h' (congrArg Prod.fst h)
        · rw [if_neg h2]
          dsimp only
          rw [if_neg hns]
          unfold programSizes; rw [if_neg (by decide), hblk 0x100 (by omega), if_pos (by omega : 0x100 ≤ count)]
          dsimp only
          have h' := (exec_beyond hw a ram 0x100 (by omega) ha).1
          rw [if_pos (.inl h')]
          intro h
          exact h' (congrArg Prod.fst h)
  · rw [if_neg (fun hc => h.1 hc.1)]
    exact h

end Verif.Boot
