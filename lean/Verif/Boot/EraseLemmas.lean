import Verif.Boot.ProgLemmas

/-! What the erase functions do to the flash. -/

namespace Verif.Boot
open Verif.Iap

/-- `r` is the outcome of erasing `[lo, hi)` starting from `hw`: nothing outside is touched, success
means the whole range reads 0xFF, and faultless hardware succeeds. -/
structure Erased (E : Env) (hw : Hw) (lo hi : Nat) (r : Byte × Hw) : Prop where
  frame : ∀ x, ¬ (lo ≤ x ∧ x < hi) → r.2.flash x = hw.flash x
  done : r.1 = UDP_IAP_SUCCESS → ∀ x, lo ≤ x → x < hi → r.2.flash x = 0xFF#8
  live : (∀ k, E.fault k = none) → r.1 = UDP_IAP_SUCCESS

theorem Erased.comp {E : Env} {hw : Hw} {lo mid hi : Nat} {r1 r2 : Byte × Hw} (h1 : Erased E hw lo mid r1)
    (h2 : Erased E r1.2 mid hi r2) (hle : lo ≤ mid) (hle2 : mid ≤ hi) (hs : r1.1 = UDP_IAP_SUCCESS) :
    Erased E hw lo hi r2 :=
  ⟨fun x hx => by rw [h2.frame x (by omega), h1.frame x (by omega)],
   fun hd x hl hh => by
     by_cases hm : x < mid
     · rw [h2.frame x (by omega)]; exact h1.done hs x hl hm
     · exact h2.done hd x (by omega) hh,
   h2.live⟩

/-- The same with the upper part erased first. -/
theorem Erased.comp' {E : Env} {hw : Hw} {lo mid hi : Nat} {r1 r2 : Byte × Hw} (h1 : Erased E hw mid hi r1)
    (h2 : Erased E r1.2 lo mid r2) (hle : lo ≤ mid) (hle2 : mid ≤ hi) (hs : r1.1 = UDP_IAP_SUCCESS) :
    Erased E hw lo hi r2 :=
  ⟨fun x hx => by rw [h2.frame x (by omega), h1.frame x (by omega)],
   fun hd x hl hh => by
     by_cases hm : x < mid
     · exact h2.done hd x hl hm
     · rw [h2.frame x (by omega)]; exact h1.done hs x (by omega) hh,
   h2.live⟩

theorem erasePages_spec {E : Env} (L : Layout E) (hw : Hw) (s e : Nat) (hse : s ≤ e)
    (hlo : (E.imageEnd - 1) / 256 < s) (hhi : e < E.top / 256) :
    Erased E hw (s * 256) ((e + 1) * 256) (erasePageRange E hw s e) := by
  have h1 := (pageAllowed_iff L s).mpr ⟨hlo, by omega⟩
  have h2 := (pageAllowed_iff L e).mpr ⟨by omega, hhi⟩
  unfold erasePageRange
  rw [h1, h2]
  simp only [Bool.not_true, Bool.or_self, Bool.false_eq_true, if_false]
  refine ⟨fun x hx => erasePageRange_out _ _ _ _ _ hx, fun h x hl hh => ?_, fun hF => ?_⟩
  · rw [(erasePageRange_ok _ _ _ _ ((iapState_success _).mp h)).2.2]
    exact writeRange_in ⟨hl, hh⟩
  · exact (iapState_success _).mpr (erasePageRange_noFault _ hF L.sectors _ _ _ hse hhi)

theorem eraseSectors_spec {E : Env} (L : Layout E) (hw : Hw) (s e : Nat) (hse : s ≤ e)
    (hlo : (E.imageEnd - 1) / 4096 < s) (hhi : e < E.top / 4096) :
    Erased E hw (s * 4096) ((e + 1) * 4096) (eraseSectorRange E hw s e) := by
  have h1 := (sectorAllowed_iff L s).mpr ⟨hlo, by omega⟩
  have h2 := (sectorAllowed_iff L e).mpr ⟨by omega, hhi⟩
  unfold eraseSectorRange
  rw [h1, h2]
  simp only [Bool.not_true, Bool.or_self, Bool.false_eq_true, if_false]
  refine ⟨fun x hx => eraseSectorRange_out _ _ _ _ _ hx, fun h x hl hh => ?_, fun hF => ?_⟩
  · rw [eraseSectorRange_ok _ _ _ _ ((iapState_success _).mp h)]
    exact writeRange_in ⟨hl, hh⟩
  · exact (iapState_success _).mpr (eraseSectorRange_noFault _ hF _ _ _ hse hhi).1

theorem sub32_eq {a b : Nat} (ha : a < 2 ^ 32) (hb : b ≤ a) : sub32 a b = a - b := by
  unfold sub32; simp only [BitVec.toNat_sub, BitVec.toNat_ofNat]; omega

/-- The tail of `eraseAddressRange` from a sector boundary `sec * 4096` up to `endPage`. -/
theorem eraseTail_spec {E : Env} (L : Layout E) (hw : Hw) (res : Byte) (sec endPage : Nat)
    (hlo : (E.imageEnd - 1) / 4096 < sec) (hle : sec * 16 ≤ endPage) (hhi : endPage < E.top / 256) :
    Erased E hw (sec * 4096) ((endPage + 1) * 256)
      (eraseTail E hw res (BitVec.ofNat 32 (sec * 4096)) endPage (endPage / 16)) := by
  have hs := L.size
  have ht := L.sectors
  have hsec : sectorOfAddress (BitVec.ofNat 32 (sec * 4096)) = sec := by
    rw [sectorOfAddress_small]
    · simp only [BitVec.toNat_ofNat]; omega
    · simp only [BitVec.toNat_ofNat]; omega
  have hstart : (BitVec.ofNat 32 (endPage / 16) * 0x1000#32 / 0x100#32).toNat = endPage / 16 * 16 := by
    simp only [BitVec.toNat_udiv, BitVec.toNat_mul, BitVec.toNat_ofNat, Nat.reducePow, Nat.reduceMod]
    omega
  have hle4 : sec * 4096 ≤ endPage / 16 * 16 * 256 := by omega
  have hle5 : endPage / 16 * 16 * 256 ≤ (endPage + 1) * 256 := Nat.mul_le_mul_right 256 (by omega)
  unfold eraseTail
  dsimp only
  rw [hsec, hstart, sub32_eq (by omega) (by omega)]
  by_cases hl : endPage % 16 = 15
  · have : ((endPage - endPage / 16 * 16 + 1) % 2 ^ 32 == 16) = true := by
      rw [beq_iff_eq]; omega
    rw [this]
    simp only [Bool.not_true, Bool.false_eq_true, if_false]
    unfold eraseWholeSectors
    rw [if_pos (by omega)]
    have := eraseSectors_spec L hw sec (endPage / 16) (by omega) hlo (by omega)
    rwa [show (endPage / 16 + 1) * 4096 = (endPage + 1) * 256 by omega] at this
  · have : ((endPage - endPage / 16 * 16 + 1) % 2 ^ 32 == 16) = false := by
      rw [beq_eq_false_iff_ne]; omega
    rw [this]
    simp only [Bool.not_false, if_true]
    have hp := erasePages_spec L hw (endPage / 16 * 16) endPage (by omega) (by omega) hhi
    by_cases hst : (erasePageRange E hw (endPage / 16 * 16) endPage).1 = UDP_IAP_SUCCESS
    · rw [if_neg (fun h => h hst)]
      unfold eraseWholeSectors
      by_cases hsm : sec * 16 = endPage / 16 * 16
      · have hsub : sub32 (endPage / 16) 1 < sec ∨ endPage / 16 = 0 := by
          by_cases h0 : endPage / 16 = 0
          · exact .inr h0
          · left; rw [sub32_eq (by omega) (by omega)]; omega
        rcases hsub with hsub | h0
        · rw [if_neg (by omega)]
          have h' : sec * 4096 = endPage / 16 * 16 * 256 := by omega
          rw [h']
          refine ⟨?_, ?_, ?_⟩
          · exact hp.frame
          · intro _; exact hp.done hst
          · intro _; exact hst
        · exfalso; clear hst hp this; omega
      · rw [sub32_eq (by omega) (by omega), if_pos (by omega)]
        have h2 := eraseSectors_spec L (erasePageRange E hw (endPage / 16 * 16) endPage).2 sec
          (endPage / 16 - 1) (by omega) hlo (by omega)
        rw [show (endPage / 16 - 1 + 1) * 4096 = endPage / 16 * 16 * 256 by omega] at h2
        exact Erased.comp' hp h2 hle4 hle5 hst
    · rw [if_pos hst]
      refine ⟨fun x hx => ?_, fun h => absurd h hst, hp.live⟩
      exact hp.frame x (fun hc => hx ⟨Nat.le_trans hle4 hc.1, hc.2⟩)

/-- `eraseAddressRange` on a proper range `start ≤ end` above the bootloader. -/
theorem eraseRange_spec {E : Env} (L : Layout E) (hw : Hw) (a b : U32) (chk : Bool)
    (hal : a.toNat % 256 = 0) (hab : a.toNat ≤ b.toNat) (hb : b.toNat < E.top)
    (hlo : (E.imageEnd - 1) / 256 < a.toNat / 256) (hchk : chk = true → appFirst E ≤ a.toNat) :
    Erased E hw a.toNat ((b.toNat / 256 + 1) * 256) (eraseAddressRange E hw a b chk) := by
  have hs := L.size
  have ht := L.sectors
  unfold eraseAddressRange
  have hallow : (chk && !addressAllowedToProgram E a (b - a + 1#32) false) = false := by
    cases chk with
    | false => rfl
    | true =>
      have : addressAllowedToProgram E a (b - a + 1#32) false = true := by
        rw [allowed_iff L]
        have e1 : a + (b - a + 1#32) - 1#32 = b := by
          apply BitVec.eq_of_toNat_eq
          simp only [BitVec.toNat_add, BitVec.toNat_sub, BitVec.toNat_ofNat]
          omega
        refine ⟨hal, ?_, hchk rfl, by rw [e1]; exact hb⟩
        intro h
        have := congrArg BitVec.toNat h
        simp only [BitVec.toNat_add, BitVec.toNat_sub, BitVec.toNat_ofNat] at this
        omega
      rw [this]; rfl
  rw [hallow]
  simp only [Bool.false_eq_true, if_false]
  rw [pageOfAddress_small a (by omega), pageOfAddress_small b (by omega),
    sectorOfAddress_small a (by omega), sectorOfAddress_small b (by omega),
    sub32_eq (by omega) (Nat.div_le_div_right hab)]
  by_cases hless : (b.toNat / 256 - a.toNat / 256 + 1) % 2 ^ 32 < 16
  · rw [if_pos hless]
    have := erasePages_spec L hw (a.toNat / 256) (b.toNat / 256) (Nat.div_le_div_right hab) hlo (by omega)
    rwa [show a.toNat / 256 * 256 = a.toNat by omega] at this
  · rw [if_neg hless]
    have hsec16 : b.toNat / 4096 = b.toNat / 256 / 16 := by omega
    by_cases hsa : a.toNat % 4096 = 0
    · have : isAligned a 0x1000#32 = true := (alignedSector_iff a).mpr hsa
      rw [this]
      simp only [Bool.not_true, Bool.false_eq_true, if_false]
      have h := eraseTail_spec L hw UDP_ADDRESS_RANGE_NOT_ALLOWED_TO_ERASE (a.toNat / 4096) (b.toNat / 256)
        (by omega) (by omega) (by omega)
      rw [show a.toNat / 4096 * 4096 = a.toNat by omega, ← hsec16] at h
      rwa [show BitVec.ofNat 32 a.toNat = a by simp] at h
    · have : isAligned a 0x1000#32 = false := by
        cases hc : isAligned a 0x1000#32 with
        | false => rfl
        | true => exact absurd ((alignedSector_iff a).mp hc) hsa
      rw [this]
      simp only [Bool.not_false, if_true]
      have hnx : BitVec.ofNat 32 (a.toNat / 4096 + 1) * 0x1000#32
          = BitVec.ofNat 32 ((a.toNat / 4096 + 1) * 4096) := by
        apply BitVec.eq_of_toNat_eq; simp
      rw [hnx]
      have hpg : pageOfAddress (BitVec.ofNat 32 ((a.toNat / 4096 + 1) * 4096))
          = (a.toNat / 4096 + 1) * 16 := by
        rw [pageOfAddress_small]
        · simp only [BitVec.toNat_ofNat]; omega
        · simp only [BitVec.toNat_ofNat]; omega
      have hle4 : (a.toNat / 4096 + 1) * 4096 ≤ (b.toNat / 256 + 1) * 256 := by omega
      rw [hpg, sub32_eq (by omega) (by omega)]
      have h1 := erasePages_spec L hw (a.toNat / 256) ((a.toNat / 4096 + 1) * 16 - 1) (by omega) hlo
        (by omega)
      rw [show a.toNat / 256 * 256 = a.toNat by omega,
        show ((a.toNat / 4096 + 1) * 16 - 1 + 1) * 256 = (a.toNat / 4096 + 1) * 4096 by omega] at h1
      by_cases hst : (erasePageRange E hw (a.toNat / 256) ((a.toNat / 4096 + 1) * 16 - 1)).1
          = UDP_IAP_SUCCESS
      · rw [if_neg (fun h => h hst)]
        have h2 := eraseTail_spec L (erasePageRange E hw (a.toNat / 256)
          ((a.toNat / 4096 + 1) * 16 - 1)).2 (erasePageRange E hw (a.toNat / 256)
          ((a.toNat / 4096 + 1) * 16 - 1)).1 (a.toNat / 4096 + 1) (b.toNat / 256) (by omega) (by omega)
          (by omega)
        rw [← hsec16] at h2
        exact Erased.comp h1 h2 (by omega) (by omega) hst
      · rw [if_pos hst]
        refine ⟨fun x hx => ?_, fun h => absurd h hst, h1.live⟩
        exact h1.frame x (fun hc => hx ⟨hc.1, Nat.lt_of_lt_of_le hc.2 hle4⟩)

end Verif.Boot
