import Verif.Boot.Lemmas

/-! What a programming run and an erase do to the flash. -/

namespace Verif.Boot
open Verif.Iap

theorem iapState_success (n : Nat) : iapResult2UDPState n = UDP_IAP_SUCCESS ↔ n = 0 := by
  unfold iapResult2UDPState
  split <;> simp_all [UDP_IAP_SUCCESS]

/-- The status codes the mapping of IAP results can produce. -/
theorem iapState_range (n : Nat) : 0x73 ≤ (iapResult2UDPState n).toNat := by
  unfold iapResult2UDPState
  split <;> decide

/-- `[A, A+n)` of the flash. -/
def InR (A n a : Nat) : Prop := A ≤ a ∧ a < A + n

/-- An allowed program request: inside the application area. -/
theorem exec_spec {E : Env} (L : Layout E) (hw : Hw) (a : U32) (ram : Nat → Byte) (n : Nat)
    (hal : a.toNat % 256 = 0) (hn : 0 < n) (hlo : appFirst E ≤ a.toNat) (hhi : a.toNat + n ≤ E.top) :
    0x73 ≤ (executeProgramFlash E hw a ram n false).1.toNat ∧
    (∀ x, ¬ InR a.toNat n x → (executeProgramFlash E hw a ram n false).2.flash x = hw.flash x) ∧
    ((executeProgramFlash E hw a ram n false).1 = UDP_IAP_SUCCESS →
      ∀ i, i < n → (executeProgramFlash E hw a ram n false).2.flash (a.toNat + i) = ram i) ∧
    ((∀ k, E.fault k = none) → (n = 256 ∨ n = 512 ∨ n = 1024 ∨ n = 4096) →
      (∀ i, i < n → hw.flash (a.toNat + i) = 0xFF#8) →
      (executeProgramFlash E hw a ram n false).1 = UDP_IAP_SUCCESS) := by
  have hs := L.size
  have hend : (a + BitVec.ofNat 32 n - 1#32).toNat = a.toNat + n - 1 := by
    simp only [BitVec.toNat_sub, BitVec.toNat_add, BitVec.toNat_ofNat]; omega
  have hall : addressAllowedToProgram E a (BitVec.ofNat 32 n) false = true := by
    rw [allowed_iff L]
    refine ⟨hal, ?_, hlo, by rw [hend]; omega⟩
    intro h
    have := congrArg BitVec.toNat h
    simp at this; omega
  unfold executeProgramFlash
  rw [hall]
  simp only [Bool.not_true, Bool.false_eq_true, if_false]
  refine ⟨iapState_range _, fun x hx => program_out _ _ _ _ _ _ hx, fun h i hi => ?_, fun hE hz hb => ?_⟩
  · exact program_ok _ _ _ _ _ ((iapState_success _).mp h) i hi
  · exact (iapState_success _).mpr (program_noFault _ hE _ _ _ _ hal hhi L.sectors L.size hz hb)

/-- State of a programming run that has successfully written the first `pos` of `count` bytes of
`ram` to address `A`. -/
structure Written (hw0 hw : Hw) (ram : Nat → Byte) (A pos : Nat) : Prop where
  data : ∀ i, i < pos → hw.flash (A + i) = ram i
  frame : ∀ x, ¬ InR A pos x → hw.flash x = hw0.flash x

/-- The request `(A, count)` is inside the application area, page aligned, and its last page exists. -/
structure Target (E : Env) (A : U32) (count : Nat) : Prop where
  align : A.toNat % 256 = 0
  low : appFirst E ≤ A.toNat
  high : A.toNat + (count + 255) / 256 * 256 ≤ E.top

/-- Number of bytes in whole pages. -/
def cap (count : Nat) : Nat := (count + 255) / 256 * 256

theorem programBlocks_spec {E : Env} (L : Layout E) (ram : Nat → Byte) (A : U32) (count bs : Nat)
    (T : Target E A count) (hb0 : bs = 256 ∨ bs = 512 ∨ bs = 1024) (hw0 : Hw) (fuel : Nat) :
    ∀ hw left pos, left ≤ fuel → pos + left = count → pos % 256 = 0 → Written hw0 hw ram A.toNat pos →
    let r := programBlocks E ram bs fuel hw left (A + BitVec.ofNat 32 pos) pos
    0x73 ≤ r.1.toNat ∧ (∀ x, ¬ InR A.toNat (cap count) x → r.2.1.flash x = hw0.flash x) ∧
    (r.1 = UDP_IAP_SUCCESS →
      Written hw0 r.2.1 ram A.toNat r.2.2.2.2 ∧ r.2.2.1 < bs ∧ r.2.2.2.2 + r.2.2.1 = count ∧
      r.2.2.2.1 = A + BitVec.ofNat 32 r.2.2.2.2 ∧ r.2.2.2.2 % 256 = 0) ∧
    ((∀ k, E.fault k = none) → (∀ i, i < cap count → hw0.flash (A.toNat + i) = 0xFF#8) →
      r.1 = UDP_IAP_SUCCESS) := by
  have hs := L.size
  have hT := T.high
  have hc : count ≤ cap count := by unfold cap; omega
  induction fuel with
  | zero =>
    intro hw left pos h1 h2 h3 hW
    refine ⟨(by decide : 0x73 ≤ (UDP_IAP_SUCCESS).toNat), fun x hx => hW.frame x ?_, fun _ => ⟨hW, by simp [programBlocks]; omega, h2, rfl, h3⟩,
      fun _ _ => rfl⟩
    unfold InR at *; omega
  | succ f ih =>
    intro hw left pos h1 h2 h3 hW
    unfold programBlocks
    dsimp only
    by_cases hle : left ≥ bs
    · rw [if_pos hle]
      have ha : (A + BitVec.ofNat 32 pos).toNat = A.toNat + pos := by
        simp only [BitVec.toNat_add, BitVec.toNat_ofNat]; omega
      have hcap : pos + bs ≤ cap count := by unfold cap; omega
      have hE := exec_spec L hw (A + BitVec.ofNat 32 pos) (fun i => ram (pos + i)) bs
        (by rw [ha]; have := T.align; omega) (by omega) (by rw [ha]; have := T.low; omega)
        (by rw [ha]; have hcd : cap count = (count + 255) / 256 * 256 := rfl; omega)
      rw [ha] at hE
      obtain ⟨e1, e2, e3, e4⟩ := hE
      have hfr : ∀ x, ¬ InR A.toNat (cap count) x →
          (executeProgramFlash E hw (A + BitVec.ofNat 32 pos) (fun i => ram (pos + i)) bs false).2.flash x
            = hw0.flash x := by
        intro x hx
        rw [e2 x (by unfold InR at *; omega)]
        exact hW.frame x (by unfold InR at *; omega)
      have hlive : (∀ k, E.fault k = none) → (∀ i, i < cap count → hw0.flash (A.toNat + i) = 0xFF#8) →
          (executeProgramFlash E hw (A + BitVec.ofNat 32 pos) (fun i => ram (pos + i)) bs false).1
            = UDP_IAP_SUCCESS := by
        intro hF hB
        refine e4 hF (by omega) fun i hi => ?_
        rw [hW.frame _ (by unfold InR; omega), Nat.add_assoc]
        exact hB _ (by omega)
      by_cases hst : (executeProgramFlash E hw (A + BitVec.ofNat 32 pos) (fun i => ram (pos + i)) bs
          false).1 = UDP_IAP_SUCCESS
      · rw [if_neg (by simpa using hst)]
        have hadd : A + BitVec.ofNat 32 pos + BitVec.ofNat 32 bs = A + BitVec.ofNat 32 (pos + bs) := by
          rw [BitVec.add_assoc, BitVec.ofNat_add]
        rw [hadd]
        refine ih _ (left - bs) (pos + bs) (by omega) (by omega) (by omega) ⟨fun i hi => ?_, fun x hx => ?_⟩
        · by_cases hip : i < pos
          · rw [e2 _ (by unfold InR; omega)]; exact hW.data i hip
          · have := e3 hst (i - pos) (by omega)
            rw [show A.toNat + pos + (i - pos) = A.toNat + i by omega,
              show pos + (i - pos) = i by omega] at this
            exact this
        · rw [e2 x (by unfold InR at *; omega)]
          exact hW.frame x (by unfold InR at *; omega)
      · rw [if_pos (by simpa using hst)]
        exact ⟨e1, hfr, fun h => absurd h hst, hlive⟩
    · rw [if_neg hle]
      refine ⟨(by decide : 0x73 ≤ (UDP_IAP_SUCCESS).toNat), fun x hx => hW.frame x ?_, fun _ => ⟨hW, by show left < bs; omega, h2, rfl, h3⟩, fun _ _ => rfl⟩
      unfold InR at *; omega

theorem programBlocks_left (E : Env) (ram : Nat → Byte) (bs fuel : Nat) :
    ∀ hw left a pos, (programBlocks E ram bs fuel hw left a pos).2.2.1 ≤ left := by
  induction fuel with
  | zero => intro hw left a pos; exact Nat.le_refl _
  | succ f ih =>
    intro hw left a pos
    unfold programBlocks
    dsimp only
    split
    · split
      · exact Nat.le_refl _
      · exact Nat.le_trans (ih _ _ _ _) (Nat.sub_le _ _)
    · exact Nat.le_refl _

theorem programSizes_left (E : Env) (ram : Nat → Byte) (sizes : List Nat) :
    ∀ hw left a pos, (programSizes E ram sizes hw left a pos).2.2.1 ≤ left := by
  induction sizes with
  | nil => intro hw left a pos; exact Nat.le_refl _
  | cons bs rest ih =>
    intro hw left a pos
    unfold programSizes
    dsimp only
    split
    · exact ih _ _ _ _
    · split
      · exact programBlocks_left _ _ _ _ _ _ _ _
      · exact Nat.le_trans (ih _ _ _ _) (programBlocks_left _ _ _ _ _ _ _ _)

theorem programAll_spec {E : Env} (L : Layout E) (hw : Hw) (ram : Nat → Byte) (count : Nat) (A : U32)
    (T : Target E A count) (hpos : 0 < count) :
    0x73 ≤ (programAll E hw ram count A).1.toNat ∧
    (∀ x, ¬ InR A.toNat (cap count) x → (programAll E hw ram count A).2.flash x = hw.flash x) ∧
    ((programAll E hw ram count A).1 = UDP_IAP_SUCCESS →
      ∀ i, i < cap count → (programAll E hw ram count A).2.flash (A.toNat + i) = ram i) ∧
    ((∀ k, E.fault k = none) → (∀ i, i < cap count → hw.flash (A.toNat + i) = 0xFF#8) →
      (programAll E hw ram count A).1 = UDP_IAP_SUCCESS) := by
  have hsz := L.size
  have hT := T.high
  have hcd : cap count = (count + 255) / 256 * 256 := rfl
  -- generic post-condition of the loop over block sizes
  have key : ∀ (sizes : List Nat), (∀ b ∈ sizes, b = 256 ∨ b = 512 ∨ b = 1024) → ∀ hw1 left pos,
      pos + left = count → pos % 256 = 0 → Written hw hw1 ram A.toNat pos →
      let r := programSizes E ram sizes hw1 left (A + BitVec.ofNat 32 pos) pos
      0x73 ≤ r.1.toNat ∧ (∀ x, ¬ InR A.toNat (cap count) x → r.2.1.flash x = hw.flash x) ∧
      (r.1 = UDP_IAP_SUCCESS →
        Written hw r.2.1 ram A.toNat r.2.2.2.2 ∧ (r.2.2.1 = 0 ∨ ∀ b ∈ sizes, r.2.2.1 < b) ∧
        r.2.2.2.2 + r.2.2.1 = count ∧
        r.2.2.2.1 = A + BitVec.ofNat 32 r.2.2.2.2 ∧ r.2.2.2.2 % 256 = 0) ∧
      ((∀ k, E.fault k = none) → (∀ i, i < cap count → hw.flash (A.toNat + i) = 0xFF#8) →
        r.1 = UDP_IAP_SUCCESS) := by
    intro sizes
    induction sizes with
    | nil =>
      intro _ hw1 left pos h2 h3 hW
      refine ⟨(by decide : 0x73 ≤ (UDP_IAP_SUCCESS).toNat), fun x hx => hW.frame x ?_, fun _ => ⟨hW, .inr (by simp), h2, rfl, h3⟩,
        fun _ _ => rfl⟩
      unfold InR at *; omega
    | cons bs rest ih =>
      intro hall hw1 left pos h2 h3 hW
      have hbs := hall bs (by simp)
      unfold programSizes
      dsimp only
      rw [if_neg (by unfold bufferSize; omega)]
      have hB := programBlocks_spec L ram A count bs T hbs hw left hw1 left pos (Nat.le_refl _) h2 h3 hW
      dsimp only at hB
      obtain ⟨b1, b2, b3, b4⟩ := hB
      by_cases hst : (programBlocks E ram bs left hw1 left (A + BitVec.ofNat 32 pos) pos).1 = UDP_IAP_SUCCESS
      · obtain ⟨w, wl, wc, wa, wm⟩ := b3 hst
        by_cases hz : (programBlocks E ram bs left hw1 left (A + BitVec.ofNat 32 pos) pos).2.2.1 = 0
        · rw [if_pos (.inr hz)]
          exact ⟨b1, b2, fun _ => ⟨w, .inl hz, wc, wa, wm⟩, b4⟩
        · rw [if_neg (by simp [hst, hz])]
          have := ih (fun b hb => hall b (by simp [hb])) _ _ _ wc wm w
          rw [← wa] at this
          obtain ⟨c1, c2, c3, c4⟩ := this
          refine ⟨c1, c2, fun h => ?_, c4⟩
          obtain ⟨d1, d2, d3, d4, d5⟩ := c3 h
          refine ⟨d1, ?_, d3, d4, d5⟩
          rcases d2 with d2 | d2
          · exact .inl d2
          · by_cases hr0 : (programSizes E ram rest (programBlocks E ram bs left hw1 left (A + BitVec.ofNat 32 pos) pos).2.1 (programBlocks E ram bs left hw1 left (A + BitVec.ofNat 32 pos) pos).2.2.1 (programBlocks E ram bs left hw1 left (A + BitVec.ofNat 32 pos) pos).2.2.2.1 (programBlocks E ram bs left hw1 left (A + BitVec.ofNat 32 pos) pos).2.2.2.2).2.2.1 = 0
            · exact .inl hr0
            · refine .inr fun b hb => ?_
              rcases List.mem_cons.mp hb with rfl | hb
              · refine Nat.lt_of_le_of_lt ?_ wl
                have := programSizes_left E ram rest (programBlocks E ram b left hw1 left (A + BitVec.ofNat 32 pos) pos).2.1 (programBlocks E ram b left hw1 left (A + BitVec.ofNat 32 pos) pos).2.2.1 (programBlocks E ram b left hw1 left (A + BitVec.ofNat 32 pos) pos).2.2.2.1 (programBlocks E ram b left hw1 left (A + BitVec.ofNat 32 pos) pos).2.2.2.2
                exact this
              · exact d2 b hb
      · rw [if_pos (.inl hst)]
        exact ⟨b1, b2, fun h => absurd h hst, b4⟩
  have hk := key [0x400, 0x200, 0x100] (by simp) hw count 0 (by omega) rfl
    ⟨fun i hi => by omega, fun _ _ => rfl⟩
  have hskip : programSizes E ram iapBlockSizes hw count A 0
      = programSizes E ram [0x400, 0x200, 0x100] hw count (A + BitVec.ofNat 32 0) 0 := by
    rw [show A + BitVec.ofNat 32 0 = A by simp]
    unfold iapBlockSizes
    rw [programSizes, if_pos (by decide)]
  unfold programAll
  dsimp only
  rw [hskip]
  dsimp only at hk
  generalize programSizes E ram [0x400, 0x200, 0x100] hw count (A + BitVec.ofNat 32 0) 0 = r at hk
  obtain ⟨k1, k2, k3, k4⟩ := hk
  by_cases hst : r.1 = UDP_IAP_SUCCESS
  · obtain ⟨w, wl, wc, wa, wm⟩ := k3 hst
    have hl256 : r.2.2.1 < 256 := by
      rcases wl with h | h
      · omega
      · exact h 256 (by simp)
    by_cases hz : r.2.2.1 = 0
    · rw [if_neg (by omega)]
      have hp : r.2.2.2.2 = cap count := by omega
      exact ⟨k1, k2, fun _ => by rw [← hp]; exact w.data, k4⟩
    · rw [if_pos ⟨hst, by omega, by omega⟩, wa]
      have ha : (A + BitVec.ofNat 32 r.2.2.2.2).toNat = A.toNat + r.2.2.2.2 := by
        simp only [BitVec.toNat_add, BitVec.toNat_ofNat]; omega
      have hp : r.2.2.2.2 + 256 = cap count := by omega
      have hE := exec_spec L r.2.1 (A + BitVec.ofNat 32 r.2.2.2.2) (fun i => ram (r.2.2.2.2 + i)) 256
        (by rw [ha]; have := T.align; omega) (by omega) (by rw [ha]; have := T.low; omega)
        (by rw [ha]; omega)
      rw [ha] at hE
      obtain ⟨e1, e2, e3, e4⟩ := hE
      refine ⟨e1, fun x hx => ?_, fun h i hi => ?_, fun hF hB => ?_⟩
      · rw [e2 x (by unfold InR at *; omega)]
        exact w.frame x (by unfold InR at *; omega)
      · by_cases hip : i < r.2.2.2.2
        · rw [e2 _ (by unfold InR; omega)]; exact w.data i hip
        · have := e3 h (i - r.2.2.2.2) (by omega)
          rw [show A.toNat + r.2.2.2.2 + (i - r.2.2.2.2) = A.toNat + i by omega,
            show r.2.2.2.2 + (i - r.2.2.2.2) = i by omega] at this
          exact this
      · refine e4 hF (by omega) fun i hi => ?_
        rw [w.frame _ (by unfold InR; omega), Nat.add_assoc]
        exact hB _ (by omega)
  · rw [if_neg (by simp [hst])]
    exact ⟨k1, k2, fun h => absurd h hst, k4⟩

end Verif.Boot
