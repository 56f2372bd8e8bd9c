import Verif.Eeprom.Spec
import Verif.Flash.IapLemmas

namespace Verif.Eeprom

open Verif.Iap

theorem known_facts {c : Cfg} (h : Known c) :
    0 < c.size ∧ c.size ≤ c.flashSize ∧ c.flashSize * numPages c = 0x1000 ∧ 0 < numPages c ∧
      c.flashSize % 256 = 0 ∧ 0 < c.flashSize := by
  rcases h with rfl | rfl | rfl <;> decide

theorem findFrom_some {f : Nat → Byte} {c : Cfg} {first n p : Nat}
    (h : findFrom f c first n = some p) :
    ∃ j, j < n ∧ p = first + c.flashSize * j ∧
      f (first + c.flashSize * j + (c.size - 1)) ≠ 0xff#8 ∧
      ∀ k, j < k → k < n → f (first + c.flashSize * k + (c.size - 1)) = 0xff#8 := by
  induction n with
  | zero => cases h
  | succ n ih =>
    unfold findFrom at h
    split at h
    · rename_i hu
      cases h
      exact ⟨n, by omega, rfl, hu, fun k h1 h2 => by omega⟩
    · rename_i hu
      obtain ⟨j, h1, h2, h3, h4⟩ := ih h
      refine ⟨j, by omega, h2, h3, ?_⟩
      intro k hk1 hk2
      by_cases hkn : k = n
      · subst hkn; simpa using hu
      · exact h4 k hk1 (by omega)

theorem findFrom_none {f : Nat → Byte} {c : Cfg} {first n : Nat}
    (h : findFrom f c first n = none) :
    ∀ k, k < n → f (first + c.flashSize * k + (c.size - 1)) = 0xff#8 := by
  induction n with
  | zero => intro k hk; omega
  | succ n ih =>
    unfold findFrom at h
    split at h
    · cases h
    · rename_i hu
      intro k hk
      by_cases hkn : k = n
      · subst hkn; simpa using hu
      · exact ih h k (by omega)

theorem findFrom_eq {f : Nat → Byte} {c : Cfg} {first n j : Nat} (hj : j < n)
    (hu : f (first + c.flashSize * j + (c.size - 1)) ≠ 0xff#8)
    (hl : ∀ k, j < k → k < n → f (first + c.flashSize * k + (c.size - 1)) = 0xff#8) :
    findFrom f c first n = some (first + c.flashSize * j) := by
  induction n with
  | zero => omega
  | succ n ih =>
    unfold findFrom
    by_cases hjn : j = n
    · subst hjn; rw [if_pos hu]
    · rw [if_neg (by simpa using hl n (by omega) (by omega))]
      exact ih (by omega) (fun k h1 h2 => hl k h1 (by omega))

theorem findFrom_eq_none {f : Nat → Byte} {c : Cfg} {first n : Nat}
    (hl : ∀ k, k < n → f (first + c.flashSize * k + (c.size - 1)) = 0xff#8) :
    findFrom f c first n = none := by
  induction n with
  | zero => rfl
  | succ n ih =>
    unfold findFrom
    rw [if_neg (by simpa using hl n (by omega))]
    exact ih (fun k h => hl k (by omega))

theorem pageAddr_eq (E : Env) (c : Cfg) (k : Nat) :
    pageAddr E c k = sectorAddr E + c.flashSize * k := by
  rfl

theorem pageAddr_zero (E : Env) (c : Cfg) : pageAddr E c 0 = sectorAddr E := by
  rw [pageAddr_eq]; omega

theorem find_lastUsed {E : Env} {c : Cfg} {f : Nat → Byte} {j : Nat} (h : LastUsed E c f j) :
    findValidPage E c f = some (pageAddr E c j) := by
  have h3 := h.2.2
  have h2 := h.2.1
  unfold Used at h2 h3
  simp only [pageAddr_eq] at h2 h3 ⊢
  exact findFrom_eq h.1 h2 (fun k k1 k2 => Decidable.not_not.1 (h3 k k1 k2))

theorem find_cases (E : Env) (c : Cfg) (f : Nat → Byte) :
    (∃ j, LastUsed E c f j ∧ findValidPage E c f = some (pageAddr E c j)) ∨
    ((∀ k, k < numPages c → ¬ Used E c f k) ∧ findValidPage E c f = none) := by
  cases h : findValidPage E c f with
  | none =>
    right
    refine ⟨fun k hk => ?_, rfl⟩
    unfold Used
    rw [pageAddr_eq]
    exact fun hx => hx (findFrom_none h k hk)
  | some p =>
    left
    obtain ⟨j, h1, h2, h3, h4⟩ := findFrom_some h
    refine ⟨j, ⟨h1, by unfold Used; rw [pageAddr_eq]; exact h3, ?_⟩, by rw [h2, pageAddr_eq]⟩
    intro k hk1 hk2
    unfold Used
    rw [pageAddr_eq]
    exact fun hx => hx (h4 k hk1 hk2)

/-! ## The index of the page written next -/

/-- Index of the next page. -/
theorem nextPage_cases (E : Env) {c : Cfg} (hc : Known c) (f : Nat → Byte) :
    (∃ j, LastUsed E c f j ∧ j + 1 < numPages c ∧ nextPage E c f = pageAddr E c (j + 1) ∧
      nextPage E c f ≠ sectorAddr E) ∨
    (nextPage E c f = sectorAddr E ∧ ∀ j, LastUsed E c f j → j + 1 = numPages c) := by
  obtain ⟨h0, h1, h2, h3, h4, h5⟩ := known_facts hc
  rcases find_cases E c f with ⟨j, hl, hf⟩ | ⟨hn, hf⟩
  · by_cases hj : j + 1 < numPages c
    · left
      have hne : pageAddr E c j ≠ lastPage E c := by
        unfold pageAddr lastPage sectorAddr
        intro h
        have : c.flashSize * j = c.flashSize * (numPages c - 1) := by omega
        have := Nat.eq_of_mul_eq_mul_left h5 this
        omega
      have e : nextPage E c f = pageAddr E c (j + 1) := by
        unfold nextPage
        rw [hf]
        simp only [hne, if_false]
        unfold pageAddr
        rw [Nat.mul_add]
        omega
      refine ⟨j, hl, hj, e, ?_⟩
      rw [e]
      unfold pageAddr sectorAddr
      have := Nat.mul_le_mul_left c.flashSize (show 1 ≤ j + 1 by omega)
      omega
    · right
      have hlast : j = numPages c - 1 := by have := hl.1; omega
      refine ⟨?_, ?_⟩
      · unfold nextPage
        rw [hf]
        subst hlast
        rw [pageAddr_eq]
        exact if_pos rfl
      · intro k hk
        have := find_lastUsed hk
        rw [hf] at this
        have e : pageAddr E c j = pageAddr E c k := Option.some.inj this
        unfold pageAddr at e
        have := Nat.eq_of_mul_eq_mul_left h5 (show c.flashSize * j = c.flashSize * k by omega)
        have := hl.1
        omega
  · right
    refine ⟨?_, ?_⟩
    · unfold nextPage; rw [hf]
    · intro k hk
      exact absurd hk.2.1 (hn k hk.1)

/-! ## Programming -/

theorem chunks_known {c : Cfg} (hc : Known c) :
    (c = bcu1 ∧ chunks c.size = [0]) ∨ (c = bcu2 ∧ chunks c.size = [0]) ∨
      (c = mask0701 ∧ chunks c.size = [0, 1024, 2048]) := by
  rcases hc with rfl | rfl | rfl
  · exact Or.inl ⟨rfl, by decide⟩
  · exact Or.inr (Or.inl ⟨rfl, by decide⟩)
  · exact Or.inr (Or.inr ⟨rfl, by decide⟩)

theorem toNat_addr {a : Nat} (h : a < 2 ^ 32) : (BitVec.ofNat 32 a).toNat = a := by
  rw [BitVec.toNat_ofNat]; exact Nat.mod_eq_of_lt h

/-- Nothing outside the page is touched. -/
theorem programChunks_out (E : Env) (page : Nat) (data : Nat → Byte) (size : Nat) (is : List Nat)
    (hw : Hw) (hp : page + size < 2 ^ 32) (his : ∀ i ∈ is, i < size) (a : Nat)
    (ha : ¬ (page ≤ a ∧ a < page + size)) :
    (programChunks E page data size is hw).2.flash a = hw.flash a := by
  induction is generalizing hw with
  | nil => rfl
  | cons i is ih =>
    have hi := his i (by simp)
    have hstep : (program E hw (BitVec.ofNat 32 (page + i)) (fun k => data (i + k))
        (min (size - i) 1024)).2.flash a = hw.flash a := by
      apply program_out
      rw [toNat_addr (by omega)]
      omega
    simp only [programChunks]
    split
    · exact hstep
    · rw [ih _ (fun j hj => his j (by simp [hj])), hstep]

/-- After success the page holds the data. -/
theorem programChunks_ok (E : Env) (page : Nat) (data : Nat → Byte) (size : Nat) (is : List Nat)
    (hw : Hw) (hp : page + size < 2 ^ 32)
    (hdisj : is.Pairwise (fun i j => i + 1024 ≤ j)) (his : ∀ i ∈ is, i < size)
    (h : (programChunks E page data size is hw).1 = true) :
    ∀ i ∈ is, ∀ k, k < min (size - i) 1024 →
      (programChunks E page data size is hw).2.flash (page + i + k) = data (i + k) := by
  induction is generalizing hw with
  | nil => simp
  | cons i is ih =>
    have hi := his i (by simp)
    rw [List.pairwise_cons] at hdisj
    simp only [programChunks] at h ⊢
    split at h
    · cases h
    · rename_i h0
      rw [if_neg h0]
      have h0' : (program E hw (BitVec.ofNat 32 (page + i)) (fun k => data (i + k))
        (min (size - i) 1024)).1 = 0 := by simpa using h0
      intro j hj k hk
      rcases List.mem_cons.1 hj with rfl | hj
      · have hkeep : ∀ (is : List Nat) (hw : Hw), (∀ i ∈ is, j + 1024 ≤ i) → (∀ i ∈ is, i < size) →
            (programChunks E page data size is hw).2.flash (page + j + k) =
              hw.flash (page + j + k) := by
          intro is
          induction is with
          | nil => intro hw _ _; rfl
          | cons i2 is ih2 =>
            intro hw hge hlt
            have e1 := hge i2 (by simp)
            have e2 := hlt i2 (by simp)
            have hstep : (program E hw (BitVec.ofNat 32 (page + i2)) (fun k => data (i2 + k))
                (min (size - i2) 1024)).2.flash (page + j + k) = hw.flash (page + j + k) := by
              apply program_out
              rw [toNat_addr (by omega)]
              omega
            simp only [programChunks]
            split
            · exact hstep
            · rw [ih2 _ (fun i hi => hge i (by simp [hi])) (fun i hi => hlt i (by simp [hi])),
                hstep]
        rw [hkeep is _ (fun i hi => hdisj.1 i hi) (fun i hi => his i (by simp [hi]))]
        have := program_ok E hw _ _ _ h0' k hk
        rw [toNat_addr (by omega)] at this
        exact this
      · exact ih _ hdisj.2 (fun i hi => his i (by simp [hi])) h j hj k hk

theorem chunks_lt {c : Cfg} (hc : Known c) : ∀ i ∈ chunks c.size, i < c.size := by
  rcases hc with rfl | rfl | rfl <;> decide

theorem chunks_pairwise {c : Cfg} (hc : Known c) :
    (chunks c.size).Pairwise (fun i j => i + 1024 ≤ j) := by
  rcases hc with rfl | rfl | rfl <;> decide

theorem chunks_cover {c : Cfg} (hc : Known c) (i : Nat) (hi : i < c.size) :
    ∃ b ∈ chunks c.size, ∃ k, k < min (c.size - b) 1024 ∧ i = b + k := by
  rcases hc with rfl | rfl | rfl
  · exact ⟨0, by decide, i, by simp [bcu1] at hi ⊢; omega, by omega⟩
  · exact ⟨0, by decide, i, by simp [bcu2] at hi ⊢; omega, by omega⟩
  · have hi : i < 3072 := hi
    refine ⟨i / 1024 * 1024, ?_, i % 1024, ?_, by omega⟩
    · rw [show chunks mask0701.size = [0, 1024, 2048] by decide]
      have : i / 1024 = 0 ∨ i / 1024 = 1 ∨ i / 1024 = 2 := by omega
      rcases this with h | h | h <;> rw [h] <;> simp
    · show i % 1024 < min (3072 - i / 1024 * 1024) 1024
      omega

theorem program_image {E : Env} {c : Cfg} (hc : Known c) {page : Nat} {data : Nat → Byte} {hw : Hw}
    (hp : page + c.size < 2 ^ 32)
    (h : (programChunks E page data c.size (chunks c.size) hw).1 = true) (i : Nat)
    (hi : i < c.size) :
    (programChunks E page data c.size (chunks c.size) hw).2.flash (page + i) = data i := by
  obtain ⟨b, hb, k, hk, rfl⟩ := chunks_cover hc i hi
  rw [← Nat.add_assoc]
  exact programChunks_ok E page data c.size _ hw hp (chunks_pairwise hc) (chunks_lt hc) h b hb k hk

/-- On working flash an erased page can be programmed. -/
theorem programChunks_noFault {E : Env} (hE : ∀ k, E.fault k = none) (hF : FlashOk E) {c : Cfg}
    (hc : Known c) {page : Nat} (hpa : page % 256 = 0) (hpt : page + c.size ≤ E.top)
    (data : Nat → Byte) (hw : Hw) (hblank : ∀ i, i < c.size → hw.flash (page + i) = 0xff#8) :
    (programChunks E page data c.size (chunks c.size) hw).1 = true := by
  obtain ⟨f1, f2, f3⟩ := hF
  have key : ∀ (is : List Nat) (hw : Hw), is.Pairwise (fun i j => i + 1024 ≤ j) →
      (∀ i ∈ is, i < c.size ∧ i % 256 = 0 ∧
        (min (c.size - i) 1024 = 256 ∨ min (c.size - i) 1024 = 1024)) →
      (∀ i ∈ is, ∀ k, k < min (c.size - i) 1024 → hw.flash (page + i + k) = 0xff#8) →
      (programChunks E page data c.size is hw).1 = true := by
    intro is
    induction is with
    | nil => intro hw _ _ _; rfl
    | cons i is ih =>
      intro hw hd his hb
      rw [List.pairwise_cons] at hd
      obtain ⟨i1, i2, i3⟩ := his i (by simp)
      have hok := program_noFault E hE hw (BitVec.ofNat 32 (page + i)) (fun k => data (i + k))
        (min (c.size - i) 1024) (by rw [toNat_addr (by omega)]; omega)
        (by rw [toNat_addr (by omega)]; omega) f1 f3
        (by rcases i3 with h | h <;> rw [h] <;> simp)
        (by rw [toNat_addr (by omega)]; exact hb i (by simp))
      simp only [programChunks]
      rw [if_neg (by rw [hok]; simp)]
      refine ih _ hd.2 (fun j hj => his j (by simp [hj])) ?_
      intro j hj k hk
      have hj1 := hd.1 j hj
      rw [program_out]
      · exact hb j (by simp [hj]) k hk
      · rw [toNat_addr (by omega)]
        omega
  refine key _ hw (chunks_pairwise hc) ?_ ?_
  · rcases hc with rfl | rfl | rfl <;> decide
  · intro i hi k hk
    rw [Nat.add_assoc]
    exact hblank _ (by omega)

/-! ## The effect of a save -/

theorem sectorOf {E : Env} (hF : FlashOk E) :
    sectorOfAddress (BitVec.ofNat 32 (sectorAddr E)) = E.top / 0x1000 - 1 ∧
    (E.top / 0x1000 - 1) * 0x1000 = sectorAddr E ∧
    (E.top / 0x1000 - 1 + 1) * 0x1000 = E.top := by
  obtain ⟨f1, f2, f3⟩ := hF
  have e : (BitVec.ofNat 32 (sectorAddr E)).toNat = sectorAddr E :=
    toNat_addr (by unfold sectorAddr; omega)
  refine ⟨?_, ?_, ?_⟩
  · rw [sectorOfAddress_small _ (by rw [e]; unfold sectorAddr; omega), e]
    unfold sectorAddr
    omega
  · unfold sectorAddr; omega
  · omega

theorem pageAddr_bound {E : Env} (hF : FlashOk E) {c : Cfg} (hc : Known c) {k : Nat}
    (hk : k < numPages c) :
    sectorAddr E ≤ pageAddr E c k ∧ pageAddr E c k + c.flashSize ≤ E.top := by
  obtain ⟨h0, h1, h2, h3, h4, h5⟩ := known_facts hc
  obtain ⟨f1, f2, f3⟩ := hF
  have := Nat.mul_le_mul_left c.flashSize (show k + 1 ≤ numPages c by omega)
  rw [h2, Nat.mul_add] at this
  unfold pageAddr sectorAddr
  omega

theorem page_disjoint {E : Env} {c : Cfg} {k m : Nat} (h : k ≠ m) :
    pageAddr E c k + c.flashSize ≤ pageAddr E c m ∨
    pageAddr E c m + c.flashSize ≤ pageAddr E c k := by
  unfold pageAddr
  rcases Nat.lt_or_gt_of_ne h with h | h
  · left
    have := Nat.mul_le_mul_left c.flashSize (show k + 1 ≤ m by omega)
    rw [Nat.mul_add] at this
    omega
  · right
    have := Nat.mul_le_mul_left c.flashSize (show m + 1 ≤ k by omega)
    rw [Nat.mul_add] at this
    omega

/-- A completed save: the page `j` is written and is the last one in use. -/
theorem save_done {E : Env} (hF : FlashOk E) {c : Cfg} (hc : Known c) {hw : Hw} {e : Eep}
    (hm : e.modified = true) (h : (writeUserEeprom E c hw e).1 = true) :
    (writeUserEeprom E c hw e).2.2 = ⟨mark c e.data, false⟩ ∧
    ∃ j, LastUsed E c (writeUserEeprom E c hw e).2.1.flash j ∧
      (∀ i, i < c.size → (writeUserEeprom E c hw e).2.1.flash (pageAddr E c j + i) =
        mark c e.data i) ∧
      (Clean E c hw.flash → Clean E c (writeUserEeprom E c hw e).2.1.flash) := by
  obtain ⟨h0, h1, h2, h3, h4, h5⟩ := known_facts hc
  have hFF := hF
  obtain ⟨f1, f2, f3⟩ := hF
  have hmark : mark c e.data (c.size - 1) ≠ 0xff#8 := by
    unfold mark; rw [if_pos rfl]; decide
  unfold writeUserEeprom at h ⊢
  simp only [hm, Bool.not_true, Bool.false_eq_true, if_false] at h ⊢
  rcases nextPage_cases E hc hw.flash with ⟨j, hl, hj, hp, hne⟩ | ⟨hp, hall⟩
  · rw [hp] at h hne ⊢
    rw [if_neg hne] at h ⊢
    simp only [ne_eq, not_true_eq_false, if_false] at h ⊢
    have hb := pageAddr_bound hFF hc hj
    by_cases hr : (programChunks E (pageAddr E c (j + 1)) (mark c e.data) c.size (chunks c.size)
        hw).1 = true
    · rw [if_pos hr]
      refine ⟨rfl, j + 1, ?_, ?_, ?_⟩
      · have himg := program_image hc (by omega) hr (c.size - 1) (by omega)
        refine ⟨hj, ?_, ?_⟩
        · unfold Used
          rw [himg]
          exact hmark
        · intro k hk1 hk2
          have := hl.2.2 k (by omega) hk2
          unfold Used at this ⊢
          rcases page_disjoint (E := E) (c := c) (show k ≠ j + 1 by omega) with hd | hd <;>
          · rw [programChunks_out _ _ _ _ _ _ (by omega) (chunks_lt hc) _ (by omega)]
            exact this
      · exact fun i hi => program_image hc (by omega) hr i hi
      · intro hcl k hk hun i hi
        have hkj : j + 1 < k := by
          by_cases hx : j + 1 < k
          · exact hx
          · exfalso
            refine hun (j + 1) (by omega) hj ?_
            unfold Used
            rw [program_image hc (by omega) hr (c.size - 1) (by omega)]
            exact hmark
        rcases page_disjoint (E := E) (c := c) (show k ≠ j + 1 by omega) with hd | hd <;>
        · rw [programChunks_out _ _ _ _ _ _ (by omega) (chunks_lt hc) _ (by omega)]
          exact hcl k hk (fun m h1 h2 => hl.2.2 m (by omega) h2) i hi
    · rw [if_neg hr] at h
      cases h
  · rw [hp] at h ⊢
    rw [if_pos rfl] at h ⊢
    obtain ⟨s1, s2, s3⟩ := sectorOf hFF
    rw [s1] at h ⊢
    split at h
    · cases h
    · rename_i her
      rw [if_neg her]
      have her' := eraseSectorRange_ok E hw _ _ (by simpa using her)
      obtain ⟨hw2, hhw2⟩ : ∃ hw2, (eraseSectorRange E hw (E.top / 0x1000 - 1)
        (E.top / 0x1000 - 1)).2 = hw2 := ⟨_, rfl⟩
      rw [hhw2] at h her' ⊢
      rw [s2, s3] at her'
      have e0 : sectorAddr E = pageAddr E c 0 := (pageAddr_zero E c).symm
      have hblank : ∀ a, sectorAddr E ≤ a → a < E.top → hw2.flash a = 0xff#8 := by
        intro a h1 h2
        rw [her', writeRange_in ⟨h1, h2⟩]
      rw [e0] at h ⊢
      have hb := pageAddr_bound hFF hc h3
      by_cases hr : (programChunks E (pageAddr E c 0) (mark c e.data) c.size (chunks c.size)
          hw2).1 = true
      · rw [if_pos hr]
        refine ⟨rfl, 0, ?_, ?_, ?_⟩
        · have himg := program_image hc (by omega) hr (c.size - 1) (by omega)
          refine ⟨h3, ?_, ?_⟩
          · unfold Used
            rw [himg]
            exact hmark
          · intro k hk1 hk2
            have hbk := pageAddr_bound hFF hc hk2
            unfold Used
            rcases page_disjoint (E := E) (c := c) (show k ≠ 0 by omega) with hd | hd <;>
            · rw [programChunks_out _ _ _ _ _ _ (by omega) (chunks_lt hc) _ (by omega),
                hblank _ (by omega) (by omega)]
              simp
        · exact fun i hi => program_image hc (by omega) hr i hi
        · intro hcl k hk hun i hi
          have hbk := pageAddr_bound hFF hc hk
          have hk0 : k ≠ 0 := by
            rintro rfl
            refine hun 0 (by omega) h3 ?_
            unfold Used
            rw [program_image hc (by omega) hr (c.size - 1) (by omega)]
            exact hmark
          rcases page_disjoint (E := E) (c := c) hk0 with hd | hd <;>
          · rw [programChunks_out _ _ _ _ _ _ (by omega) (chunks_lt hc) _ (by omega),
              hblank _ (by omega) (by omega)]
      · rw [if_neg hr] at h
        cases h

/-- On working flash every save of a clean sector completes. -/
theorem save_noFault {E : Env} (hE : ∀ k, E.fault k = none) (hF : FlashOk E) {c : Cfg}
    (hc : Known c) {hw : Hw} {e : Eep} (hcl : Clean E c hw.flash) :
    (writeUserEeprom E c hw e).1 = true := by
  obtain ⟨h0, h1, h2, h3, h4, h5⟩ := known_facts hc
  have hFF := hF
  obtain ⟨f1, f2, f3⟩ := hF
  have hal : ∀ k, pageAddr E c k % 256 = 0 := by
    intro k
    unfold pageAddr sectorAddr
    have : c.flashSize * k % 256 = 0 := by rw [Nat.mul_mod, h4]; simp
    omega
  unfold writeUserEeprom
  cases hm : e.modified
  · rfl
  · simp only [Bool.not_true, Bool.false_eq_true, if_false]
    rcases nextPage_cases E hc hw.flash with ⟨j, hl, hj, hp, hne⟩ | ⟨hp, hall⟩
    · rw [hp] at hne ⊢
      rw [if_neg hne]
      simp only [ne_eq, not_true_eq_false, if_false]
      have hb := pageAddr_bound hFF hc hj
      rw [if_pos (programChunks_noFault hE hFF hc (hal _) (by omega) _ hw
        (hcl (j + 1) hj (fun m h1 h2 => hl.2.2 m (by omega) h2)))]
    · rw [hp, if_pos rfl]
      obtain ⟨s1, s2, s3⟩ := sectorOf hFF
      rw [s1]
      obtain ⟨her, hef⟩ := eraseSectorRange_noFault E hE hw (E.top / 0x1000 - 1)
        (E.top / 0x1000 - 1) (by omega) (by omega)
      rw [if_neg (by rw [her]; simp)]
      rw [s2, s3] at hef
      have e0 : sectorAddr E = pageAddr E c 0 := (pageAddr_zero E c).symm
      have hb := pageAddr_bound hFF hc h3
      rw [e0] at hef ⊢
      rw [if_pos (programChunks_noFault hE hFF hc (hal _) (by omega) _ _ (by
        intro i hi
        rw [hef, writeRange_in (by omega)]))]

theorem read_image {E : Env} {c : Cfg} {f : Nat → Byte} {j : Nat} (h : LastUsed E c f j) (i : Nat)
    (hi : i < c.size) : (readUserEeprom E c f).data i = f (pageAddr E c j + i) := by
  unfold readUserEeprom
  simp only [find_lastUsed h, hi, if_true]

end Verif.Eeprom
