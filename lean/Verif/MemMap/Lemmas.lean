import Verif.MemMap.Spec
import Verif.Flash.IapLemmas

/-!
# Lemmas about the virtual memory
-/

namespace Verif.MemMap

open Verif.Iap

theorem toNat_small {n : Nat} (h : n < 2 ^ 32) : (BitVec.ofNat 32 n).toNat = n := by
  rw [BitVec.toNat_ofNat, Nat.mod_eq_of_lt h]

theorem AreaOk.basePage {E : Env} {c : Cfg} (h : AreaOk E c) : c.basePage = c.flashBase / 256 := by
  have h1 := h.fits
  have h2 := h.top
  have h3 : (BitVec.ofNat 32 c.flashBase).toNat = c.flashBase := by
    rw [BitVec.toNat_ofNat, Nat.mod_eq_of_lt (by omega)]
  unfold Cfg.basePage
  rw [pageOfAddress_small _ (by omega), h3]

/-- The numbers of an area: base page, number of pages. -/
theorem AreaOk.facts {E : Env} {c : Cfg} (h : AreaOk E c) :
    c.basePage * 256 = c.flashBase ∧ 1 ≤ c.basePage ∧ 2 ≤ c.sizePages ∧
      (c.basePage + c.sizePages) * 256 ≤ E.top ∧ c.basePage + c.sizePages ≤ 256 := by
  have h1 := h.fits
  have h2 := h.top
  have h3 := h.base
  have h4 := h.size
  rw [h.basePage]
  unfold Cfg.sizePages
  omega

theorem AreaOk.basePage_fits {E : Env} {c : Cfg} (h : AreaOk E c) :
    c.basePage * 256 + 256 ≤ E.top ∧ c.flashBase < 2 ^ 32 := by
  obtain ⟨f1, f2, f3, f4, f5⟩ := h.facts
  have h2 := h.top
  omega

/-! ## Flash -/

/-- Flash with one page replaced. -/
def setPage (f : Nat → Byte) (page : Nat) (data : Nat → Byte) : Nat → Byte :=
  fun a => if page * 256 ≤ a ∧ a < page * 256 + 256 then data (a - page * 256) else f a

theorem setPage_in (f : Nat → Byte) (page : Nat) (data : Nat → Byte) {i : Nat} (hi : i < 256) :
    setPage f page data (page * 256 + i) = data i := by
  unfold setPage
  rw [if_pos (by omega), Nat.add_sub_cancel_left]

theorem setPage_out (f : Nat → Byte) {page p : Nat} (data : Nat → Byte) {i : Nat} (hi : i < 256)
    (h : p ≠ page) : setPage f page data (p * 256 + i) = f (p * 256 + i) := by
  unfold setPage
  rw [if_neg (by omega)]

theorem flashPage_ok {E : Env} (hE : ∀ k, E.fault k = none) (htop : E.top % 0x1000 = 0 ∧ E.top ≤ 0x10000)
    {page : Nat} {addr : U32} (hp : page * 256 + 256 ≤ E.top) (ha : addr.toNat = page * 256)
    (data : Nat → Byte) (s : St) :
    ∃ hw : Hw, flashPage E page addr data s = { s with hw := hw } ∧
      hw.flash = setPage s.hw.flash page data := by
  have e0 := erasePageRange_noFault E hE htop.1 s.hw page page (Nat.le_refl _) (by omega)
  have e1 := (erasePageRange_ok E s.hw page page e0).2.2
  obtain ⟨r, hr⟩ : ∃ r, erasePageRange E s.hw page page = r := ⟨_, rfl⟩
  rw [hr] at e0 e1
  have p0 : (program E r.2 addr data 0x100).1 = 0 := by
    refine program_noFault E hE r.2 addr data 0x100 (by omega) (by omega) htop.1 htop.2 (Or.inl rfl) ?_
    intro i hi
    rw [e1, writeRange_in (by omega)]
  refine ⟨(program E r.2 addr data 0x100).2, ?_, ?_⟩
  · unfold flashPage
    simp only [hr, e0, p0, ne_eq, not_true_eq_false, if_false]
  · funext a
    unfold setPage
    by_cases h : page * 256 ≤ a ∧ a < page * 256 + 256
    · rw [if_pos h]
      have := program_ok E r.2 addr data 0x100 p0 (a - page * 256) (by omega)
      rwa [ha, show page * 256 + (a - page * 256) = a by omega] at this
    · rw [if_neg h, program_out E r.2 addr data 0x100 a (by omega), e1, writeRange_out (by omega)]

theorem doFlash_ok {E : Env} (hE : ∀ k, E.fault k = none) {c : Cfg} (hA : AreaOk E c) {s : St}
    (hh : s.halted = false) (hwp : s.flashMemModified = true →
      s.writePage ≠ c.basePage ∧ s.writePage * 256 + 256 ≤ E.top) :
    ∃ hw : Hw, doFlash E c s =
        { s with hw := hw, flashMemModified := false, allocTableModified := false } ∧
      (∀ i, i < 256 → hw.flash (c.basePage * 256 + i) =
        if s.allocTableModified then s.allocTable i else s.hw.flash (c.basePage * 256 + i)) ∧
      ∀ p, p ≠ c.basePage → ∀ i, i < 256 → hw.flash (p * 256 + i) =
        if s.flashMemModified ∧ p = s.writePage then s.writeBuf i else s.hw.flash (p * 256 + i) := by
  obtain ⟨f1, f2, f3, f4, f5⟩ := hA.facts
  have ht := hA.top
  obtain ⟨b1, b2⟩ := hA.basePage_fits
  obtain ⟨hw1, g1, g2⟩ := flashPage_ok hE ht b1 ((toNat_small b2).trans f1.symm) s.allocTable s
  have step2 : ∀ s1 : St, s1.halted = false → s1.flashMemModified = s.flashMemModified →
      s1.writePage = s.writePage → s1.writeBuf = s.writeBuf →
      ∃ hw : Hw, (if s1.halted then s1
        else if s1.flashMemModified then
          let r := flashPage E s1.writePage (addressOfPage s1.writePage) s1.writeBuf s1
          if r.halted then r else { r with flashMemModified := false }
        else s1) = { s1 with hw := hw, flashMemModified := false } ∧
        hw.flash = if s.flashMemModified then setPage s1.hw.flash s.writePage s.writeBuf
          else s1.hw.flash := by
    intro s1 k1 k2 k3 k4
    rw [if_neg (by simp [k1]), k2]
    cases hm : s.flashMemModified
    · refine ⟨s1.hw, ?_, by simp⟩
      have : s1.flashMemModified = false := k2.trans hm
      simp only [Bool.false_eq_true, if_false]
      rw [← this]
    · obtain ⟨q1, q2⟩ := hwp hm
      have b3 : s1.writePage * 256 + 256 ≤ E.top := by rw [k3]; exact q2
      have b4 : s1.writePage * 256 < 2 ^ 32 :=
        Nat.lt_of_le_of_lt (Nat.le_trans (Nat.le_add_right _ _) (Nat.le_trans b3 ht.2)) (by decide)
      have b5 : (addressOfPage s1.writePage).toNat = s1.writePage * 256 := toNat_small b4
      obtain ⟨hw2, g3, g4⟩ := flashPage_ok hE ht b3 b5 s1.writeBuf s1
      refine ⟨hw2, ?_, by rw [g4, k3, k4]; simp⟩
      simp only [if_true]
      rw [g3]
      simp only [k1, Bool.false_eq_true, if_false]
  unfold doFlash
  cases htm : s.allocTableModified
  · simp only [Bool.false_eq_true, if_false]
    obtain ⟨hw, e1, e2⟩ := step2 s hh rfl rfl rfl
    refine ⟨hw, ?_, ?_, ?_⟩
    · rw [e1, ← htm]
    · intro i hi
      rw [e2]
      cases hm : s.flashMemModified
      · simp
      · simp only [if_true]
        exact setPage_out _ _ hi (Ne.symm (hwp hm).1)
    · intro p hp i hi
      rw [e2]
      cases hm : s.flashMemModified
      · simp
      · simp only [if_true, true_and]
        by_cases hpw : p = s.writePage
        · rw [if_pos hpw, hpw]; exact setPage_in _ _ _ hi
        · rw [if_neg hpw]; exact setPage_out _ _ hi hpw
  · simp only [if_true]
    rw [g1]
    simp only [hh, Bool.false_eq_true, if_false]
    obtain ⟨hw, e1, e2⟩ := step2 { s with hw := hw1, allocTableModified := false } hh rfl rfl rfl
    simp only [hh, Bool.false_eq_true, if_false] at e1
    refine ⟨hw, ?_, ?_, ?_⟩
    · rw [e1]
    · intro i hi
      rw [e2, g2]
      cases hm : s.flashMemModified
      · simp only [Bool.false_eq_true, if_false]
        exact setPage_in _ _ _ hi
      · simp only [if_true]
        rw [setPage_out _ _ hi (Ne.symm (hwp hm).1)]
        exact setPage_in _ _ _ hi
    · intro p hp i hi
      rw [e2, g2]
      cases hm : s.flashMemModified
      · simp only [Bool.false_eq_true, if_false, false_and]
        exact setPage_out _ _ hi hp
      · simp only [if_true, true_and]
        by_cases hpw : p = s.writePage
        · rw [if_pos hpw, hpw]; exact setPage_in _ _ _ hi
        · rw [if_neg hpw, setPage_out _ _ hi hpw]; exact setPage_out _ _ hi hp

/-! ## The table -/

/-- The flash page of a table entry. -/
def entry (b : Byte) : Nat := (b ^^^ 0xff#8).toNat

/-- The table maps `n` virtual pages one-to-one to the flash pages `base + 1, …, base + n`. -/
structure TblOk (base : Nat) (tab : Nat → Byte) (n : Nat) : Prop where
  range : ∀ v, v < 256 → entry (tab v) = 0 ∨ (base < entry (tab v) ∧ entry (tab v) ≤ base + n)
  inj : ∀ v w, v < 256 → w < 256 → entry (tab v) ≠ 0 → entry (tab v) = entry (tab w) → v = w
  surj : ∀ k, 1 ≤ k → k ≤ n → ∃ v, v < 256 ∧ entry (tab v) = base + k

theorem foldl_max_le (g : Nat → Nat) (l : List Nat) (b m : Nat) (hm : m ≤ b)
    (h : ∀ i ∈ l, g i ≤ b) : l.foldl (fun m i => max m (g i)) m ≤ b := by
  induction l generalizing m with
  | nil => exact hm
  | cons x l ih =>
    have := h x (List.mem_cons_self ..)
    exact ih _ (Nat.max_le.2 ⟨hm, this⟩) (fun i hi => h i (List.mem_cons_of_mem _ hi))

theorem le_foldl_max (g : Nat → Nat) (l : List Nat) (m : Nat) :
    m ≤ l.foldl (fun m i => max m (g i)) m ∧ ∀ i ∈ l, g i ≤ l.foldl (fun m i => max m (g i)) m := by
  induction l generalizing m with
  | nil => exact ⟨Nat.le_refl _, fun i hi => by simp at hi⟩
  | cons x l ih =>
    obtain ⟨h1, h2⟩ := ih (max m (g x))
    refine ⟨Nat.le_trans (Nat.le_max_left ..) h1, fun i hi => ?_⟩
    rcases List.mem_cons.1 hi with rfl | hi
    · exact Nat.le_trans (Nat.le_max_right ..) h1
    · exact h2 i hi

theorem highest_eq {base n : Nat} {s : St} (ht : TblOk base s.allocTable n)
    (hl : s.lastAllocated = 0 ∨ (s.lastAllocated = base + n ∧ 1 ≤ n)) :
    highest s = if n = 0 then 0 else base + n := by
  unfold highest
  rcases hl with hl | ⟨hl, hn⟩
  · rw [if_pos hl]
    have hub : ∀ b, (∀ v, v < 256 → entry (s.allocTable v) ≤ b) →
        (List.range 0x100).foldl (fun m i => max m (pageOf s i)) 0 ≤ b := fun b hb =>
      foldl_max_le _ _ _ _ (Nat.zero_le _) (fun i hi => hb i (List.mem_range.1 hi))
    by_cases hn : n = 0
    · rw [if_pos hn]
      have := hub 0 (fun v hv => by have := ht.range v hv; omega)
      omega
    · rw [if_neg hn]
      obtain ⟨v, hv, he⟩ := ht.surj n (by omega) (Nat.le_refl _)
      have h1 := (le_foldl_max (pageOf s) (List.range 0x100) 0).2 v (List.mem_range.2 hv)
      have h2 := hub (base + n) (fun v hv => by have := ht.range v hv; omega)
      have h3 : pageOf s v = base + n := he
      omega
  · rw [if_neg (by omega), if_neg (by omega), hl]

theorem entry_new {p : Nat} (h : p < 256) : entry (BitVec.ofNat 8 p ^^^ 0xff#8) = p := by
  unfold entry
  rw [BitVec.xor_assoc, BitVec.xor_self, BitVec.xor_zero, BitVec.toNat_ofNat, Nat.mod_eq_of_lt h]

/-- Entering the next flash page for an unmapped virtual page. -/
theorem TblOk.add {base n v : Nat} {tab : Nat → Byte} (h : TblOk base tab n) (hv : v < 256)
    (h0 : entry (tab v) = 0) (hb : base + n + 1 < 256) :
    TblOk base (fun i => if i = v then BitVec.ofNat 8 (base + n + 1) ^^^ 0xff#8 else tab i)
      (n + 1) := by
  have e := entry_new hb
  refine ⟨fun w hw => ?_, fun w x hw hx hne heq => ?_, fun k hk1 hk2 => ?_⟩
  · split
    · right; omega
    · rcases h.range w hw with h | h
      · exact Or.inl h
      · exact Or.inr ⟨h.1, by omega⟩
  · split at heq
    · split at heq
      · omega
      · rw [e] at heq
        have := h.range x hx
        omega
    · rename_i hwv
      rw [if_neg hwv] at hne
      split at heq
      · rw [e] at heq
        have := h.range w hw
        omega
      · exact h.inj w x hw hx hne heq
  · by_cases hk : k = n + 1
    · refine ⟨v, hv, ?_⟩
      rw [if_pos rfl, e]
      omega
    · obtain ⟨w, hw, hwe⟩ := h.surj k hk1 (by omega)
      refine ⟨w, hw, ?_⟩
      rw [if_neg (by rintro rfl; omega), hwe]

/-- A table with at most one zero is taken over by the constructor. -/
theorem countP_le_one {tab : Nat → Byte} (h : ∀ v w, v < 256 → w < 256 → tab v = 0#8 → tab w = 0#8 →
    v = w) (n : Nat) (hn : n ≤ 256) : (List.range n).countP (fun i => tab i == 0#8) ≤ 1 := by
  induction n with
  | zero => simp
  | succ n ih =>
    rw [List.range_succ, List.countP_append]
    by_cases hz : tab n = 0#8
    · have : (List.range n).countP (fun i => tab i == 0#8) = 0 := by
        rw [List.countP_eq_zero]
        intro i hi hc
        have hi' := List.mem_range.1 hi
        have := h i n (by omega) (by omega) (by simpa using hc) hz
        omega
      rw [this]
      simp [hz]
    · have := ih (by omega)
      simp only [List.countP_cons, List.countP_nil, beq_iff_eq, hz, if_false]
      omega

theorem TblOk.zeros {base n : Nat} {tab : Nat → Byte} (h : TblOk base tab n) :
    ¬ 2 ≤ (List.range 0x100).countP (fun i => tab i == 0#8) := by
  have := countP_le_one (tab := tab) (fun v w hv hw h1 h2 =>
    h.inj v w hv hw (by rw [h1]; decide) (by rw [h1, h2])) 256 (Nat.le_refl _)
  omega

theorem TblOk.congr {base n : Nat} {tab tab' : Nat → Byte} (h : TblOk base tab n)
    (he : ∀ v, v < 256 → tab' v = tab v) : TblOk base tab' n := by
  refine ⟨fun v hv => ?_, fun v w hv hw h1 h2 => ?_, fun k h1 h2 => ?_⟩
  · rw [he v hv]; exact h.range v hv
  · rw [he v hv] at h1 h2; rw [he w hw] at h2; exact h.inj v w hv hw h1 h2
  · obtain ⟨v, hv, e⟩ := h.surj k h1 h2
    exact ⟨v, hv, by rw [he v hv, e]⟩

end Verif.MemMap
