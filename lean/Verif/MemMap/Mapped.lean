import Verif.MemMap.Words

/-!
# C59: asking whether an address is mapped
-/

namespace Verif.MemMap

open Verif.Iap

variable {E : Env} {c : Cfg}

/-- **C59**: after every disciplined history `isMapped` answers yes for an address exactly if pages are
added automatically or the page of the address has been added. -/
theorem C59_is_mapped (hE : ∀ k, E.fault k = none) (hA : AreaOk E c) {s : St} {t : Ideal}
    (h : Reached E c s t) (a : Int) :
    isMapped c s a = true ↔ c.autoAddPage = true ∨ (Valid a ∧ t.mapped (a.toNat / 256) = true) := by
  obtain ⟨p, tn, n, hr⟩ := h.rel hE hA
  unfold isMapped
  rw [Bool.or_eq_true, Bool.and_eq_true]
  refine or_congr Iff.rfl ?_
  have hp : ∀ v, pageOf s v = entry (s.allocTable v) := fun v => rfl
  by_cases hv : Valid a
  · have hq : getFlashPageNum s a = (pageOf s (a.toNat / 256) : Int) := by
      obtain ⟨h0, h1⟩ := hv
      unfold getFlashPageNum
      rw [if_neg (by omega)]
      have e : (a / 256).toNat = a.toNat / 256 := by omega
      rw [e]
    have hlt : a.toNat / 256 < 256 := by obtain ⟨h0, h1⟩ := hv; omega
    rw [hq, hr.agree.mapped _ hlt, ← hp, decide_eq_true_iff]
    unfold INVALID_ADDRESS
    rw [bne_iff_ne, bne_iff_ne]
    constructor
    · intro hh
      exact ⟨hv, fun hc => hh.2 (by rw [hc]; rfl)⟩
    · intro hh
      exact ⟨by omega, fun hc => hh.2 (by omega)⟩
  · have hq : getFlashPageNum s a = INVALID_ADDRESS := by
      unfold getFlashPageNum
      rw [if_pos]
      unfold Valid at hv
      omega
    rw [hq]
    constructor
    · intro hh
      exact absurd hh.1 (by decide)
    · intro hh
      exact absurd hh.1 hv

/-- **C59**: without automatic pages `isMapped` answers yes exactly for the addresses that can be read. -/
theorem C59_is_mapped_readable (hE : ∀ k, E.fault k = none) (hA : AreaOk E c) (hc : c.autoAddPage = false)
    {s : St} {t : Ideal} (h : Reached E c s t) (a : Int) (force : Bool) :
    isMapped c s a = true ↔ (readMem E c s a force).2.1 = 0 := by
  obtain ⟨p, tn, n, hr⟩ := h.rel hE hA
  rw [C59_is_mapped hE hA h a, (read_rel hE hA hr a force false).2.1]
  have e : (t.step false (.read a force)).2.1 =
      if Valid a then (if t.mapped (a.toNat / 256) then 0 else -2) else -1 := by
    show (if ¬ Valid a then (t, -1, 0#8)
        else if t.mapped (a.toNat / 256) then (t, 0, t.val a.toNat) else (t, -2, 0#8)).2.1 = _
    by_cases hv : Valid a
    · rw [if_neg (not_not_intro hv), if_pos hv]
      split <;> rfl
    · rw [if_pos hv, if_neg hv]
  rw [e, hc]
  by_cases hv : Valid a
  · rw [if_pos hv]
    by_cases hm : t.mapped (a.toNat / 256) = true
    · rw [if_pos hm]
      exact ⟨fun _ => rfl, fun _ => Or.inr ⟨hv, hm⟩⟩
    · rw [if_neg hm]
      exact ⟨fun hh => hh.elim (fun h => (by cases h)) (fun h => absurd h.2 hm), fun hh => by cases hh⟩
  · rw [if_neg hv]
    exact ⟨fun hh => hh.elim (fun h => (by cases h)) (fun h => absurd h.1 hv), fun hh => by cases hh⟩

/-- **C59**: for a range in one page or in two neighbouring pages `isMappedRange` answers yes exactly if every
address of the range is mapped (for longer ranges see `C59_range_gap`). -/
theorem C59_range_two_pages (hE : ∀ k, E.fault k = none) (hA : AreaOk E c) (hc : c.autoAddPage = false)
    {s : St} {t : Ideal} (h : Reached E c s t) (a b : Int) (hab : a ≤ b) (hn : b / 256 ≤ a / 256 + 1) :
    isMappedRange c s a b = true ↔ ∀ x, a ≤ x → x ≤ b → isMapped c s x = true := by
  unfold isMappedRange
  rw [Bool.and_eq_true]
  constructor
  · intro ⟨h1, h2⟩ x hx1 hx2
    have key : x / 256 = a / 256 ∨ x / 256 = b / 256 := by omega
    have same : ∀ y, x / 256 = y / 256 → isMapped c s y = true → isMapped c s x = true := by
      intro y hy hm
      rw [C59_is_mapped hE hA h, hc] at hm ⊢
      rcases hm with hm | ⟨hv, hm⟩
      · cases hm
      · obtain ⟨v1, v2⟩ := hv
        have hv' : Valid x := ⟨by omega, by omega⟩
        refine Or.inr ⟨hv', ?_⟩
        have : x.toNat / 256 = y.toNat / 256 := by
          obtain ⟨w1, w2⟩ := hv'
          omega
        rw [this]
        exact hm
    rcases key with k | k
    · exact same a k h1
    · exact same b k h2
  · intro hh
    exact ⟨hh a (by omega) hab, hh b hab (by omega)⟩

/-! ## Findings -/

/-- Two pages with a gap between them. -/
def gapOps : List Op := [.addRange 0x4000 0x100, .addRange 0x4200 0x100]

/-- **C59** (finding): only the ends are looked at: the range 0x4000 … 0x42ff is "mapped", the page in the
middle is not. -/
theorem C59_range_gap :
    let s := (run dEnv dCfgFixed (ctor dCfgFixed ⟨dFlash, 0⟩) gapOps).1
    isMappedRange dCfgFixed s 0x4000 0x42ff = true ∧ isMapped dCfgFixed s 0x4100 = false := by decide +kernel

/-- **C59** (finding): with automatic pages every address is "mapped", also one outside the address space,
where neither reading nor writing succeeds. -/
theorem C59_mapped_outside (s : St) (d : Byte) :
    isMapped dCfg s 0x10000 = true ∧ (readMem dEnv dCfg s 0x10000 false).2.1 = -1 ∧
    (writeMem dEnv dCfg s 0x10000 d).2 = -1 := ⟨rfl, rfl, rfl⟩

/-! ## The hypotheses are met -/

theorem gap_reached : Reached dEnv dCfgFixed (run dEnv dCfgFixed (ctor dCfgFixed ⟨dFlash, 0⟩) gapOps).1
    (Ideal.run false (emptyIdeal dCfgFixed) gapOps).1 :=
  ⟨dFlash, gapOps, dFreshFixed, by simp only [gapOps, Disciplined]; decide +kernel, rfl, rfl⟩

example : isMapped dCfgFixed (run dEnv dCfgFixed (ctor dCfgFixed ⟨dFlash, 0⟩) gapOps).1 0x4210 = true :=
  (C59_is_mapped (fun _ => rfl) dAreaFixed gap_reached 0x4210).2 (Or.inr ⟨by decide, by decide +kernel⟩)

example := C59_is_mapped_readable (fun _ => rfl) dAreaFixed rfl gap_reached 0x4210 true

example := C59_range_two_pages (fun _ => rfl) dAreaFixed rfl gap_reached 0x4010 0x4105 (by decide) (by decide)

end Verif.MemMap
