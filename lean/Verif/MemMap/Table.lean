import Verif.MemMap.Refine

/-!
# The allocation table under arbitrary histories

Unlike `Rel`, the invariant of this file does not need disciplined use.
-/

namespace Verif.MemMap

open Verif.Iap

variable {E : Env} {c : Cfg} {s : St} {f0 : Nat → Byte}

/-- The table in the flash is good, or recognisably corrupt. -/
def FlashTbl (c : Cfg) (f : Nat → Byte) : Prop :=
  (∃ m, m + 1 ≤ c.sizePages ∧ TblOk c.basePage (fun i => f (c.basePage * 256 + i)) m) ∨
    2 ≤ (List.range 0x100).countP (fun i => f (c.basePage * 256 + i) == 0#8)

/-- Bytes outside the area (and, without `autoAddPage`, outside page 0) are still those of `f0`. -/
def OutOk (c : Cfg) (f0 f : Nat → Byte) : Prop :=
  ∀ a, a < c.flashBase ∨ c.flashBase + c.flashSize ≤ a → c.autoAddPage = true ∨ 256 ≤ a → f a = f0 a

structure TInv (c : Cfg) (f0 : Nat → Byte) (s : St) : Prop where
  halted : s.halted = false
  undef : s.undef = false
  tbl : ∃ n, n + 1 ≤ c.sizePages ∧ TblOk c.basePage s.allocTable n ∧
    (s.lastAllocated = 0 ∨ (s.lastAllocated = c.basePage + n ∧ 1 ≤ n))
  wp : s.writePage = 0 ∨ (c.basePage < s.writePage ∧ s.writePage < c.basePage + c.sizePages)
  flash : FlashTbl c s.hw.flash
  dirty : c.autoAddPage = true → s.flashMemModified = true → s.writePage ≠ 0
  out : OutOk c f0 s.hw.flash

theorem FlashTbl.congr {f g : Nat → Byte} (h : FlashTbl c f)
    (he : ∀ i, i < 256 → g (c.basePage * 256 + i) = f (c.basePage * 256 + i)) : FlashTbl c g := by
  rcases h with ⟨m, hm, ht⟩ | h
  · exact Or.inl ⟨m, hm, ht.congr he⟩
  · right
    have : (List.range 0x100).countP (fun i => g (c.basePage * 256 + i) == 0#8) =
        (List.range 0x100).countP (fun i => f (c.basePage * 256 + i) == 0#8) := by
      apply List.countP_congr
      intro i hi
      rw [he i (List.mem_range.1 hi)]
    omega

theorem empty_tbl {base : Nat} {tab : Nat → Byte} (h : ∀ i, i < 256 → tab i = 0xff#8) :
    TblOk base tab 0 := by
  have e : ∀ v, v < 256 → entry (tab v) = 0 := fun v hv => by rw [h v hv]; decide
  exact ⟨fun v hv => Or.inl (e v hv), fun v w hv _ hne _ => absurd (e v hv) hne,
    fun k h1 h2 => by omega⟩

theorem ctor_tinv (hA : AreaOk E c) {hw : Hw} (h : FlashTbl c hw.flash)
    (ho : OutOk c f0 hw.flash) : TInv c f0 (ctor c hw) := by
  obtain ⟨f1, f2, f3, f4, f5⟩ := hA.facts
  refine ⟨rfl, rfl, ?_, Or.inl rfl, h, fun _ hc => (by cases hc), ho⟩
  unfold ctor
  dsimp only
  by_cases hz : 2 ≤ (List.range 0x100).countP (fun i => hw.flash (c.flashBase + i) == 0#8)
  · rw [if_pos (by simpa using hz)]
    exact ⟨0, by omega, empty_tbl fun _ _ => rfl, Or.inl rfl⟩
  · rw [if_neg (by simpa using hz)]
    rcases h with ⟨m, hm, ht⟩ | h
    · rw [f1] at ht
      exact ⟨m, hm, ht, Or.inl rfl⟩
    · rw [f1] at h
      exact absurd h hz

/-- A byte outside the area lies in another page. -/
theorem out_page {a base fb size n : Nat} (h1 : base * 256 = fb) (h2 : size % 256 = 0)
    (h3 : n = size / 256) (h4 : 2 ≤ n) (ha : a < fb ∨ fb + size ≤ a) :
    a / 256 < base ∨ base + n ≤ a / 256 := by omega

theorem not_first_page {a : Nat} (h : 256 ≤ a) : a / 256 ≠ 0 := by omega

theorem split_addr (a : Nat) : a / 256 * 256 + a % 256 = a := by omega

theorem flush_tinv (hE : ∀ k, E.fault k = none) (hA : AreaOk E c) (h : TInv c f0 s) :
    TInv c f0 (doFlash E c s) ∧ (doFlash E c s).allocTable = s.allocTable ∧
      (doFlash E c s).flashMemModified = false := by
  obtain ⟨f1, f2, f3, f4, f5⟩ := hA.facts
  have hwp := h.wp
  obtain ⟨hw, e, h1, h2⟩ := doFlash_ok hE hA h.halted (fun _ => by omega)
  rw [e]
  refine ⟨⟨h.halted, h.undef, h.tbl, h.wp, ?_, fun _ hc => (by cases hc), ?_⟩, rfl, rfl⟩
  rotate_left
  · intro a ha hp
    have hpage := out_page (n := c.sizePages) f1 hA.size.1 rfl f3 ha
    obtain ⟨q, hq⟩ : ∃ q, a / 256 = q := ⟨_, rfl⟩
    have h3 := h2 (a / 256) (by rw [hq] at hpage ⊢; omega) (a % 256) (Nat.mod_lt _ (by decide))
    rw [split_addr] at h3
    dsimp only
    rw [h3, if_neg, h.out a ha hp]
    rintro ⟨hm, hx⟩
    have hpz : s.writePage ≠ 0 := by
      rcases hp with hp | hp
      · exact h.dirty hp hm
      · rw [← hx]; exact not_first_page hp
    rw [hq] at hpage hx
    omega
  dsimp only
  cases hm : s.allocTableModified
  · exact h.flash.congr fun i hi => by simpa [hm] using h1 i hi
  · obtain ⟨n, hn, ht, _⟩ := h.tbl
    exact Or.inl ⟨n, hn, ht.congr fun i hi => by simpa [hm] using h1 i hi⟩

theorem allocate_tinv (hA : AreaOk E c) (h : TInv c f0 s) {v : Nat} (hv : v < 256)
    (h0 : entry (s.allocTable v) = 0) : TInv c f0 (allocatePage c s v).1 ∧
      ((allocatePage c s v).2 = SUCCESS → (allocatePage c s v).1.writePage ≠ 0) := by
  obtain ⟨f1, f2, f3, f4, f5⟩ := hA.facts
  obtain ⟨n, hn, ht, hl⟩ := h.tbl
  have hh := highest_eq ht hl
  unfold allocatePage
  dsimp only
  by_cases hn0 : n = 0
  · subst hn0
    rw [if_pos rfl] at hh
    rw [hh, if_neg (show ¬ 0 = c.basePage + c.sizePages - 1 by omega), if_pos rfl, if_pos hv]
    refine ⟨?_, fun _ => (by dsimp only; omega)⟩
    refine ⟨h.halted, h.undef, ⟨1, by omega, ?_, Or.inl rfl⟩, Or.inr (by dsimp only; omega), h.flash,
      fun _ _ => (by dsimp only; omega), h.out⟩
    exact ht.add hv h0 (by omega)
  · rw [if_neg hn0] at hh
    rw [hh]
    by_cases hfull : c.basePage + n = c.basePage + c.sizePages - 1
    · rw [if_pos hfull]
      refine ⟨?_, fun hc => absurd hc (show ¬ OUT_OF_MEMORY = SUCCESS by decide)⟩
      exact ⟨h.halted, h.undef, ⟨n, hn, ht, Or.inr ⟨rfl, by omega⟩⟩, h.wp, h.flash, h.dirty, h.out⟩
    · rw [if_neg hfull, if_neg (show ¬ c.basePage + n = 0 by omega), if_pos hv]
      refine ⟨?_, fun _ => (by dsimp only; omega)⟩
      refine ⟨h.halted, h.undef, ⟨n + 1, by omega, ?_, Or.inr ⟨by dsimp only; omega, by omega⟩⟩,
        Or.inr (by dsimp only; omega), h.flash, fun _ _ => (by dsimp only; omega), h.out⟩
      exact ht.add hv h0 (by omega)

theorem write_tinv (hE : ∀ k, E.fault k = none) (hA : AreaOk E c) (h : TInv c f0 s) (a : Int) (d : Byte) :
    TInv c f0 (writeMem E c s a d).1 := by
  by_cases hv : Valid a
  · obtain ⟨h1, h2, h3, h4, h5⟩ := page_valid hv
    obtain ⟨p, hp⟩ : ∃ p, entry (s.allocTable (a.toNat / 256)) = p := ⟨_, rfl⟩
    obtain ⟨n, hn, ht, hl⟩ := h.tbl
    have hr := ht.range _ h5
    rw [hp] at hr
    obtain ⟨hf, hft, hfm⟩ := flush_tinv hE hA h
    unfold writeMem
    dsimp only
    rw [getPage_valid hv, hp, if_neg (show ¬ (p : Int) < 0 by omega)]
    obtain ⟨s1, es⟩ : ∃ s1, (if (s.writePage : Int) ≠ (p : Nat) then
        if (doFlash E c s).halted then doFlash E c s
        else
          { doFlash E c s with
            writePage := ((p : Nat) : Int).toNat
            writeBuf := if ((p : Nat) : Int) ≠ 0 then
              fun i => (doFlash E c s).hw.flash (((p : Nat) : Int).toNat * 0x100 + i)
              else (doFlash E c s).writeBuf }
      else s) = s1 := ⟨_, rfl⟩
    rw [es]
    have hs1 : TInv c f0 s1 ∧ s1.allocTable = s.allocTable ∧ s1.writePage = p := by
      rw [← es]
      split
      · rw [if_neg (by simp [hf.halted])]
        exact ⟨⟨hf.halted, hf.undef, hf.tbl, by dsimp only; omega, hf.flash,
          fun _ hc => (by dsimp only at hc; rw [hfm] at hc; cases hc), hf.out⟩, hft, by simp⟩
      · rename_i hc
        exact ⟨h, rfl, by omega⟩
    rw [if_neg (show ¬ s1.halted = true by simp [hs1.1.halted]), h3]
    by_cases hc : (p : Int) = 0 ∧ c.autoAddPage = true
    · obtain ⟨ha, hn0⟩ := allocate_tinv hA hs1.1 h5 (by rw [hs1.2.1, hp]; omega)
      rw [if_pos hc]
      obtain ⟨r, er⟩ : ∃ r, allocatePage c s1 (a.toNat / 256) = r := ⟨_, rfl⟩
      rw [er] at ha hn0 ⊢
      by_cases hres : r.2 = SUCCESS
      · rw [if_neg (not_not_intro hres)]
        dsimp only
        rw [if_neg (not_not_intro rfl)]
        exact ⟨ha.halted, ha.undef, ha.tbl, ha.wp, ha.flash, fun _ _ => hn0 hres, ha.out⟩
      · rw [if_pos hres, if_pos hres]
        exact ha
    · rw [if_neg hc]
      dsimp only
      rw [if_neg (not_not_intro rfl)]
      exact ⟨hs1.1.halted, hs1.1.undef, hs1.1.tbl, hs1.1.wp, hs1.1.flash,
        fun hau _ => (by dsimp only; rw [hs1.2.2]; intro hp0; exact hc ⟨by omega, hau⟩), hs1.1.out⟩
  · unfold writeMem
    dsimp only
    rw [getPage_invalid hv, if_pos (show (-1 : Int) < 0 by decide)]
    exact h

theorem read_tinv (hE : ∀ k, E.fault k = none) (hA : AreaOk E c) (h : TInv c f0 s) (a : Int) (f : Bool) :
    TInv c f0 (readMem E c s a f).1 := by
  have hf := (flush_tinv hE hA h).1
  unfold readMem
  dsimp only
  split
  · exact h
  · obtain ⟨s1, es⟩ : ∃ s1, (if f then doFlash E c s else s) = s1 := ⟨_, rfl⟩
    rw [es]
    have : TInv c f0 s1 := by
      rw [← es]
      split
      · exact hf
      · exact h
    split
    · exact this
    · split
      · exact this
      · split <;> exact this

theorem addPages_tinv (hE : ∀ k, E.fault k = none) (hA : AreaOk E c) (k : Nat) :
    ∀ (v : Nat) (s : St) (m : Bool), v + k ≤ 256 → TInv c f0 s → TInv c f0 (addPages E c k v s m).1 := by
  induction k with
  | zero => intro v s m _ h; exact h
  | succ k ih =>
    intro v s m hv h
    unfold addPages
    rw [if_neg (show ¬ 0x100 ≤ v by omega)]
    split
    · rename_i h0
      obtain ⟨ha, hn0⟩ := allocate_tinv hA h (v := v) (by omega) h0
      obtain ⟨r, er⟩ : ∃ r, allocatePage c s v = r := ⟨_, rfl⟩
      rw [er] at ha hn0 ⊢
      dsimp only
      split
      · exact ha
      · rename_i hres
        have hf := (flush_tinv (s := { r.1 with flashMemModified := true }) hE hA
          ⟨ha.halted, ha.undef, ha.tbl, ha.wp, ha.flash,
            fun _ _ => hn0 (Classical.not_not.1 hres), ha.out⟩).1
        rw [if_neg (by simp [hf.halted])]
        exact ih _ _ _ (by omega) hf
    · exact ih _ _ _ (by omega) h

theorem addRange_tinv (hE : ∀ k, E.fault k = none) (hA : AreaOk E c) (h : TInv c f0 s) (a len : Int)
    (hr : a / 256 + len / 256 % 256 ≤ 256) : TInv c f0 (addRange E c s a len).1 := by
  unfold addRange
  dsimp only
  split
  · exact h
  · split
    · exact h
    · have hp := addPages_tinv hE hA (len / 256 % 256).toNat (a / 256).toNat s false (by omega) h
      obtain ⟨r, er⟩ : ∃ r, addPages E c (len / 256 % 256).toNat (a / 256).toNat s false = r := ⟨_, rfl⟩
      rw [er] at hp ⊢
      rw [if_neg (show ¬ (r.1.halted = true ∨ r.1.undef = true) by simp [hp.halted, hp.undef])]
      split
      · exact hp
      · dsimp only
        split
        · exact (flush_tinv (s := { r.1 with allocTableModified := true }) hE hA ⟨hp.halted, hp.undef, hp.tbl,
            hp.wp, hp.flash, hp.dirty, hp.out⟩).1
        · exact (flush_tinv hE hA hp).1

theorem run_tinv (hE : ∀ k, E.fault k = none) (hA : AreaOk E c) (ops : List Op) :
    ∀ s : St, TInv c f0 s → (∀ op ∈ ops, InRange op) → TInv c f0 (run E c s ops).1 := by
  induction ops with
  | nil => intro s h _; exact h
  | cons op ops ih =>
    intro s h hr
    refine ih _ ?_ (fun o ho => hr o (List.mem_cons_of_mem _ ho))
    have hop := hr op (List.mem_cons_self ..)
    cases op with
    | write a d => exact write_tinv hE hA h a d
    | read a f => exact read_tinv hE hA h a f
    | addRange a len => exact addRange_tinv hE hA h a len hop
    | flush => exact (flush_tinv hE hA h).1
    | restart => exact ctor_tinv hA h.flash h.out

theorem start_flashTbl (hA : AreaOk E c) {f : Nat → Byte} (hf : FreshArea c f ∨ CorruptTable c f) :
    FlashTbl c f := by
  obtain ⟨f1, f2, f3, f4, f5⟩ := hA.facts
  rcases hf with hf | ⟨i, j, hij, hj, hi0, hj0⟩
  · refine Or.inl ⟨0, by omega, empty_tbl fun i hi => ?_⟩
    rw [f1]
    exact hf i hi
  · right
    rw [f1]
    have : (List.range 0x100).countP (fun i => f (c.flashBase + i) == 0#8) =
        ((List.range 0x100).filter (fun i => f (c.flashBase + i) == 0#8)).length :=
      List.countP_eq_length_filter
    rw [this]
    have hsub : [i, j].Sublist ((List.range 0x100).filter (fun i => f (c.flashBase + i) == 0#8)) := by
      have h1 : [i, j].Sublist (List.range 0x100) := by
        have e : List.range 0x100 = List.range j ++ (j :: List.range' (j + 1) (255 - j)) := by
          rw [List.range_eq_range', List.range_eq_range', ← List.range'_succ]
          have : List.range' 0 0x100 = List.range' 0 (j + (255 - j + 1)) := by congr 1; omega
          rw [this, ← List.range'_append_1, Nat.zero_add]
        rw [e]
        exact List.Sublist.append (List.singleton_sublist.2 (List.mem_range.2 hij))
          (List.Sublist.cons_cons j (List.nil_sublist _))
      have := h1.filter (fun i => f (c.flashBase + i) == 0#8)
      simpa [hi0, hj0] using this
    simpa using hsub.length_le

end Verif.MemMap
