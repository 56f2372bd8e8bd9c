import Verif.Dev.Model

/-!
# A memory request changes the EEPROM only at its own addresses

For every address, length, device and state of the virtual memory.
-/

namespace Verif.Dev

open Verif.Knx

variable {W : World}

theorem flashPage_alloc (E : Iap.Env) (pg : Nat) (a : U32) (f : Nat → Byte) (s : MemMap.St) :
    (MemMap.flashPage E pg a f s).allocTable = s.allocTable := by
  unfold MemMap.flashPage
  dsimp only
  repeat' split
  all_goals rfl

theorem doFlash_alloc (E : Iap.Env) (c : MemMap.Cfg) (s : MemMap.St) :
    (MemMap.doFlash E c s).allocTable = s.allocTable := by
  have tail : ∀ s1 : MemMap.St, (if s1.halted then s1
      else if s1.flashMemModified then
        if (MemMap.flashPage E s1.writePage (Iap.addressOfPage s1.writePage) s1.writeBuf s1).halted then
          MemMap.flashPage E s1.writePage (Iap.addressOfPage s1.writePage) s1.writeBuf s1
        else { MemMap.flashPage E s1.writePage (Iap.addressOfPage s1.writePage) s1.writeBuf s1 with
          flashMemModified := false }
      else s1).allocTable = s1.allocTable := by
    intro s1
    by_cases h1 : s1.halted = true
    · rw [if_pos h1]
    rw [if_neg h1]
    by_cases h2 : s1.flashMemModified = true
    · rw [if_pos h2]
      by_cases h3 : (MemMap.flashPage E s1.writePage (Iap.addressOfPage s1.writePage) s1.writeBuf s1).halted = true
      · rw [if_pos h3]; exact flashPage_alloc ..
      · rw [if_neg h3]; exact flashPage_alloc ..
    · rw [if_neg h2]
  refine (tail _).trans ?_
  by_cases h1 : s.allocTableModified = true
  · rw [if_pos h1]
    by_cases h3 : (MemMap.flashPage E c.basePage (BitVec.ofNat 32 c.flashBase) s.allocTable s).halted = true
    · rw [if_pos h3]; exact flashPage_alloc ..
    · rw [if_neg h3]; exact flashPage_alloc ..
  · rw [if_neg h1]

theorem writeMem_alloc (E : Iap.Env) (c : MemMap.Cfg) (hc : c.autoAddPage = false) (s : MemMap.St) (a : Int)
    (x : Byte) : (MemMap.writeMem E c s a x).1.allocTable = s.allocTable := by
  have tail : ∀ s1 : MemMap.St, (if s1.halted then (s1, MemMap.SUCCESS)
      else
        let r : MemMap.St × Int :=
          if MemMap.getFlashPageNum s a = 0 ∧ c.autoAddPage then
            let r := MemMap.allocatePage c s1 (a / 256).toNat
            if r.2 ≠ MemMap.SUCCESS then r else ({ r.1 with allocTableModified := true }, MemMap.SUCCESS)
          else (s1, MemMap.SUCCESS)
        if r.2 ≠ MemMap.SUCCESS then r
        else
          ({ r.1 with
              writeBuf := fun i => if i = (a % 256).toNat then x else r.1.writeBuf i
              flashMemModified := true }, MemMap.SUCCESS)).1.allocTable = s1.allocTable := by
    intro s1
    by_cases h1 : s1.halted = true
    · rw [if_pos h1]
    rw [if_neg h1]
    dsimp only
    have hn : ¬ (MemMap.getFlashPageNum s a = 0 ∧ c.autoAddPage = true) := fun h => by
      rw [hc] at h; exact absurd h.2 (by decide)
    rw [if_neg hn, if_neg (fun h => h rfl)]
  unfold MemMap.writeMem
  dsimp only
  by_cases hp : MemMap.getFlashPageNum s a < 0
  · rw [if_pos hp]
  rw [if_neg hp]
  refine (tail _).trans ?_
  by_cases h1 : (s.writePage : Int) ≠ MemMap.getFlashPageNum s a
  · rw [if_pos h1]
    by_cases h2 : (MemMap.doFlash E c s).halted = true
    · rw [if_pos h2]; exact doFlash_alloc ..
    · rw [if_neg h2]; exact doFlash_alloc ..
  · rw [if_neg h1]

theorem writeMemPtr_alloc (E : Iap.Env) (c : MemMap.Cfg) (hc : c.autoAddPage = false) (l : List Byte) :
    ∀ (s : MemMap.St) (a : Int), (MemMap.writeMemPtr E c s a l).1.allocTable = s.allocTable := by
  induction l with
  | nil => intro s a; rfl
  | cons x l ih =>
    intro s a
    unfold MemMap.writeMemPtr
    dsimp only
    split
    · exact writeMem_alloc E c hc s a x
    · exact (ih _ _).trans (writeMem_alloc E c hc s a x)

theorem isMapped_congr (c : MemMap.Cfg) {s s' : MemMap.St} (h : s'.allocTable = s.allocTable) (a : Int) :
    MemMap.isMapped c s' a = MemMap.isMapped c s a := by
  unfold MemMap.isMapped MemMap.getFlashPageNum MemMap.pageOf
  rw [h]

theorem ramStore_ee (src : Nat → Byte) : ∀ (n a o : Nat) (d : Dev),
    (ramStore src n a o d).ee = d.ee ∧ (ramStore src n a o d).mapper = d.mapper := by
  intro n
  induction n with
  | zero => intro a o d; exact ⟨rfl, rfl⟩
  | succ n ih =>
    intro a o d
    unfold ramStore
    split
    · exact ih ..
    · exact ih ..

theorem cpyToUserRam_ee (k : Kind) (d : Dev) (a : Nat) (src : Nat → Byte) (o n : Nat) :
    (cpyToUserRam k d a src o n).ee = d.ee := by
  unfold cpyToUserRam
  split
  · rfl
  · dsimp only
    split
    · rfl
    · exact (ramStore_ee ..).1

theorem mapOp_w (s : MemMap.St) (p : Pos) (n : Nat) :
    (mapOp W false s p n).1.d.ee = p.d.ee ∧ (mapOp W false s p n).1.addr = p.addr ∧
    (mapOp W false s p n).1.d.mapper =
      some (MemMap.writeMemPtr W.E W.mc s (p.addr : Int) (slice p.buf p.off n)).1 :=
  ⟨rfl, rfl, rfl⟩

theorem mapBytes_w (hc : W.mc.autoAddPage = false) (fin : Nat) : ∀ (n : Nat) (p : Pos), p.addr ≤ fin →
    (∀ s, p.d.mapper = some s → MemMap.isMapped W.mc s (fin : Int) = false) →
    (mapBytes W false n p).d.ee = p.d.ee ∧ p.addr ≤ (mapBytes W false n p).addr ∧
      (mapBytes W false n p).addr ≤ fin := by
  intro n
  induction n with
  | zero => intro p h _; exact ⟨rfl, Nat.le_refl _, h⟩
  | succ n ih =>
    intro p hp hm
    unfold mapBytes
    cases hs : p.d.mapper with
    | none => exact ⟨rfl, Nat.le_refl _, hp⟩
    | some s =>
      dsimp only
      by_cases h : MemMap.isMapped W.mc s (p.addr : Int) = true
      · rw [if_pos h]
        by_cases h2 : (mapOp W false s p 1).2 = true
        · rw [if_pos h2]
          have hne : p.addr ≠ fin := by
            intro he
            rw [he, hm s hs] at h
            cases h
          obtain ⟨i1, i2, i3⟩ := ih { (mapOp W false s p 1).1 with
            addr := (mapOp W false s p 1).1.addr + 1, off := (mapOp W false s p 1).1.off + 1, found := true }
            (by show p.addr + 1 ≤ fin; omega)
            (fun s' h' => by
              have h'' : some (MemMap.writeMemPtr W.E W.mc s (p.addr : Int) (slice p.buf p.off 1)).1 = some s' := h'
              rw [← Option.some.inj h'', isMapped_congr _ (writeMemPtr_alloc _ _ hc _ _ _)]
              exact hm s hs)
          exact ⟨i1, Nat.le_trans (Nat.le_succ _) i2, i3⟩
        · rw [if_neg h2]; exact ⟨rfl, Nat.le_refl _, hp⟩
      · rw [if_neg h]; exact ⟨rfl, Nat.le_refl _, hp⟩

/-- Only the EEPROM bytes at the addresses from `lo` to `fin` differ. -/
def EeIn (W : World) (lo fin : Nat) (d d' : Dev) : Prop :=
  ∀ i, W.kind.eeStart + i < lo ∨ fin < W.kind.eeStart + i → d'.ee i = d.ee i

theorem EeIn.of_eq {lo fin : Nat} {d d' : Dev} (h : d'.ee = d.ee) : EeIn W lo fin d d' :=
  fun i _ => by rw [h]

theorem EeIn.trans {lo lo' fin : Nat} {d d' d'' : Dev} (h : EeIn W lo fin d d') (hl : lo ≤ lo')
    (h' : EeIn W lo' fin d' d'') : EeIn W lo fin d d'' :=
  fun i hi => (h' i (by omega)).trans (h i hi)

theorem viaMapper_w (fin : Nat) (p : Pos) (hp : p.addr ≤ fin) :
    (viaMapper W false fin p).1.d.ee = p.d.ee ∧
    ((viaMapper W false fin p).2 = none →
      p.addr ≤ (viaMapper W false fin p).1.addr ∧ (viaMapper W false fin p).1.addr ≤ fin) := by
  unfold viaMapper
  cases hs : p.d.mapper with
  | none => exact ⟨rfl, fun _ => ⟨Nat.le_refl _, hp⟩⟩
  | some s =>
    dsimp only
    by_cases h : (MemMap.isMapped W.mc s (p.addr : Int) && MemMap.isMapped W.mc s (fin : Int)) = true
    · rw [if_pos h]
      exact ⟨rfl, fun h => by cases h⟩
    · rw [if_neg h]
      by_cases h2 : MemMap.isMapped W.mc s (p.addr : Int) = true
      · rw [if_pos h2]
        have hf : MemMap.isMapped W.mc s (fin : Int) = false := by
          rw [h2, Bool.true_and] at h
          exact Bool.eq_false_iff.2 h
        have hc : W.mc.autoAddPage = false := by
          unfold MemMap.isMapped at hf
          exact (Bool.or_eq_false_iff.1 hf).1
        obtain ⟨i1, i2, i3⟩ := mapBytes_w (W := W) hc fin (fin + 1 - p.addr) p hp
          (fun s' h' => by rw [hs] at h'; rw [← Option.some.inj h']; exact hf)
        exact ⟨i1, fun _ => ⟨i2, i3⟩⟩
      · rw [if_neg h2]; exact ⟨rfl, fun _ => ⟨Nat.le_refl _, hp⟩⟩

theorem viaEeprom_w (fin : Nat) (p : Pos) (hp : p.addr ≤ fin) :
    EeIn W p.addr fin p.d (viaEeprom W false fin p).1.d ∧
    ((viaEeprom W false fin p).2 = none → p.addr ≤ (viaEeprom W false fin p).1.addr) := by
  have hcopy : ∀ n, W.kind.eeStart ≤ p.addr → p.addr + n ≤ fin + 1 →
      EeIn W p.addr fin p.d (eeCopy W false p n).d := by
    intro n hs hn i hi
    show blit p.d.ee (p.addr - W.kind.eeStart) p.buf p.off n i = p.d.ee i
    unfold blit
    rw [if_neg (by omega)]
  unfold viaEeprom
  by_cases h : eeInRange W.kind p.addr fin = true
  · rw [if_pos h]
    unfold eeInRange at h
    rw [decide_eq_true_iff] at h
    exact ⟨hcopy _ h.2.1 (by omega), fun h => by cases h⟩
  · rw [if_neg h]
    by_cases h2 : eeIn W.kind p.addr = true
    · rw [if_pos h2]
      unfold eeIn at h2
      rw [decide_eq_true_iff] at h2
      unfold eeInRange at h
      rw [decide_eq_true_iff] at h
      refine ⟨hcopy _ h2.1 (by omega), fun _ => Nat.le_add_right ..⟩
    · rw [if_neg h2]; exact ⟨EeIn.of_eq rfl, fun _ => Nat.le_refl _⟩

theorem viaRam_w (fin : Nat) (p : Pos) :
    (viaRam W false fin p).1.d.ee = p.d.ee ∧ p.addr ≤ (viaRam W false fin p).1.addr := by
  unfold viaRam
  split
  · exact ⟨cpyToUserRam_ee .., Nat.le_refl _⟩
  · split
    · exact ⟨cpyToUserRam_ee .., Nat.le_add_right ..⟩
    · exact ⟨rfl, Nat.le_refl _⟩

theorem memIter_w (fin : Nat) (p : Pos) (hp : p.addr ≤ fin) :
    EeIn W p.addr fin p.d (memIter W false fin p).1.d ∧
    ((memIter W false fin p).2 = none → p.addr ≤ (memIter W false fin p).1.addr) := by
  obtain ⟨a1, a2⟩ := viaMapper_w (W := W) fin { p with found := false } hp
  unfold memIter
  dsimp only
  cases h1 : (viaMapper W false fin { p with found := false }).2 with
  | some b => exact ⟨EeIn.of_eq a1, fun h => by cases h⟩
  | none =>
    dsimp only
    obtain ⟨a3, a4⟩ := a2 h1
    obtain ⟨b1, b2⟩ := viaEeprom_w (W := W) fin _ a4
    have h12 : EeIn W p.addr fin p.d
        (viaEeprom W false fin (viaMapper W false fin { p with found := false }).1).1.d :=
      (EeIn.of_eq (lo := p.addr) a1).trans a3 b1
    cases h2 : (viaEeprom W false fin (viaMapper W false fin { p with found := false }).1).2 with
    | some b => exact ⟨h12, fun h => by cases h⟩
    | none =>
      dsimp only
      obtain ⟨c1, c2⟩ := viaRam_w (W := W) fin
        (viaEeprom W false fin (viaMapper W false fin { p with found := false }).1).1
      exact ⟨h12.trans (Nat.le_trans a3 (b2 h2)) (EeIn.of_eq c1),
        fun _ => Nat.le_trans (Nat.le_trans a3 (b2 h2)) c2⟩

theorem memLoop_w (fin : Nat) : ∀ (n : Nat) (p : Pos),
    EeIn W p.addr fin p.d (memLoop W false fin n p).1.d := by
  intro n
  induction n with
  | zero => intro p; exact EeIn.of_eq rfl
  | succ n ih =>
    intro p
    unfold memLoop
    by_cases h : p.found = true ∧ p.addr ≤ fin
    · rw [if_pos h]
      dsimp only
      obtain ⟨a1, a2⟩ := memIter_w (W := W) fin p h.2
      cases h2 : (memIter W false fin p).2 with
      | some b => exact a1
      | none =>
        dsimp only
        exact a1.trans (a2 h2) (ih _)
    · rw [if_neg h]; exact EeIn.of_eq rfl

/-- A memory write of `n` bytes from the address `a` changes the EEPROM only there. -/
theorem memOp_w (d : Dev) (a : Nat) (buf : Nat → Byte) (off n : Nat) (i : Nat)
    (hi : W.kind.eeStart + i < a ∨ a + n ≤ W.kind.eeStart + i) :
    (memOp W false d a buf off n).1.ee i = d.ee i := by
  unfold memOp
  by_cases h : n = 0
  · rw [if_pos h]
  · rw [if_neg h]
    exact memLoop_w (W := W) (a + n - 1) (n + 1) ⟨d, buf, a, off, true⟩ i (by
      show W.kind.eeStart + i < a ∨ a + n - 1 < _
      omega)

end Verif.Dev
