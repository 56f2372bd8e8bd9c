import Verif.Dev.Model

/-!
# What the services leave alone

Frame lemmas: individual address, run state and further fields are changed by no service a
connection offers.
-/

namespace Verif.Dev

open Verif.Knx

variable {W : World}

/-- The fields no management service changes. -/
structure Core (d d' : Dev) : Prop where
  ownAddr : d'.ownAddr = d.ownAddr
  runState : d'.runState = d.runState
  enabled : d'.enabled = d.enabled
  comTabStatic : d'.comTabStatic = d.comTabStatic

theorem Core.refl (d : Dev) : Core d d := ⟨rfl, rfl, rfl, rfl⟩

theorem Core.trans {a b c : Dev} (h : Core a b) (k : Core b c) : Core a c :=
  ⟨k.1.trans h.1, k.2.trans h.2, k.3.trans h.3, k.4.trans h.4⟩

theorem ramStore_core (src : Nat → Byte) : ∀ (n a o : Nat) (d : Dev),
    Core d (ramStore src n a o d) ∧ (ramStore src n a o d).restart = d.restart := by
  intro n
  induction n with
  | zero => intro a o d; exact ⟨Core.refl d, rfl⟩
  | succ n ih =>
    intro a o d
    unfold ramStore
    by_cases h : a = statusOffset
    · rw [if_pos h]
      obtain ⟨h1, h2⟩ := ih (a + 1) (o + 1) { d with status := src o }
      exact ⟨⟨h1.1, h1.2, h1.3, h1.4⟩, h2⟩
    · rw [if_neg h]
      obtain ⟨h1, h2⟩ := ih (a + 1) (o + 1) { d with ram := fun i => if i = a then src o else d.ram i }
      exact ⟨⟨h1.1, h1.2, h1.3, h1.4⟩, h2⟩

theorem cpyToUserRam_core (k : Kind) (d : Dev) (a : Nat) (src : Nat → Byte) (o n : Nat) :
    Core d (cpyToUserRam k d a src o n) ∧ (cpyToUserRam k d a src o n).restart = d.restart := by
  unfold cpyToUserRam
  by_cases h : a = statusOffset ∧ n = 1
  · rw [if_pos h]; exact ⟨⟨rfl, rfl, rfl, rfl⟩, rfl⟩
  · rw [if_neg h]
    dsimp only
    by_cases h2 : statusOffset < a - k.ramStart ∨ a - k.ramStart + n < statusOffset
    · rw [if_pos h2]; exact ⟨⟨rfl, rfl, rfl, rfl⟩, rfl⟩
    · rw [if_neg h2]; exact ramStore_core ..

theorem mapOp_core (rd : Bool) (s : MemMap.St) (p : Pos) (n : Nat) :
    Core p.d (mapOp W rd s p n).1.d ∧ (mapOp W rd s p n).1.d.restart = p.d.restart := by
  unfold mapOp
  cases rd
  · exact ⟨⟨rfl, rfl, rfl, rfl⟩, rfl⟩
  · exact ⟨⟨rfl, rfl, rfl, rfl⟩, rfl⟩

theorem mapBytes_core (rd : Bool) : ∀ (n : Nat) (p : Pos),
    Core p.d (mapBytes W rd n p).d ∧ (mapBytes W rd n p).d.restart = p.d.restart := by
  intro n
  induction n with
  | zero => intro p; exact ⟨Core.refl _, rfl⟩
  | succ n ih =>
    intro p
    unfold mapBytes
    cases hm : p.d.mapper with
    | none => exact ⟨Core.refl _, rfl⟩
    | some s =>
      dsimp only
      by_cases h : MemMap.isMapped W.mc s (p.addr : Int) = true
      · rw [if_pos h]
        obtain ⟨c1, c2⟩ := mapOp_core (W := W) rd s p 1
        by_cases h2 : (mapOp W rd s p 1).2 = true
        · rw [if_pos h2]
          obtain ⟨i1, i2⟩ := ih { (mapOp W rd s p 1).1 with
            addr := (mapOp W rd s p 1).1.addr + 1, off := (mapOp W rd s p 1).1.off + 1, found := true }
          exact ⟨c1.trans i1, i2.trans c2⟩
        · rw [if_neg h2]; exact ⟨c1, c2⟩
      · rw [if_neg h]; exact ⟨Core.refl _, rfl⟩

theorem eeCopy_core (rd : Bool) (p : Pos) (n : Nat) :
    Core p.d (eeCopy W rd p n).d ∧ (eeCopy W rd p n).d.restart = p.d.restart := by
  unfold eeCopy
  cases rd
  · exact ⟨⟨rfl, rfl, rfl, rfl⟩, rfl⟩
  · exact ⟨⟨rfl, rfl, rfl, rfl⟩, rfl⟩

theorem ramCopy_core (rd : Bool) (p : Pos) (n : Nat) :
    Core p.d (ramCopy W rd p n).d ∧ (ramCopy W rd p n).d.restart = p.d.restart := by
  unfold ramCopy
  cases rd
  · exact cpyToUserRam_core ..
  · exact ⟨⟨rfl, rfl, rfl, rfl⟩, rfl⟩

theorem memIter_core (rd : Bool) (fin : Nat) (p : Pos) :
    Core p.d (memIter W rd fin p).1.d ∧ (memIter W rd fin p).1.d.restart = p.d.restart := by
  have v1 : ∀ q : Pos, Core q.d (viaMapper W rd fin q).1.d ∧
      (viaMapper W rd fin q).1.d.restart = q.d.restart := by
    intro q
    unfold viaMapper
    cases hm : q.d.mapper with
    | none => exact ⟨Core.refl _, rfl⟩
    | some s =>
      dsimp only
      by_cases h : (MemMap.isMapped W.mc s (q.addr : Int) && MemMap.isMapped W.mc s (fin : Int)) = true
      · rw [if_pos h]; exact mapOp_core ..
      · rw [if_neg h]
        by_cases h2 : MemMap.isMapped W.mc s (q.addr : Int) = true
        · rw [if_pos h2]; exact mapBytes_core ..
        · rw [if_neg h2]; exact ⟨Core.refl _, rfl⟩
  have v2 : ∀ q : Pos, Core q.d (viaEeprom W rd fin q).1.d ∧
      (viaEeprom W rd fin q).1.d.restart = q.d.restart := by
    intro q
    unfold viaEeprom
    by_cases h : eeInRange W.kind q.addr fin = true
    · rw [if_pos h]; exact eeCopy_core ..
    · rw [if_neg h]
      by_cases h2 : eeIn W.kind q.addr = true
      · rw [if_pos h2]; exact eeCopy_core ..
      · rw [if_neg h2]; exact ⟨Core.refl _, rfl⟩
  have v3 : ∀ q : Pos, Core q.d (viaRam W rd fin q).1.d ∧
      (viaRam W rd fin q).1.d.restart = q.d.restart := by
    intro q
    unfold viaRam
    by_cases h : (ramInRange W.kind q.addr fin || (isStatusAddress q.addr && isStatusAddress fin)) = true
    · rw [if_pos h]; exact ramCopy_core ..
    · rw [if_neg h]
      by_cases h2 : ramIn W.kind q.addr = true
      · rw [if_pos h2]; exact ramCopy_core ..
      · rw [if_neg h2]; exact ⟨Core.refl _, rfl⟩
  unfold memIter
  dsimp only
  obtain ⟨a1, a2⟩ := v1 { p with found := false }
  cases h1 : (viaMapper W rd fin { p with found := false }).2 with
  | some b => exact ⟨a1, a2⟩
  | none =>
    dsimp only
    obtain ⟨b1, b2⟩ := v2 (viaMapper W rd fin { p with found := false }).1
    cases h2 : (viaEeprom W rd fin (viaMapper W rd fin { p with found := false }).1).2 with
    | some b => exact ⟨a1.trans b1, b2.trans a2⟩
    | none =>
      dsimp only
      obtain ⟨c1, c2⟩ := v3 (viaEeprom W rd fin (viaMapper W rd fin { p with found := false }).1).1
      exact ⟨a1.trans (b1.trans c1), c2.trans (b2.trans a2)⟩

theorem memLoop_core (rd : Bool) (fin : Nat) : ∀ (n : Nat) (p : Pos),
    Core p.d (memLoop W rd fin n p).1.d ∧ (memLoop W rd fin n p).1.d.restart = p.d.restart := by
  intro n
  induction n with
  | zero => intro p; exact ⟨Core.refl _, rfl⟩
  | succ n ih =>
    intro p
    unfold memLoop
    by_cases h : p.found = true ∧ p.addr ≤ fin
    · rw [if_pos h]
      dsimp only
      obtain ⟨a1, a2⟩ := memIter_core (W := W) rd fin p
      cases h2 : (memIter W rd fin p).2 with
      | some b => exact ⟨a1, a2⟩
      | none =>
        dsimp only
        obtain ⟨b1, b2⟩ := ih (memIter W rd fin p).1
        exact ⟨a1.trans b1, b2.trans a2⟩
    · rw [if_neg h]; exact ⟨Core.refl _, rfl⟩

theorem memOp_core (rd : Bool) (d : Dev) (a : Nat) (buf : Nat → Byte) (off n : Nat) :
    Core d (memOp W rd d a buf off n).1 ∧ (memOp W rd d a buf off n).1.restart = d.restart := by
  unfold memOp
  by_cases h : n = 0
  · rw [if_pos h]; exact ⟨Core.refl _, rfl⟩
  · rw [if_neg h]
    exact memLoop_core (W := W) rd (a + n - 1) (n + 1) ⟨d, buf, a, off, true⟩

/-! ## Properties -/

/-- What the load services may change: the EEPROM (and `undef`). -/
structure EeOnly (d d' : Dev) : Prop where
  core : Core d d'
  ram : d'.ram = d.ram
  status : d'.status = d.status
  eeModified : d'.eeModified = d.eeModified
  mapper : d'.mapper = d.mapper
  restart : d'.restart = d.restart

theorem EeOnly.refl (d : Dev) : EeOnly d d := ⟨Core.refl d, rfl, rfl, rfl, rfl, rfl⟩

theorem eeOnly_mk (d : Dev) (e : Nat → Byte) (u : Bool) : EeOnly d { d with ee := e, undef := u } :=
  ⟨⟨rfl, rfl, rfl, rfl⟩, rfl, rfl, rfl, rfl, rfl⟩

theorem allocTask_eeOnly (d : Dev) (obj : Nat) (pl : Nat → Byte) :
    EeOnly d (allocTaskSegment W d obj pl).1 := by
  unfold allocTaskSegment
  dsimp only
  split
  · exact eeOnly_mk d _ d.undef
  · exact eeOnly_mk d _ d.undef
  · exact eeOnly_mk d _ d.undef
  · exact EeOnly.refl d

theorem dataRel_eeOnly (d : Dev) (obj : Nat) (pl : Nat → Byte) : EeOnly d (dataRelAllocB d obj pl).1 := by
  unfold dataRelAllocB
  by_cases h : obj = 0 ∨ 5 < obj
  · rw [if_pos h]; exact eeOnly_mk d d.ee true
  · rw [if_neg h]
    dsimp only
    by_cases h2 : (pl 4).toNat > 0
    · rw [if_pos h2]
      by_cases h3 : inArray 3072 ((virtMemAddr d.ee : Int) - 0x3300) (reqMemSize pl) = true
      · rw [if_pos h3]; exact eeOnly_mk d _ d.undef
      · rw [if_neg h3]; exact eeOnly_mk d _ true
    · rw [if_neg h2]; exact eeOnly_mk d _ d.undef

theorem additional_eeOnly (d : Dev) (obj : Nat) (seg : Byte) (pl : Nat → Byte) :
    EeOnly d (additionalLoadControl W d obj seg pl).1 := by
  unfold additionalLoadControl
  split
  · exact EeOnly.refl d
  · exact EeOnly.refl d
  · exact allocTask_eeOnly d obj pl
  · exact EeOnly.refl d
  · split
    · exact EeOnly.refl d
    · exact eeOnly_mk d _ d.undef
  · split
    · exact EeOnly.refl d
    · exact eeOnly_mk d _ d.undef
  · exact EeOnly.refl d
  · split
    · exact dataRel_eeOnly d obj pl
    · exact EeOnly.refl d
  · exact EeOnly.refl d

theorem loadedB_eeOnly (d : Dev) (obj : Nat) : EeOnly d (loadedB d obj) := by
  unfold loadedB
  split
  · dsimp only
    split
    · exact eeOnly_mk d _ d.undef
    · exact eeOnly_mk d d.ee true
  · exact eeOnly_mk d d.ee true

theorem unloadedB_eeOnly (d : Dev) (obj : Nat) : EeOnly d (unloadedB d obj) := by
  unfold unloadedB
  split
  · exact eeOnly_mk d _ d.undef
  · exact eeOnly_mk d d.ee true

theorem loadProperty_eeOnly (d : Dev) (obj : Nat) (data : Nat → Byte) (len : Int) :
    EeOnly d (loadProperty W d obj data len).1 := by
  unfold loadProperty
  by_cases h : len > 11 ∨ len < 10
  · rw [if_pos h]; exact EeOnly.refl d
  · rw [if_neg h]
    dsimp only
    by_cases h1 : W.kind = .systemb ∧ loadStateMachine data = lsLoaded
    · rw [if_pos h1]; exact loadedB_eeOnly d obj
    · rw [if_neg h1]
      by_cases h2 : W.kind = .systemb ∧ loadStateMachine data = lsUnloaded
      · rw [if_pos h2]; exact unloadedB_eeOnly d obj
      · rw [if_neg h2]
        by_cases h3 : loadStateMachine data ≠ lsLoadCompleting
        · rw [if_pos h3]; exact EeOnly.refl d
        · rw [if_neg h3]; exact additional_eeOnly ..

theorem setArea_core (d : Dev) (p : PropDef) (f : Nat → Byte) :
    Core d (setArea d p f) ∧ (setArea d p f).restart = d.restart := by
  unfold setArea
  split <;> exact ⟨⟨rfl, rfl, rfl, rfl⟩, rfl⟩

theorem propRead_core (d : Dev) (obj pid count start : Nat) (sb : Buf) :
    Core d (propRead W d obj pid count start sb).1 ∧
    (propRead W d obj pid count start sb).1.restart = d.restart := by
  unfold propRead
  cases propertyDef obj pid with
  | none => exact ⟨Core.refl d, rfl⟩
  | some p =>
    dsimp only
    repeat' split
    all_goals exact ⟨⟨rfl, rfl, rfl, rfl⟩, rfl⟩

theorem propWrite_core (d : Dev) (t : Buf) (l : Nat) (obj pid count start : Nat) (sb : Buf) :
    Core d (propWrite W d t l obj pid count start sb).1 ∧
    (propWrite W d t l obj pid count start sb).1.restart = d.restart := by
  unfold propWrite
  cases propertyDef obj pid with
  | none => exact ⟨Core.refl d, rfl⟩
  | some p =>
    dsimp only
    split
    · exact ⟨Core.refl d, rfl⟩
    · split
      · have h := loadProperty_eeOnly (W := W) d obj (fun i => t (12 + i)) ((l : Int) - 13)
        exact ⟨⟨h.core.1, h.core.2, h.core.3, h.core.4⟩, h.restart⟩
      · split
        · dsimp only
          obtain ⟨h1, h2⟩ := setArea_core d p ((if W.kind = .systemb ∧ pid = 27 then blit else revBlit)
            (areaBytes d p) ((p.offset : Int) + ((start : Int) - 1) * p.size).toNat t 12 (count * p.size))
          split
          · exact ⟨⟨h1.1, h1.2, h1.3, h1.4⟩, h2⟩
          · exact ⟨h1, h2⟩
        · exact ⟨⟨rfl, rfl, rfl, rfl⟩, rfl⟩

theorem propDesc_core (d : Dev) (obj pid index : Nat) (sb : Buf) :
    Core d (propDesc d obj pid index sb).1 ∧ (propDesc d obj pid index sb).1.restart = d.restart := by
  unfold propDesc
  dsimp only
  by_cases h : pid = 0 ∧ ¬ (obj < 6 ∧ index ≤ (propTab obj).length)
  · rw [if_pos h]; exact ⟨⟨rfl, rfl, rfl, rfl⟩, rfl⟩
  · rw [if_neg h]
    cases (if pid = 0 then (propTab obj)[index]? else propertyDef obj pid) with
    | none => exact ⟨Core.refl d, rfl⟩
    | some p => exact ⟨Core.refl d, rfl⟩

/-! ## The services -/

theorem memWritePDU_core (d : Dev) (a : Nat) (t : Buf) (n : Nat) :
    Core d (memWritePDU W d a t n).1 ∧ (memWritePDU W d a t n).1.restart = d.restart := by
  unfold memWritePDU
  split
  · dsimp only
    split
    · have h := loadProperty_eeOnly (W := W) d ((t 10).toNat / 16) (fun i => t (10 + i)) n
      exact ⟨⟨h.core.1, h.core.2, h.core.3, h.core.4⟩, h.restart⟩
    · exact ⟨Core.refl d, rfl⟩
  · exact memOp_core ..

theorem memReadPDU_core (d : Dev) (a : Nat) (t : Buf) (n : Nat) :
    Core d (memReadPDU W d a t n).1 ∧ (memReadPDU W d a t n).1.restart = d.restart := by
  unfold memReadPDU
  split
  · exact ⟨Core.refl d, rfl⟩
  · exact memOp_core ..

theorem memResponse_core (d : Dev) (a : Word) (n : Nat) (sb : Buf) :
    Core d (memResponse W d a n sb).1 ∧ (memResponse W d a n sb).1.restart = d.restart := by
  unfold memResponse
  dsimp only
  obtain ⟨h1, h2⟩ := memReadPDU_core (W := W) d a.toNat sb n
  split
  · exact ⟨h1, h2⟩
  · exact ⟨⟨h1.1, h1.2, h1.3, h1.4⟩, h2⟩

theorem memService_core (d : Dev) (cmd : Word) (t sb : Buf) :
    Core d (memService W d cmd t sb).1 ∧ (memService W d cmd t sb).1.restart = d.restart := by
  unfold memService
  dsimp only
  split
  · obtain ⟨h1, h2⟩ := memWritePDU_core (W := W) d (makeWord (t 8) (t 9)).toNat t ((t 7).toNat % 16)
    split
    · obtain ⟨k1, k2⟩ := memResponse_core (W := W)
        (memWritePDU W d (makeWord (t 8) (t 9)).toNat t ((t 7).toNat % 16)).1 (makeWord (t 8) (t 9))
        ((t 7).toNat % 16) sb
      exact ⟨h1.trans k1, k2.trans h2⟩
    · exact ⟨h1, h2⟩
  · exact memResponse_core ..

theorem defaultApci_core (d : Dev) (cmd : Word) (t sb : Buf) :
    Core d (defaultApci W d cmd t sb).1 ∧
    (cmd ≠ 0x380#16 → cmd ≠ 0x381#16 → (defaultApci W d cmd t sb).1.restart = d.restart) := by
  unfold defaultApci
  by_cases h1 : cmd = 0x180#16
  · rw [if_pos h1]; exact ⟨Core.refl d, fun _ _ => rfl⟩
  rw [if_neg h1]
  by_cases h2 : cmd = 0x200#16 ∨ cmd = 0x280#16
  · rw [if_pos h2]
    obtain ⟨h, k⟩ := memService_core (W := W) d cmd t sb
    exact ⟨h, fun _ _ => k⟩
  rw [if_neg h2]
  by_cases h3 : cmd = 0x300#16
  · rw [if_pos h3]
    split <;> exact ⟨Core.refl d, fun _ _ => rfl⟩
  rw [if_neg h3]
  by_cases h4 : cmd = 0x381#16
  · rw [if_pos h4]
    refine ⟨?_, fun _ k => absurd h4 k⟩
    unfold masterReset
    dsimp only
    repeat' split
    all_goals exact ⟨rfl, rfl, rfl, rfl⟩
  rw [if_neg h4]
  by_cases h5 : cmd = 0x3d1#16
  · rw [if_pos h5]; exact ⟨Core.refl d, fun _ _ => rfl⟩
  rw [if_neg h5]
  by_cases h6 : cmd = 0x380#16
  · rw [if_pos h6]; exact ⟨⟨rfl, rfl, rfl, rfl⟩, fun k _ => absurd h6 k⟩
  rw [if_neg h6]
  exact ⟨Core.refl d, fun _ _ => rfl⟩

/-- No service a connection offers changes the individual address, the run state, whether the
device is enabled, or the static object table address; and only the restart services schedule a
restart. -/
theorem processApci_core (d : Dev) (t : Buf) (l : Nat) (sb : Buf) :
    Core d (processApci W d t l sb).1 ∧ (apciCommand t ≠ 0x380#16 → apciCommand t ≠ 0x381#16 →
      (processApci W d t l sb).1.restart = d.restart) := by
  unfold processApci
  split
  · exact defaultApci_core ..
  · unfold bcu2Apci
    split
    · dsimp only
      by_cases hr : apciCommand t = 0x3d5#16
      · rw [if_pos hr]
        obtain ⟨h, k⟩ := propRead_core (W := W) d (t 8).toNat (t 9).toNat ((t 10).toNat / 16)
          (((t 10).toNat % 16 * 16) ||| (t 11).toNat) (upd (propHeader sb 0x65#8 0x3d6#16 t) 11 (t 11))
        exact ⟨h, fun _ _ => k⟩
      · rw [if_neg hr]
        obtain ⟨h, k⟩ := propWrite_core (W := W) d t l (t 8).toNat (t 9).toNat ((t 10).toNat / 16)
          (((t 10).toNat % 16 * 16) ||| (t 11).toNat) (upd (propHeader sb 0x65#8 0x3d6#16 t) 11 (t 11))
        exact ⟨h, fun _ _ => k⟩
    · split
      · obtain ⟨h, k⟩ := propDesc_core d (t 8).toNat (t 9).toNat (t 10).toNat
          (propHeader sb 0x68#8 0x3d9#16 t)
        exact ⟨h, fun _ _ => k⟩
      · exact defaultApci_core ..

end Verif.Dev
