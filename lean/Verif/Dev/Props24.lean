import Verif.Dev.Spec24
import Verif.Dev.FrameRead
import Verif.Dev.Props22
import Verif.Dev.Frame

/-!
# C24: load control

The theorem about the other objects is named `_partial`: on System B a relative allocation with the
fill flag overwrites memory without any check (see the findings).
-/

namespace Verif.Dev

open Verif.Knx

variable {W : World}

/-! ## Helper lemmas -/

theorem reachable_iff (d : Dev) (a : Nat) : reachable W d (a : Int) = true ↔ HasMemory W d a := by
  unfold reachable HasMemory space mappedAt ramIn eeIn
  cases hm : d.mapper with
  | none =>
    dsimp only
    rw [if_neg (by decide)]
    by_cases h1 : W.kind.eeStart ≤ a ∧ a < W.kind.eeStart + W.kind.eeSize
    · rw [if_pos h1]
      simp [h1]
    · rw [if_neg h1]
      by_cases h2 : W.kind.ramStart ≤ a ∧ a < W.kind.ramStart + W.kind.ramSize
      · rw [if_pos h2]
        simp [h2]
      · rw [if_neg h2]
        simp [h1, h2]
        omega
  | some s =>
    dsimp only
    by_cases h0 : MemMap.isMapped W.mc s (a : Int) = true
    · rw [if_pos h0]
      simp [h0]
    · rw [if_neg h0]
      by_cases h1 : W.kind.eeStart ≤ a ∧ a < W.kind.eeStart + W.kind.eeSize
      · rw [if_pos h1]
        simp [h1]
      · rw [if_neg h1]
        by_cases h2 : W.kind.ramStart ≤ a ∧ a < W.kind.ramStart + W.kind.ramSize
        · rw [if_pos h2]
          simp [h2]
        · rw [if_neg h2]
          simp [h0, h1, h2]
          omega

theorem reachable_neg (d : Dev) : reachable W d (-1) = true ↔ AddsPages W d := by
  unfold reachable AddsPages
  cases hm : d.mapper with
  | none => simp
  | some s =>
    have hg : MemMap.getFlashPageNum s (-1) = -1 := rfl
    simp only [MemMap.isMapped, hg, MemMap.INVALID_ADDRESS]
    simp

theorem accepted_data (d : Dev) (obj : Nat) (pl : Nat → Byte) :
    (SegmentAccepted W d obj 0 pl → allocDataSegment W d pl = lsLoading) ∧
    (¬ SegmentAccepted W d obj 0 pl → allocDataSegment W d pl = lsError) := by
  have e : (reachable W d ((makeWord (pl 0) (pl 1)).toNat : Int) &&
      reachable W d (((makeWord (pl 0) (pl 1)).toNat : Int) + ((makeWord (pl 2) (pl 3)).toNat : Int) - 1)) = true ↔
      HasMemory W d (makeWord (pl 0) (pl 1)).toNat ∧
      ((∃ last, last + 1 = (makeWord (pl 0) (pl 1)).toNat + (makeWord (pl 2) (pl 3)).toNat ∧
        HasMemory W d last) ∨
       ((makeWord (pl 0) (pl 1)).toNat + (makeWord (pl 2) (pl 3)).toNat = 0 ∧ AddsPages W d)) := by
    obtain ⟨x, hx⟩ : ∃ x, (makeWord (pl 0) (pl 1)).toNat = x := ⟨_, rfl⟩
    obtain ⟨y, hy⟩ : ∃ y, (makeWord (pl 2) (pl 3)).toNat = y := ⟨_, rfl⟩
    rw [hx, hy, Bool.and_eq_true, reachable_iff]
    by_cases h0 : x + y = 0
    · have : (x : Int) + (y : Int) - 1 = -1 := by omega
      rw [this, reachable_neg]
      constructor
      · rintro ⟨h1, h2⟩; exact ⟨h1, Or.inr ⟨h0, h2⟩⟩
      · rintro ⟨h1, ⟨l, hl, _⟩ | ⟨_, h2⟩⟩
        · omega
        · exact ⟨h1, h2⟩
    · have : (x : Int) + (y : Int) - 1 = ((x + y - 1 : Nat) : Int) := by omega
      rw [this, reachable_iff]
      constructor
      · rintro ⟨h1, h2⟩; exact ⟨h1, Or.inl ⟨x + y - 1, by omega, h2⟩⟩
      · rintro ⟨h1, ⟨l, hl, h2⟩ | ⟨h2, _⟩⟩
        · have : x + y - 1 = l := by omega
          rw [this]; exact ⟨h1, h2⟩
        · exact absurd h2 h0
  have em : ((pl 5).toNat % 8 = 1 ∨ (pl 5).toNat % 8 = 2 ∨ (pl 5).toNat % 8 = 3) ↔
      (1 ≤ (pl 5).toNat % 8 ∧ (pl 5).toNat % 8 ≤ 3) := by omega
  have ed : allocDataSegment W d pl = if (pl 5).toNat % 8 = 1 ∨ (pl 5).toNat % 8 = 2 ∨ (pl 5).toNat % 8 = 3 then
      if (reachable W d ((makeWord (pl 0) (pl 1)).toNat : Int) &&
      reachable W d (((makeWord (pl 0) (pl 1)).toNat : Int) + ((makeWord (pl 2) (pl 3)).toNat : Int) - 1)) = true
      then lsLoading else lsError else lsError := rfl
  rw [ed]
  constructor
  · intro h
    have h' : (1 ≤ (pl 5).toNat % 8 ∧ (pl 5).toNat % 8 ≤ 3) ∧ _ := h
    rw [if_pos (em.2 h'.1), if_pos (e.2 h'.2)]
  · intro h
    by_cases h1 : (pl 5).toNat % 8 = 1 ∨ (pl 5).toNat % 8 = 2 ∨ (pl 5).toNat % 8 = 3
    · rw [if_pos h1]
      by_cases h2 : (reachable W d ((makeWord (pl 0) (pl 1)).toNat : Int) &&
          reachable W d (((makeWord (pl 0) (pl 1)).toNat : Int) + ((makeWord (pl 2) (pl 3)).toNat : Int) - 1)) = true
      · exact absurd (show SegmentAccepted W d obj 0 pl from ⟨em.1 h1, e.1 h2⟩) h
      · rw [if_neg h2]
    · rw [if_neg h1]

theorem additional_state (d : Dev) (obj : Nat) (seg : Byte) (pl : Nat → Byte) :
    (SegmentAccepted W d obj seg.toNat pl → (additionalLoadControl W d obj seg pl).2 = 2#8) ∧
    (¬ SegmentAccepted W d obj seg.toNat pl → (additionalLoadControl W d obj seg pl).2 = 3#8) := by
  unfold additionalLoadControl
  obtain ⟨n, hn⟩ : ∃ n, seg.toNat = n := ⟨_, rfl⟩
  rw [hn]
  split
  · exact accepted_data d obj pl
  · exact ⟨fun _ => rfl, fun h => absurd trivial h⟩
  · unfold allocTaskSegment
    dsimp only
    split
    · exact ⟨fun _ => rfl, fun h => absurd (show 1 ≤ 1 ∧ 1 ≤ 3 by omega) h⟩
    · exact ⟨fun _ => rfl, fun h => absurd (show 1 ≤ 2 ∧ 2 ≤ 3 by omega) h⟩
    · exact ⟨fun _ => rfl, fun h => absurd (show 1 ≤ 3 ∧ 3 ≤ 3 by omega) h⟩
    · rename_i h1 h2 h3
      refine ⟨fun h => ?_, fun _ => rfl⟩
      have h' : 1 ≤ obj ∧ obj ≤ 3 := h
      exfalso
      have e1 : obj ≠ 1 := h1
      have e2 : obj ≠ 2 := h2
      have e3 : obj ≠ 3 := h3
      omega
  · exact ⟨fun _ => rfl, fun h => absurd trivial h⟩
  · by_cases hk : W.kind = .systemb
    · rw [if_pos hk]
      exact ⟨fun h => absurd hk h, fun _ => rfl⟩
    · rw [if_neg hk]
      exact ⟨fun _ => rfl, fun h => absurd hk h⟩
  · by_cases hk : W.kind = .systemb
    · rw [if_pos hk]
      exact ⟨fun h => absurd hk h, fun _ => rfl⟩
    · rw [if_neg hk]
      exact ⟨fun _ => rfl, fun h => absurd hk h⟩
  · exact ⟨fun _ => rfl, fun h => absurd trivial h⟩
  · refine ⟨fun _ => ?_, fun h => absurd trivial h⟩
    by_cases hk : W.kind = .systemb
    · rw [if_pos hk]
      unfold dataRelAllocB
      dsimp only
      repeat' split
      all_goals rfl
    · rw [if_neg hk]; rfl
  · rename_i h0 h1 h2 h3 h4 h5 ha hb
    refine ⟨fun h => ?_, fun _ => rfl⟩
    exfalso
    unfold SegmentAccepted at h
    split at h <;> first | exact h | simp_all

theorem loadProperty_state (d : Dev) (obj : Nat) (data : Nat → Byte) (len : Int) :
    Prescribed W d obj data len (loadProperty W d obj data len).2 := by
  unfold loadProperty
  by_cases h : len > 11 ∨ len < 10
  · rw [if_pos h]; exact .badLength (by omega)
  rw [if_neg h]
  have hlen : len = 10 ∨ len = 11 := by omega
  have hlt : (data 0).toNat % 8 < 8 := Nat.mod_lt _ (by decide)
  dsimp only
  have hp : ((if W.kind = .systemb ∧ loadStateMachine data = lsLoaded then (loadedB d obj, loadStateMachine data)
      else if W.kind = .systemb ∧ loadStateMachine data = lsUnloaded then (unloadedB d obj, loadStateMachine data)
      else if loadStateMachine data ≠ lsLoadCompleting then (d, loadStateMachine data)
      else additionalLoadControl W d obj (data 1) fun i => data ((if len = 10 then 2 else 3) + i)).2) =
      if loadStateMachine data ≠ lsLoadCompleting then loadStateMachine data
      else (additionalLoadControl W d obj (data 1) fun i => data ((if len = 10 then 2 else 3) + i)).2 := by
    by_cases h1 : W.kind = .systemb ∧ loadStateMachine data = lsLoaded
    · rw [if_pos h1, if_pos (by rw [h1.2]; decide)]
    · rw [if_neg h1]
      by_cases h2 : W.kind = .systemb ∧ loadStateMachine data = lsUnloaded
      · rw [if_pos h2, if_pos (by rw [h2.2]; decide)]
      · rw [if_neg h2]
        by_cases h3 : loadStateMachine data ≠ lsLoadCompleting
        · rw [if_pos h3, if_pos h3]
        · rw [if_neg h3, if_neg h3]
  rw [hp]
  have hev : (data 0).toNat % 8 = 0 ∨ (data 0).toNat % 8 = 1 ∨ (data 0).toNat % 8 = 2 ∨
      (data 0).toNat % 8 = 3 ∨ (data 0).toNat % 8 = 4 ∨ 5 ≤ (data 0).toNat % 8 := by omega
  rcases hev with he | he | he | he | he | he
  · have : loadStateMachine data = lsError := by unfold loadStateMachine; rw [he]; rfl
    rw [this, if_pos (by decide)]
    exact .other hlen (Or.inl he)
  · have : loadStateMachine data = lsLoading := by unfold loadStateMachine; rw [he]; rfl
    rw [this, if_pos (by decide)]
    exact .startLoading hlen he
  · have : loadStateMachine data = lsLoaded := by unfold loadStateMachine; rw [he]; rfl
    rw [this, if_pos (by decide)]
    exact .loadCompleted hlen he
  · have : loadStateMachine data = lsLoadCompleting := by unfold loadStateMachine; rw [he]; rfl
    rw [this, if_neg (by decide)]
    obtain ⟨h1, h2⟩ := additional_state (W := W) d obj (data 1)
      (fun i => data ((if len = 10 then 2 else 3) + i))
    have hn : (len = 10 ∧ (if len = 10 then 2 else 3) = 2) ∨ (len = 11 ∧ (if len = 10 then 2 else 3) = 3) := by
      rcases hlen with hl | hl
      · left; exact ⟨hl, if_pos hl⟩
      · right; exact ⟨hl, if_neg (by omega)⟩
    by_cases ha : SegmentAccepted W d obj (data 1).toNat
        (fun i => data ((if len = 10 then 2 else 3) + i))
    · rw [h1 ha]
      exact .segment _ hn he ha
    · rw [h2 ha]
      exact .segmentRefused _ hn he ha
  · have : loadStateMachine data = lsUnloaded := by unfold loadStateMachine; rw [he]; rfl
    rw [this, if_pos (by decide)]
    exact .unload hlen he
  · have : loadStateMachine data = lsError := by
      unfold loadStateMachine
      split <;> first | omega | rfl
    rw [this, if_pos (by decide)]
    exact .other hlen (Or.inr he)

/-- The load states the load functions leave alone: the bytes 0x370 to 0x377. -/
theorem loadProperty_keeps (d : Dev) (obj : Nat) (data : Nat → Byte) (len : Int)
    (hf : ¬ Fills W data len) (i : Nat) (hi : 0x370 ≤ i ∧ i < 0x378) :
    (loadProperty W d obj data len).1.ee i = d.ee i := by
  have hset : ∀ (e : Nat → Byte) (o : Nat) (w : Word), (o + 1 < 0x370 ∨ 0x378 ≤ o) →
      setWord e o w i = e i := by
    intro e o w ho
    unfold setWord
    rw [upd_ne _ _ _ _ (by omega), upd_ne _ _ _ _ (by omega)]
  have hoff : ∀ k : Kind, (addrTabAddrOff k + 1 < 0x370 ∨ 0x378 ≤ addrTabAddrOff k) ∧
      (assocTabAddrOff k + 1 < 0x370 ∨ 0x378 ≤ assocTabAddrOff k) := by
    intro k; cases k <;> decide
  have hdef : ∀ o pid p, propertyDef o pid = some p → (pid = 7 ∨ pid = 27) → 0x378 ≤ p.offset := by
    intro o pid p hp hpid
    have ho : o < 6 := by
      apply Classical.byContradiction
      intro hc
      have : propTab o = [] := by
        unfold propTab
        split <;> first | omega | rfl
      unfold propertyDef at hp
      rw [this] at hp
      cases hp
    have hall : ∀ o, o < 6 → ∀ pid, (pid = 7 ∨ pid = 27) →
        ∀ p, propertyDef o pid = some p → 0x378 ≤ p.offset := by
      intro o ho pid hpid
      have h7 : ∀ o, o < 6 → ((propertyDef o 7).all fun p => decide (0x378 ≤ p.offset)) = true := by decide
      have h27 : ∀ o, o < 6 → ((propertyDef o 27).all fun p => decide (0x378 ≤ p.offset)) = true := by decide
      intro p hp
      rcases hpid with rfl | rfl
      · have := h7 o ho
        rw [hp] at this
        exact of_decide_eq_true this
      · have := h27 o ho
        rw [hp] at this
        exact of_decide_eq_true this
    exact hall o ho pid hpid p hp
  unfold loadProperty
  by_cases h : len > 11 ∨ len < 10
  · rw [if_pos h]
  rw [if_neg h]
  dsimp only
  by_cases h1 : W.kind = .systemb ∧ loadStateMachine data = lsLoaded
  · rw [if_pos h1]
    show (loadedB d obj).ee i = d.ee i
    unfold loadedB
    split
    · rename_i ref mcb h7 h27
      dsimp only
      have := hdef obj 27 mcb h27 (Or.inr rfl)
      split
      · show upd (upd d.ee _ _) _ _ i = d.ee i
        rw [upd_ne _ _ _ _ (by omega), upd_ne _ _ _ _ (by omega)]
      · rfl
    · rfl
  rw [if_neg h1]
  by_cases h2 : W.kind = .systemb ∧ loadStateMachine data = lsUnloaded
  · rw [if_pos h2]
    show (unloadedB d obj).ee i = d.ee i
    unfold unloadedB
    split
    · rename_i ref h7
      have := hdef obj 7 ref h7 (Or.inl rfl)
      show upd (upd d.ee _ _) _ _ i = d.ee i
      rw [upd_ne _ _ _ _ (by omega), upd_ne _ _ _ _ (by omega)]
    · rfl
  rw [if_neg h2]
  by_cases h3 : loadStateMachine data ≠ lsLoadCompleting
  · rw [if_pos h3]
  rw [if_neg h3]
  have hev : (data 0).toNat % 8 = 3 := by
    have h3' : loadStateMachine data = lsLoadCompleting := Classical.byContradiction h3
    unfold loadStateMachine at h3'
    split at h3'
    · cases h3'
    · cases h3'
    · assumption
    · cases h3'
    · cases h3'
  obtain ⟨pl, hpl⟩ : ∃ pl : Nat → Byte, (fun i => data ((if len = 10 then 2 else 3) + i)) = pl := ⟨_, rfl⟩
  rw [hpl]
  unfold additionalLoadControl
  split
  · rfl
  · rfl
  · unfold allocTaskSegment
    dsimp only
    split
    · exact hset _ _ _ (hoff W.kind).1
    · exact hset _ _ _ (hoff W.kind).2
    · show upd (upd (upd (upd (upd (upd _ _ _) _ _) _ _) _ _) _ _) _ _ i = d.ee i
      rw [upd_ne _ _ _ _ (by omega), upd_ne _ _ _ _ (by omega), upd_ne _ _ _ _ (by omega),
        upd_ne _ _ _ _ (by omega), upd_ne _ _ _ _ (by omega), upd_ne _ _ _ _ (by omega)]
      split
      · rfl
      · exact hset _ _ _ (by omega)
    · rfl
  · rfl
  · split
    · rfl
    · show upd (setWord _ _ _) _ _ i = d.ee i
      rw [upd_ne _ _ _ _ (by omega)]
      exact hset _ _ _ (by omega)
  · split
    · rfl
    · show setWord (setWord (setWord _ _ _) _ _) _ _ i = d.ee i
      rw [hset _ _ _ (by omega), hset _ _ _ (by omega), hset _ _ _ (by omega)]
  · rfl
  · rename_i hb
    split
    · rename_i hk
      unfold dataRelAllocB
      by_cases ho : obj = 0 ∨ 5 < obj
      · rw [if_pos ho]
      · rw [if_neg ho]
        dsimp only
        have hz : ¬ (pl 4).toNat > 0 := by
          intro hc
          apply hf
          refine ⟨hk, hev, ?_, ?_⟩
          · apply BitVec.eq_of_toNat_eq
            rw [hb]; rfl
          · intro hz
            have : pl 4 = 0#8 := by rw [← hpl]; exact hz
            rw [this] at hc
            exact absurd hc (by decide)
        rw [if_neg hz]
        show blit (setWord d.ee _ _) _ pl 0 4 i = d.ee i
        have ht : ∀ o, o < 5 → (tableAddress.getD o 0 + 1 < 0x370 ∨ 0x378 ≤ tableAddress.getD o 0) ∧
            tableSize.getD o 0 + 4 < 0x370 := by decide
        have := ht (obj - 1) (by omega)
        unfold blit
        rw [if_neg (by omega)]
        exact hset _ _ _ this.1
    · rfl
  · rfl

theorem propertyDef_load (obj : Nat) (h : obj < 6) :
    propertyDef obj 5 = some ⟨5, 0xa0, 0x4370 + obj⟩ := by
  have : ∀ obj, obj < 6 → propertyDef obj 5 = some ⟨5, 0xa0, 0x4370 + obj⟩ := by decide
  exact this obj h

/-- The state after a record was handled. -/
def afterLoad (W : World) (d : Dev) (obj : Nat) (rec : Nat → Byte) (n : Int) : Dev :=
  { (loadProperty W d obj rec n).1 with
    ee := upd (loadProperty W d obj rec n).1.ee (0x370 + obj) (loadProperty W d obj rec n).2 }

theorem propertyRoute (d : Dev) (t : Buf) (l obj : Nat) (sb : Buf) (hk : W.kind ≠ .bcu1)
    (apci : apciCommand t = 0x3d7#16) (ho : (t 8).toNat = obj) (hobj : obj < 6) (pid : t 9 = 5#8) :
    processApci W d t l sb = (afterLoad W d obj (fun i => t (12 + i)) ((l : Int) - 13),
      addLen (upd (upd (propHeader sb 0x65#8 0x3d6#16 t) 11 (t 11)) 12
        (loadProperty W d obj (fun i => t (12 + i)) ((l : Int) - 13)).2) 1, true) := by
  unfold processApci
  rw [if_neg hk]
  unfold bcu2Apci
  rw [apci, if_pos (Or.inr rfl)]
  dsimp only
  rw [if_neg (by decide), ho, pid]
  have e : propWrite W d t l obj (5#8).toNat ((t 10).toNat / 16) ((t 10).toNat % 16 * 16 ||| (t 11).toNat)
      (upd (propHeader sb 0x65#8 0x3d6#16 t) 11 (t 11)) =
      (afterLoad W d obj (fun i => t (12 + i)) ((l : Int) - 13),
      addLen (upd (upd (propHeader sb 0x65#8 0x3d6#16 t) 11 (t 11)) 12
        (loadProperty W d obj (fun i => t (12 + i)) ((l : Int) - 13)).2) 1, true) := by
    unfold propWrite
    rw [show (5#8).toNat = 5 from rfl, propertyDef_load obj hobj]
    dsimp only
    rw [if_neg (by exact (show ¬ (!(Nat.testBit 0xa0 7)) = true by decide)),
      if_pos (by exact (show 0xa0 % 32 = 0 by decide))]
    rfl
  rw [e]
  rfl

theorem memoryRoute (d : Dev) (t : Buf) (l obj : Nat) (sb : Buf)
    (hk : W.kind ≠ .bcu1 ∧ W.kind ≠ .bcu2) (apci : apciCommand t = 0x280#16)
    (addr : makeWord (t 8) (t 9) = 0x104#16) (ho : (t 10).toNat / 16 = obj) (hobj : obj < 8) :
    ∃ u, (processApci W d t l sb).1 =
      { afterLoad W d obj (fun i => t (10 + i)) (((t 7).toNat % 16 : Nat) : Int) with
        eeModified := true
        undef := u } ∧
      ((t 7).toNat % 16 ≤ 13 →
        u = (afterLoad W d obj (fun i => t (10 + i)) (((t 7).toNat % 16 : Nat) : Int)).undef) := by
  obtain ⟨n, hn⟩ : ∃ n, (t 7).toNat % 16 = n := ⟨_, rfl⟩
  have e1 : memWritePDU W d (makeWord (t 8) (t 9)).toNat t n =
      ({ afterLoad W d obj (fun i => t (10 + i)) (n : Int) with eeModified := true }, true) := by
    unfold memWritePDU
    rw [if_pos ⟨hk.1, hk.2, by rw [addr]; rfl⟩]
    dsimp only
    rw [ho, if_pos hobj]
    rfl
  have e2 : processApci W d t l sb = memService W d 0x280#16 t sb := by
    unfold processApci
    rw [if_neg hk.1]
    unfold bcu2Apci
    rw [apci, if_neg (by decide), if_neg (by decide)]
    unfold defaultApci
    rw [if_neg (by decide), if_pos (Or.inr rfl)]
  rw [e2]
  unfold memService
  dsimp only
  rw [if_pos rfl, hn, e1]
  dsimp only
  split
  · rw [memResponse_same]
    split
    · exact ⟨_, rfl, fun _ => rfl⟩
    · rename_i hb
      refine ⟨true, rfl, fun h => absurd ?_ hb⟩
      show 10 + n ≤ 23
      omega
  · exact ⟨_, rfl, fun _ => rfl⟩

/-- Both ways to give a record to the device. -/
theorem loadRequest_eq {t : Buf} {l obj : Nat} {rec : Nat → Byte} {n : Int}
    (hr : LoadRequest W t l obj rec n) (d : Dev) (sb : Buf) :
    (processApci W d t l sb).1.ee = (afterLoad W d obj rec n).ee := by
  cases hr with
  | property hk apci ho hobj pid => rw [propertyRoute d t l obj sb hk apci ho hobj pid]
  | memory hk apci addr ho hobj =>
    obtain ⟨u, h, _⟩ := memoryRoute d t l obj sb hk apci addr ho hobj
    rw [h]

theorem LoadRequest.lt {t : Buf} {l obj : Nat} {rec : Nat → Byte} {n : Int}
    (hr : LoadRequest W t l obj rec n) : obj < 8 := by
  cases hr with
  | property _ _ _ hobj _ => omega
  | memory _ _ _ _ hobj => exact hobj

/-! ## The properties -/

/-- The new load state of the addressed object is the one the record prescribes, in every state of the
device. -/
theorem C24_new_state {t : Buf} {l obj : Nat} {rec : Nat → Byte} {n : Int}
    (hr : LoadRequest W t l obj rec n) (d : Dev) (sb : Buf) :
    Prescribed W d obj rec n (loadState (processApci W d t l sb).1 obj) := by
  unfold loadState
  rw [loadRequest_eq hr]
  show Prescribed W d obj rec n (upd _ (0x370 + obj) _ (0x370 + obj))
  rw [upd_same]
  exact loadProperty_state ..

/-- The prescribed state is unique: for the same device, object and record there are no two. -/
theorem C24_prescribed_unique {d : Dev} {obj : Nat} {rec : Nat → Byte} {n : Int} {s s' : Byte}
    (h : Prescribed W d obj rec n s) (h' : Prescribed W d obj rec n s') : s = s' := by
  cases h <;> cases h' <;> first
    | rfl
    | omega
    | (exfalso; rename_i p hn _ ha q hn' _ ha'
       have e : p = q := by omega
       subst e
       exact absurd ‹SegmentAccepted W d obj _ _› ‹¬ SegmentAccepted W d obj _ _›)

/-- The load states of the other objects stay.  Partial: not for the request that makes System B fill
memory, see `C24_fill_overwrites`. -/
theorem C24_others_partial {t : Buf} {l obj : Nat} {rec : Nat → Byte} {n : Int}
    (hr : LoadRequest W t l obj rec n) (hf : ¬ Fills W rec n) (d : Dev) (sb : Buf) (other : Nat)
    (ho : other < 8) (hne : other ≠ obj) :
    loadState (processApci W d t l sb).1 other = loadState d other := by
  unfold loadState
  rw [loadRequest_eq hr]
  show upd _ (0x370 + obj) _ (0x370 + other) = _
  rw [upd_ne _ _ _ _ (by omega)]
  exact loadProperty_keeps d obj rec n hf _ (by omega)

/-- The answer to a load control by property reports the new state. -/
theorem C24_answer {d : Dev} {t : Buf} {l obj : Nat} {sb : Buf} (hk : W.kind ≠ .bcu1)
    (apci : apciCommand t = 0x3d7#16) (ho : (t 8).toNat = obj) (hobj : obj < 6) (pid : t 9 = 5#8) :
    (processApci W d t l sb).2.2 = true ∧
    (processApci W d t l sb).2.1 6 = 0x03#8 ∧ (processApci W d t l sb).2.1 7 = 0xd6#8 ∧
    (processApci W d t l sb).2.1 8 = t 8 ∧ (processApci W d t l sb).2.1 9 = 5#8 ∧
    (processApci W d t l sb).2.1 10 = t 10 ∧ (processApci W d t l sb).2.1 11 = t 11 ∧
    (processApci W d t l sb).2.1 12 = loadState (processApci W d t l sb).1 obj := by
  rw [propertyRoute d t l obj sb hk apci ho hobj pid]
  refine ⟨rfl, rfl, rfl, rfl, ?_, rfl, rfl, ?_⟩
  · exact pid
  · show (loadProperty W d obj (fun i => t (12 + i)) ((l : Int) - 13)).2 = upd _ (0x370 + obj) _ (0x370 + obj)
    rw [upd_same]

/-- The load state can be read as property 5 (one element, from the first): reading changes nothing
and reports it. -/
theorem C24_read_property {d : Dev} {t : Buf} {l obj : Nat} {sb : Buf} (hk : W.kind ≠ .bcu1)
    (apci : apciCommand t = 0x3d5#16) (ho : (t 8).toNat = obj) (hobj : obj < 6) (pid : t 9 = 5#8)
    (h10 : t 10 = 0x10#8) (h11 : t 11 = 1#8) :
    (processApci W d t l sb).1 = d ∧ (processApci W d t l sb).2.2 = true ∧
    (processApci W d t l sb).2.1 5 = 0x66#8 ∧
    (processApci W d t l sb).2.1 6 = 0x03#8 ∧ (processApci W d t l sb).2.1 7 = 0xd6#8 ∧
    (processApci W d t l sb).2.1 8 = t 8 ∧ (processApci W d t l sb).2.1 9 = 5#8 ∧
    (processApci W d t l sb).2.1 10 = 0x10#8 ∧ (processApci W d t l sb).2.1 11 = 1#8 ∧
    (processApci W d t l sb).2.1 12 = loadState d obj := by
  have e : ∀ sb', propRead W d obj 5 1 1 sb' =
      (d, addLen (revBlit sb' 12 d.ee (0x370 + obj) 1) 1, true) := by
    intro sb'
    have hs : PropDef.size ⟨5, 0xa0, 0x4370 + obj⟩ = 1 :=
      show propertySizes.getD (0xa0 % 32) 0 = 1 by decide
    have ho : PropDef.offset ⟨5, 0xa0, 0x4370 + obj⟩ = 0x370 + obj := by
      have : ∀ obj, obj < 6 → PropDef.offset ⟨5, 0xa0, 0x4370 + obj⟩ = 0x370 + obj := by decide
      exact this obj hobj
    have ha : PropDef.area ⟨5, 0xa0, 0x4370 + obj⟩ = .ee := by
      have : ∀ obj, obj < 6 → PropDef.area ⟨5, 0xa0, 0x4370 + obj⟩ = .ee := by decide
      exact this obj hobj
    unfold propRead
    rw [propertyDef_load obj hobj]
    dsimp only
    rw [hs, ho, ha, if_neg (by split <;> decide), if_neg (fun h => absurd h.2.2 (by decide))]
    have hin : (inArray (areaSize W.kind .ee) ((0x370 + obj : Nat) + (((1 : Nat) : Int) - 1) * (1 : Nat)) (1 * 1)
        && decide (12 + 1 * 1 ≤ bufSize)) = true := by
      rw [Bool.and_eq_true]
      refine ⟨?_, rfl⟩
      unfold inArray
      rw [decide_eq_true_iff]
      right
      have : 1024 ≤ areaSize W.kind .ee := by
        revert hk
        cases W.kind <;> first | (intro h; exact absurd rfl h) | (intro _; decide)
      omega
    rw [if_pos hin, if_pos (by exact (show 0xa0 % 32 < 0x0c by decide))]
    unfold areaBytes
    rw [ha]
    dsimp only
    rw [show ((((0x370 + obj : Nat) : Int) + (((1 : Nat) : Int) - 1) * ((1 : Nat) : Int)).toNat) = 0x370 + obj by
      omega]
  have e2 : processApci W d t l sb = (d, addLen (revBlit (upd (propHeader sb 0x65#8 0x3d6#16 t) 11 (t 11))
      12 d.ee (0x370 + obj) 1) 1, true) := by
    unfold processApci
    rw [if_neg hk]
    unfold bcu2Apci
    rw [apci, if_pos (Or.inl rfl)]
    dsimp only
    rw [if_pos rfl, ho, pid, h10, h11]
    rw [show ((5#8).toNat) = 5 from rfl, show (0x10#8).toNat / 16 = 1 from rfl,
      show ((0x10#8).toNat % 16 * 16 ||| (1#8).toNat) = 1 from rfl, e]
    rfl
  rw [e2]
  refine ⟨rfl, rfl, ?_, rfl, rfl, rfl, ?_, ?_, ?_, ?_⟩
  · rfl
  · exact pid
  · exact h10
  · exact h11
  · rfl

/-- On the masks 07xx the load states can be read from address 0xb6e9 on. -/
theorem C24_read_memory {d : Dev} {t : Buf} {l : Nat} {sb : Buf}
    (hk : W.kind ≠ .bcu1 ∧ W.kind ≠ .bcu2) {obj n : Nat} (hn : obj + n ≤ 8)
    (hr : MemReadRequest t (0xb6e9#16 + BitVec.ofNat 16 obj) n) (h0 : 0 < n) :
    (processApci W d t l sb).1 = d ∧ (processApci W d t l sb).2.2 = true ∧
    MemResponse (processApci W d t l sb).2.1 (0xb6e9#16 + BitVec.ofNat 16 obj)
      ((List.range n).map (fun i => loadState d (obj + i))) := by
  have hto : (0xb6e9#16 + BitVec.ofNat 16 obj).toNat = 0xb6e9 + obj := by
    rw [BitVec.toNat_add, BitVec.toNat_ofNat]
    show (0xb6e9 + obj % 65536) % 65536 = _
    omega
  have e : processApci W d t l sb = (d, upd (upd (setApciCommand (upd (blit sb 10 d.ee (0x370 + obj) n) 5
      (BitVec.ofNat 8 (0x60 + n + 3))) 0x240#16 (BitVec.ofNat 8 n)) 8
      (highByte (0xb6e9#16 + BitVec.ofNat 16 obj))) 9 (lowByte (0xb6e9#16 + BitVec.ofNat 16 obj)), true) := by
    rw [apply_memRead d t l sb hr.apci, hr.count, hr.addr]
    unfold memResponse
    have e1 : memReadPDU W d (0xb6e9#16 + BitVec.ofNat 16 obj).toNat sb n =
        (d, blit sb 10 d.ee (0x370 + obj) n, true) := by
      unfold memReadPDU
      rw [hto, if_pos ⟨hk.1, hk.2, by omega, by omega⟩, show 0xb6e9 + obj - 0xb6e9 = obj by omega]
      rfl
    rw [e1]
    dsimp only
    rw [if_pos rfl, if_pos (by rw [decide_eq_true_iff]; unfold bufSize; omega)]
  rw [e]
  refine ⟨rfl, rfl, ?_⟩
  refine memResp_build _ _ n (by omega) _ (by simp) (fun i hi => ?_)
  unfold blit
  rw [if_pos (by omega), show 10 + i - 10 = i by omega, List.getD_eq_getElem?_getD, List.getElem?_map,
    List.getElem?_range hi]
  show d.ee (0x370 + obj + i) = d.ee (0x370 + (obj + i))
  rw [Nat.add_assoc]

/-- Load control records, one after the other. -/
def loadAll (W : World) (sb : Buf) : Dev → List (Buf × Nat) → Dev
  | d, [] => d
  | d, x :: l => loadAll W sb (processApci W d x.1 x.2 sb).1 l

theorem loadAll_other (sb : Buf) (o : Nat) (ho : o < 8) : ∀ (l : List (Buf × Nat)) (d : Dev),
    (∀ x ∈ l, ∃ obj rec n, LoadRequest W x.1 x.2 obj rec n ∧ ¬ Fills W rec n ∧ obj ≠ o) →
    loadState (loadAll W sb d l) o = loadState d o := by
  intro l
  induction l with
  | nil => intro d _; rfl
  | cons x l ih =>
    intro d h
    obtain ⟨obj, rec, n, hr, hf, hne⟩ := h x (List.mem_cons_self ..)
    exact (ih _ (fun y hy => h y (List.mem_cons_of_mem _ hy))).trans
      (C24_others_partial hr hf d sb o ho (Ne.symm hne))

/-- After any sequence of load controls the state of an object is the one prescribed by the last
record that was addressed to it.  Partial: no request to fill memory after it. -/
theorem C24_history_partial (sb : Buf) (d : Dev) (before after : List (Buf × Nat)) (t : Buf) (l obj : Nat)
    (rec : Nat → Byte) (n : Int) (hr : LoadRequest W t l obj rec n)
    (ha : ∀ x ∈ after, ∃ obj' rec' n', LoadRequest W x.1 x.2 obj' rec' n' ∧ ¬ Fills W rec' n' ∧ obj' ≠ obj) :
    Prescribed W (loadAll W sb d before) obj rec n
      (loadState (loadAll W sb d (before ++ (t, l) :: after)) obj) := by
  have e : ∀ (b : List (Buf × Nat)) (d : Dev), loadAll W sb d (b ++ (t, l) :: after) =
      loadAll W sb (processApci W (loadAll W sb d b) t l sb).1 after := by
    intro b
    induction b with
    | nil => intro d; rfl
    | cons x b ih => intro d; exact ih _
  rw [e, loadAll_other sb obj hr.lt after _ ha]
  exact C24_new_state hr _ sb

theorem afterLoad_simple (hk : W.kind ≠ .systemb) {rec : Nat → Byte} {n : Int}
    (he : (rec 0).toNat % 8 ≠ 3 ∨ (n ≠ 10 ∧ n ≠ 11)) (d : Dev) (obj : Nat) :
    ∃ s, afterLoad W d obj rec n = { d with ee := fun i => if i = 0x370 + obj then s else d.ee i } := by
  have h : (loadProperty W d obj rec n).1 = d := by
    unfold loadProperty
    by_cases h : n > 11 ∨ n < 10
    · rw [if_pos h]
    rw [if_neg h]
    dsimp only
    rw [if_neg (fun h => hk h.1), if_neg (fun h => hk h.1), if_pos]
    have h3 : (rec 0).toNat % 8 ≠ 3 := by
      rcases he with he | he
      · exact he
      · omega
    unfold loadStateMachine
    split <;> first | decide | (exact absurd ‹_› h3)
  unfold afterLoad
  rw [h]
  exact ⟨_, rfl⟩

/-- Start of loading, end of loading, unloading and wrong records change nothing but the load state of
the object (and, by memory, mark the EEPROM for saving).  Partial: not for System B, which also writes
the memory control block or the table address; not for a memory write of 14 or 15 bytes, whose answer
would not fit into the send buffer. -/
theorem C24_frame_partial {t : Buf} {l obj : Nat} {rec : Nat → Byte} {n : Int}
    (hr : LoadRequest W t l obj rec n) (hk : W.kind ≠ .systemb)
    (he : (rec 0).toNat % 8 ≠ 3 ∨ (n ≠ 10 ∧ n ≠ 11)) (hn : n ≤ 13) (d : Dev) (sb : Buf) :
    ∃ s m, (processApci W d t l sb).1 =
      { d with ee := fun i => if i = 0x370 + obj then s else d.ee i, eeModified := m } ∧
      (m = true ↔ d.eeModified = true ∨ apciCommand t = 0x280#16) := by
  cases hr with
  | property hb apci ho hobj pid =>
    rw [propertyRoute d t l obj sb hb apci ho hobj pid]
    obtain ⟨s, hs⟩ := afterLoad_simple (rec := fun i => t (12 + i)) hk he d obj
    refine ⟨s, d.eeModified, hs, ⟨Or.inl, fun h => h.elim id (fun h => ?_)⟩⟩
    rw [apci] at h
    exact absurd h (by decide)
  | memory hb apci addr ho hobj =>
    obtain ⟨u, hu1, hu2⟩ := memoryRoute d t l obj sb hb apci addr ho hobj
    obtain ⟨s, hs⟩ := afterLoad_simple (rec := fun i => t (10 + i)) hk he d obj
    have hu3 := hu2 (by omega)
    rw [hs] at hu1 hu3
    refine ⟨s, true, ?_, ⟨fun _ => Or.inr apci, fun _ => rfl⟩⟩
    rw [hu1, hu3]

/-- A load control never makes a BCU2 or a mask 0701/0705 device do something undefined (with the
length restriction of `C24_frame_partial`). -/
theorem C24_defined_partial {t : Buf} {l obj : Nat} {rec : Nat → Byte} {n : Int}
    (hr : LoadRequest W t l obj rec n) (hk : W.kind ≠ .systemb) (hn : n ≤ 13) (d : Dev) (sb : Buf) :
    (processApci W d t l sb).1.undef = d.undef := by
  have h : (afterLoad W d obj rec n).undef = d.undef := by
    show (loadProperty W d obj rec n).1.undef = d.undef
    unfold loadProperty
    split
    · rfl
    dsimp only
    rw [if_neg (fun h => hk h.1), if_neg (fun h => hk h.1)]
    split
    · rfl
    unfold additionalLoadControl
    split
    · rfl
    · rfl
    · unfold allocTaskSegment
      dsimp only
      split <;> rfl
    · rfl
    · rw [if_neg hk]; rfl
    · rw [if_neg hk]; rfl
    · rfl
    · rw [if_neg hk]
    · rfl
  cases hr with
  | property hb apci ho hobj pid =>
    rw [propertyRoute d t l obj sb hb apci ho hobj pid]
    exact h
  | memory hb apci addr ho hobj =>
    obtain ⟨u, hu1, hu2⟩ := memoryRoute d t l obj sb hb apci addr ho hobj
    rw [hu1]
    exact (hu2 (by omega)).trans h

/-! ## Findings -/

/-- Only the lower three bits of the event count: 9 is none of the four events and acts as "start
loading". -/
theorem C24_event_masked {t : Buf} {l obj : Nat} {rec : Nat → Byte} {n : Int}
    (hr : LoadRequest W t l obj rec n) (hn : n = 10 ∨ n = 11) (he : rec 0 = 9#8) (d : Dev) (sb : Buf) :
    loadState (processApci W d t l sb).1 obj = 2#8 :=
  C24_prescribed_unique (C24_new_state hr d sb) (.startLoading hn (by rw [he]; decide))

/-- A load state written by property is not marked for saving: after a restart the old one may be
back. -/
theorem C24_property_not_saved {d : Dev} {t : Buf} {l obj : Nat} {sb : Buf} (hk : W.kind ≠ .bcu1)
    (apci : apciCommand t = 0x3d7#16) (ho : (t 8).toNat = obj) (hobj : obj < 6) (pid : t 9 = 5#8) :
    (processApci W d t l sb).1.eeModified = d.eeModified := by
  rw [propertyRoute d t l obj sb hk apci ho hobj pid]
  exact (loadProperty_eeOnly d obj _ _).eeModified

/-- On System B the events "load completed" and "unload" for the device object (0), and "load
completed" for the object 5, use a null pointer. -/
theorem C24_systemb_null {d : Dev} {t : Buf} {l obj : Nat} {sb : Buf} (hk : W.kind = .systemb)
    (apci : apciCommand t = 0x3d7#16) (ho : (t 8).toNat = obj) (pid : t 9 = 5#8)
    (hl : l = 23 ∨ l = 24) (he : (obj = 0 ∧ (t 12 = 2#8 ∨ t 12 = 4#8)) ∨ (obj = 5 ∧ t 12 = 2#8)) :
    (processApci W d t l sb).1.undef = true := by
  rw [propertyRoute d t l obj sb (by rw [hk]; decide) apci ho (by omega) pid]
  show (loadProperty W d obj (fun i => t (12 + i)) ((l : Int) - 13)).1.undef = true
  unfold loadProperty
  rw [if_neg (by omega)]
  dsimp only
  have hev : ∀ b, t 12 = b → loadStateMachine (fun i => t (12 + i)) = loadStateMachine (fun _ => b) := by
    intro b hb
    unfold loadStateMachine
    show (match (t 12).toNat % 8 with | 1 => _ | 2 => _ | 3 => _ | 4 => _ | _ => _) = _
    rw [hb]
    rfl
  rcases he with ⟨rfl, h | h⟩ | ⟨rfl, h⟩
  · rw [hev _ h, if_pos ⟨hk, rfl⟩]; rfl
  · rw [hev _ h, if_neg (fun h => absurd h.2 (by decide)), if_pos ⟨hk, rfl⟩]; rfl
  · rw [hev _ h, if_pos ⟨hk, rfl⟩]; rfl

/-- A System B device whose lowest table lies at 0x3670. -/
def exB : Dev := { exDev with
  ee := fun i => if i = 0x21 then 0x70#8 else if i = 0x22 then 0x36#8
    else if 0x370 ≤ i ∧ i < 0x378 then 1#8 else 0#8 }

/-- Allocation of 8 bytes for the application, with filling by 0xaa. -/
def exFill : Buf := exTel [0x03#8, 0xd7#8, 3#8, 5#8, 0x10#8, 1#8,
  3#8, 0x0b#8, 0#8, 0#8, 0#8, 8#8, 1#8, 0xaa#8, 0#8, 0#8]

def exWorldB : World := ⟨.systemb, MemMap.dEnv, MemMap.dCfgFixed⟩

/-- On System B a relative allocation with filling writes *behind* the new block: here the load states
of all other objects, which were "loaded", become 0xaa. -/
theorem C24_fill_overwrites :
    LoadRequest exWorldB exFill 23 3 (fun i => exFill (12 + i)) 10 ∧
    (∀ o, o < 8 → loadState exB o = 1#8) ∧
    ∀ sb, ∀ o, o < 8 → o ≠ 3 → loadState (processApci exWorldB exB exFill 23 sb).1 o = 0xaa#8 := by
  have hr : LoadRequest exWorldB exFill 23 3 (fun i => exFill (12 + i)) 10 :=
    .property (by decide) (by decide) (by decide) (by decide) (by decide)
  refine ⟨hr, by decide, fun sb o h1 h2 => ?_⟩
  unfold loadState
  rw [loadRequest_eq hr]
  revert o
  decide +kernel

/-! ## The hypotheses are met -/

/-- "start loading" for the application of the BCU2 -/
def exStart : Buf := exTel [0x03#8, 0xd7#8, 3#8, 5#8, 0x10#8, 1#8, 1#8, 0#8, 0#8, 0#8, 0#8, 0#8, 0#8, 0#8,
  0#8, 0#8]

theorem exStart_req : LoadRequest exWorld exStart 23 3 (fun i => exStart (12 + i)) 10 :=
  .property (by decide) (by decide) (by decide) (by decide) (by decide)

example (sb : Buf) : loadState (processApci exWorld exDev exStart 23 sb).1 3 = 2#8 :=
  C24_prescribed_unique (C24_new_state exStart_req exDev sb) (.startLoading (Or.inl rfl) (by decide))

example : loadState exDev 3 ≠ 2#8 := by decide
example : ¬ Fills exWorld (fun i => exStart (12 + i)) 10 := fun h => absurd h.1 (by decide)
example (sb : Buf) : loadState (processApci exWorld exDev exStart 23 sb).1 2 = loadState exDev 2 :=
  C24_others_partial exStart_req (fun h => absurd h.1 (by decide)) exDev sb 2 (by decide) (by decide)

/-- "load completed" for the application of a mask 0701 device, by memory -/
def exDone : Buf := exTel [0x02#8, 0x8a#8, 0x01#8, 0x04#8, 0x32#8]

def exWorld7 : World := ⟨.mask0701, MemMap.dEnv, MemMap.dCfgFixed⟩

theorem exDone_req : LoadRequest exWorld7 exDone 21 3 (fun i => exDone (10 + i)) 10 :=
  .memory (by decide) (by decide) (by decide) (by decide) (by decide)

example (sb : Buf) : loadState (processApci exWorld7 exDev exDone 21 sb).1 3 = 1#8 :=
  C24_prescribed_unique (C24_new_state exDone_req exDev sb) (.loadCompleted (Or.inl rfl) (by decide))

/-- a data segment in the EEPROM of the BCU2 (accepted) and one behind it (refused) -/
def exSeg (hi lo : Byte) : Buf := exTel [0x03#8, 0xd7#8, 3#8, 5#8, 0x10#8, 1#8, 3#8, 0#8, hi, lo, 0x00#8,
  0x20#8, 0#8, 3#8, 0#8, 0#8]

example (sb : Buf) : loadState (processApci exWorld exDev (exSeg 0x01#8 0x20#8) 23 sb).1 3 = 2#8 := by
  rw [show loadState (processApci exWorld exDev (exSeg 0x01#8 0x20#8) 23 sb).1 3 = _ from
    congrFun (loadRequest_eq (obj := 3) (.property (by decide) (by decide) (by decide) (by decide) (by decide)) exDev sb)
      0x373]
  decide +kernel

example (sb : Buf) : loadState (processApci exWorld exDev (exSeg 0x05#8 0x20#8) 23 sb).1 3 = 3#8 := by
  rw [show loadState (processApci exWorld exDev (exSeg 0x05#8 0x20#8) 23 sb).1 3 = _ from
    congrFun (loadRequest_eq (obj := 3) (.property (by decide) (by decide) (by decide) (by decide) (by decide)) exDev sb)
      0x373]
  decide +kernel

/-- reading the load state of the application -/
def exReadState : Buf := exTel [0x03#8, 0xd5#8, 3#8, 5#8, 0x10#8, 1#8]

example (sb : Buf) : (processApci exWorld exDev exReadState 13 sb).2.1 12 = 0x73#8 :=
  (C24_read_property (obj := 3) (by decide) (by decide) (by decide) (by decide) (by decide) (by decide)
    (by decide)).2.2.2.2.2.2.2.2.2

example : MemReadRequest (exTel [0x02#8, 0x03#8, 0xb6#8, 0xea#8]) (0xb6e9#16 + BitVec.ofNat 16 1) 3 :=
  ⟨by decide, by decide, by decide⟩

end Verif.Dev
