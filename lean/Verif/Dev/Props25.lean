import Verif.Dev.Spec25
import Verif.Dev.FrameEe
import Verif.Dev.SysLemmas
import Verif.Dev.Props23
import Verif.Dev.Props24

/-!
# C25: when the application runs
-/

namespace Verif.Dev

open Verif.Knx

variable {W : World}

/-! ## Helper lemmas -/

theorem propertyDef_mem {obj pid : Nat} {p : PropDef} (h : propertyDef obj pid = some p) :
    obj < 6 ∧ p ∈ propTab obj ∧ p.id = pid := by
  have hm : p ∈ propTab obj := List.mem_of_find?_eq_some h
  refine ⟨?_, hm, ?_⟩
  · apply Classical.byContradiction
    intro hc
    have : propTab obj = [] := by
      unfold propTab
      split <;> first | omega | rfl
    rw [this] at hm
    cases hm
  · have := List.find?_some h
    exact of_decide_eq_true this

theorem propTab_load : ∀ obj, obj < 6 → ∀ p ∈ propTab obj, p.writable = true → p.type = 0 → p.id = 5 := by
  decide

theorem propTab_ee : ∀ obj, obj < 6 → ∀ p ∈ propTab obj, p.writable = true → p.type ≠ 0 → p.area = .ee →
    0x378 + p.size ≤ p.offset := by
  decide

/-- A property write that is no load control leaves the load states alone. -/
theorem propWrite_states (d : Dev) (t : Buf) (l obj pid count start : Nat) (sb : Buf) (i : Nat)
    (hi : 0x370 ≤ i ∧ i < 0x378) (hp : ¬ (obj < 6 ∧ pid = 5)) :
    (propWrite W d t l obj pid count start sb).1.ee i = d.ee i := by
  unfold propWrite
  cases hd : propertyDef obj pid with
  | none => rfl
  | some p =>
    obtain ⟨ho, hm, hid⟩ := propertyDef_mem hd
    dsimp only
    by_cases hw : p.writable = true
    · rw [hw, if_neg (by decide)]
      by_cases ht : p.type = 0
      · exact absurd ⟨ho, hid ▸ propTab_load obj ho p hm hw ht⟩ hp
      · rw [if_neg ht]
        split
        · rename_i hin
          rw [Bool.and_eq_true] at hin
          obtain ⟨h1, h2⟩ := hin
          unfold inArray at h1
          rw [decide_eq_true_iff] at h1
          have key : ∀ f : Nat → Byte, (p.area = .ee → f i = d.ee i) →
              (setArea d p f).ee i = d.ee i := by
            intro f hf
            unfold setArea
            cases ha : p.area with
            | ee => exact hf ha
            | ram => rfl
            | own => rfl
          have hcp : p.area = .ee →
              (if W.kind = .systemb ∧ pid = 27 then blit else revBlit) (areaBytes d p)
                ((p.offset : Int) + ((start : Int) - 1) * p.size).toNat t 12 (count * p.size) i = d.ee i := by
            intro ha
            have hoff := propTab_ee obj ho p hm hw ht ha
            have hb : areaBytes d p = d.ee := by unfold areaBytes; rw [ha]
            have hge : count * p.size = 0 ∨
                0x378 ≤ ((p.offset : Int) + ((start : Int) - 1) * p.size).toNat := by
              rcases h1 with h1 | h1
              · exact Or.inl h1
              · right
                have hmul : (-1 : Int) * p.size ≤ ((start : Int) - 1) * p.size :=
                  Int.mul_le_mul_of_nonneg_right (by omega) (by omega)
                omega
            rw [hb]
            split
            · unfold blit
              rw [if_neg (by omega)]
            · unfold revBlit
              rw [if_neg (by omega)]
          split
          · exact key _ hcp
          · exact key _ hcp
        · rfl
    · rw [Bool.not_eq_true] at hw
      rw [hw, if_pos (by decide)]

theorem propRead_dev (d : Dev) (obj pid count start : Nat) (sb : Buf) :
    (propRead W d obj pid count start sb).1 = d ∨
    (propRead W d obj pid count start sb).1 = { d with undef := true } := by
  unfold propRead
  cases propertyDef obj pid with
  | none => exact Or.inl rfl
  | some p =>
    dsimp only
    repeat' split
    all_goals first | exact Or.inl rfl | exact Or.inr rfl

/-- No service a telegram asks for makes an object "loaded", but those of `MakesLoaded`. -/
theorem processApci_loaded (d : Dev) (t : Buf) (l : Nat) (sb : Buf) (o : Nat) (ho : o < 8)
    (h0 : loadState d o ≠ 1#8) (h1 : loadState (processApci W d t l sb).1 o = 1#8) :
    MakesLoaded W t l o := by
  apply Classical.byContradiction
  intro hno
  have hload : ∀ obj rec n, LoadRequest W t l obj rec n → False := by
    intro obj rec n hr
    by_cases hf : Fills W rec n
    · exact hno (.fill obj rec n hr hf)
    · by_cases he : o = obj
      · subst he
        have hp := C24_new_state hr d sb
        rw [h1] at hp
        cases hp with
        | loadCompleted hn he => exact hno (.completed rec n hr hn he)
      · exact h0 ((C24_others_partial hr hf d sb o ho he).symm.trans h1)
  have hsame : (processApci W d t l sb).1.ee (0x370 + o) = d.ee (0x370 + o) → False :=
    fun h => h0 (h.symm.trans h1)
  apply hsame
  -- now service by service
  have hmem : ∀ sb', (memService W d (apciCommand t) t sb').1.ee (0x370 + o) = d.ee (0x370 + o) := by
    intro sb'
    unfold memService
    dsimp only
    by_cases hc : apciCommand t = 0x280#16
    · rw [if_pos hc]
      have hw : (memWritePDU W d (makeWord (t 8) (t 9)).toNat t ((t 7).toNat % 16)).1.ee (0x370 + o) =
          d.ee (0x370 + o) := by
        unfold memWritePDU
        by_cases hr : W.kind ≠ .bcu1 ∧ W.kind ≠ .bcu2 ∧ (makeWord (t 8) (t 9)).toNat = 0x104
        · rw [if_pos hr]
          dsimp only
          by_cases ho8 : (t 10).toNat / 16 < 8
          · exact (hload _ _ _ (.memory ⟨hr.1, hr.2.1⟩ hc
              (by apply BitVec.eq_of_toNat_eq; rw [hr.2.2]; rfl) rfl ho8)).elim
          · rw [if_neg ho8]
        · rw [if_neg hr]
          dsimp only
          apply memOp_w
          apply Classical.byContradiction
          intro hin
          apply hno
          refine .memory (makeWord (t 8) (t 9)) ((List.range ((t 7).toNat % 16)).map (fun i => t (10 + i)))
            ⟨hc, by simp, rfl, ?_⟩ (by omega) (by rw [List.length_map, List.length_range]; omega)
          intro i hi
          rw [List.length_map, List.length_range] at hi
          rw [List.getD_eq_getElem?_getD, List.getElem?_map, List.getElem?_range hi]
          rfl
      split
      · rw [memResponse_same]
        split
        · exact hw
        · exact hw
      · exact hw
    · rw [if_neg hc, memResponse_same]
      split <;> rfl
  have hdef : ∀ sb', (defaultApci W d (apciCommand t) t sb').1.ee (0x370 + o) = d.ee (0x370 + o) := by
    intro sb'
    unfold defaultApci
    by_cases c1 : apciCommand t = 0x180#16
    · rw [if_pos c1]
    rw [if_neg c1]
    by_cases c2 : apciCommand t = 0x200#16 ∨ apciCommand t = 0x280#16
    · rw [if_pos c2]; exact hmem sb'
    rw [if_neg c2]
    by_cases c3 : apciCommand t = 0x300#16
    · rw [if_pos c3]; split <;> rfl
    rw [if_neg c3]
    by_cases c4 : apciCommand t = 0x381#16
    · rw [if_pos c4]
      unfold masterReset
      dsimp only
      repeat' split
      all_goals rfl
    rw [if_neg c4]
    by_cases c5 : apciCommand t = 0x3d1#16
    · rw [if_pos c5]
    rw [if_neg c5]
    by_cases c6 : apciCommand t = 0x380#16
    · rw [if_pos c6]
    rw [if_neg c6]
  unfold processApci
  by_cases hk : W.kind = .bcu1
  · rw [if_pos hk]; exact hdef sb
  rw [if_neg hk]
  unfold bcu2Apci
  by_cases c1 : apciCommand t = 0x3d5#16 ∨ apciCommand t = 0x3d7#16
  · rw [if_pos c1]
    dsimp only
    by_cases c2 : apciCommand t = 0x3d5#16
    · rw [if_pos c2]
      rcases propRead_dev (W := W) d (t 8).toNat (t 9).toNat ((t 10).toNat / 16)
        ((t 10).toNat % 16 * 16 ||| (t 11).toNat) (upd (propHeader sb 0x65#8 0x3d6#16 t) 11 (t 11)) with h | h
      · rw [h]
      · rw [h]
    · rw [if_neg c2]
      have c3 : apciCommand t = 0x3d7#16 := c1.resolve_left c2
      apply propWrite_states _ _ _ _ _ _ _ _ _ (by omega)
      intro hc
      exact hload _ _ _ (.property hk c3 rfl hc.1 (by apply BitVec.eq_of_toNat_eq; rw [hc.2]; rfl))
  rw [if_neg c1]
  by_cases c2 : apciCommand t = 0x3d8#16
  · rw [if_pos c2]
    unfold propDesc
    dsimp only
    repeat' split
    all_goals rfl
  · rw [if_neg c2]; exact hdef sb

/-- Setting the individual address touches a load state only where the table lies over it. -/
theorem setOwn_states (d : Dev) (a : Word) (o : Nat) (h : ¬ TableOverState W d o) :
    (setOwnAddress W d a).ee (0x370 + o) = d.ee (0x370 + o) := by
  have hs := setOwnDefault_spec d a
  have e0 : (setOwnAddressDefault d a).ee (0x370 + o) = d.ee (0x370 + o) :=
    hs.ee _ (by omega) (by omega)
  have hoff : ∀ k : Kind, addrTabAddrOff k ≠ 0x17 ∧ addrTabAddrOff k ≠ 0x18 ∧
      addrTabAddrOff k + 1 ≠ 0x17 ∧ addrTabAddrOff k + 1 ≠ 0x18 := by
    intro k; cases k <;> decide
  obtain ⟨o1, o2, o3, o4⟩ := hoff W.kind
  have hw : wordAt (setOwnAddressDefault d a).ee (addrTabAddrOff W.kind) =
      wordAt d.ee (addrTabAddrOff W.kind) := by
    unfold wordAt
    rw [hs.ee _ o1 o2, hs.ee _ o3 o4]
  unfold setOwnAddress
  dsimp only
  by_cases hl : W.kind ≠ .bcu1 ∧ (setOwnAddressDefault d a).ee (loadStateOff + 1) = lsLoading
  · rw [if_pos hl, hw]
    have htl : TableLoading W d := ⟨hl.1, (hs.ee 0x371 (by decide) (by decide)).symm.trans hl.2⟩
    cases hu : userMemoryPtr W.kind (wordAt d.ee (addrTabAddrOff W.kind)).toNat with
    | none => exact e0
    | some r =>
      obtain ⟨ar, off⟩ := r
      dsimp only
      split
      · by_cases hae : ar = .ee
        · rw [if_pos hae]
          have hoff : off = (wordAt d.ee (addrTabAddrOff W.kind)).toNat - W.kind.eeStart ∧
              W.kind.eeStart ≤ (wordAt d.ee (addrTabAddrOff W.kind)).toNat := by
            unfold userMemoryPtr at hu
            split at hu
            · rename_i hin
              unfold eeIn at hin
              rw [decide_eq_true_iff] at hin
              have := Option.some.inj hu
              exact ⟨(congrArg Prod.snd this).symm, hin.1⟩
            · split at hu
              · have := Option.some.inj hu
                rw [hae] at this
                cases this
              · cases hu
          have hnot : ¬ ((wordAt d.ee (addrTabAddrOff W.kind)).toNat + 1 ≤ W.kind.eeStart + 0x370 + o ∧
              W.kind.eeStart + 0x370 + o ≤ (wordAt d.ee (addrTabAddrOff W.kind)).toNat + 2) :=
            fun hc => h ⟨htl, hc⟩
          show upd (upd (setOwnAddressDefault d a).ee (off + 1) (highByte a)) (off + 2) (lowByte a) (0x370 + o) = _
          rw [upd_ne _ _ _ _ (by omega), upd_ne _ _ _ _ (by omega)]
          exact e0
        · rw [if_neg hae]; exact e0
      · exact e0
  · rw [if_neg hl]; exact e0

theorem broadcast_states (d : Dev) (t : Buf) (o : Nat) (h : ¬ TableOverState W d o) :
    (broadcast W d t).1.ee (0x370 + o) = d.ee (0x370 + o) := by
  have hdef : (defaultBroadcast W d (apciCommand t) t).1.ee (0x370 + o) = d.ee (0x370 + o) := by
    unfold defaultBroadcast
    repeat' split
    all_goals first | rfl | exact setOwn_states d _ o h
  unfold broadcast
  dsimp only
  repeat' split
  all_goals first | rfl | exact setOwn_states d _ o h | exact hdef

theorem running_iff (hk : W.kind ≠ .bcu1) (d : Dev) : applicationRunning W.kind d = true ↔
    d.enabled = true ∧ d.runState = 1#8 ∧ loadState d 1 = 1#8 ∧ loadState d 2 = 1#8 ∧ loadState d 3 = 1#8 := by
  unfold applicationRunning
  cases he : d.enabled with
  | false => simp
  | true =>
    rw [if_neg (by decide), if_neg hk]
    simp only [Bool.and_eq_true, beq_iff_eq, true_and, and_assoc]
    exact Iff.rfl

/-! ## The properties -/

/-- The application runs only if it is enabled, the run state is "running" (1) and the address table (1),
the association table (2) and the application (3) are loaded: whoever asks the device for their load
states gets the answer "loaded" (1).  Also the converse. -/
theorem C25_running_iff (hk : W.kind ≠ .bcu1) (d : Dev) :
    applicationRunning W.kind d = true ↔
      d.enabled = true ∧ d.runState = 1#8 ∧
      ∀ obj, 1 ≤ obj → obj ≤ 3 → ∀ t l sb, apciCommand t = 0x3d5#16 → t 8 = BitVec.ofNat 8 obj → t 9 = 5#8 →
        t 10 = 0x10#8 → t 11 = 1#8 → (processApci W d t l sb).2.2 = true ∧
          (processApci W d t l sb).2.1 12 = 1#8 := by
  have hob : ∀ obj, obj ≤ 3 → (BitVec.ofNat 8 obj).toNat = obj := by decide
  rw [running_iff hk]
  constructor
  · intro ⟨h1, h2, h3, h4, h5⟩
    refine ⟨h1, h2, fun obj hl hu t l sb apci t8 t9 t10 t11 => ?_⟩
    have := C24_read_property (d := d) (l := l) (sb := sb) (obj := obj) hk apci
      (by rw [t8]; exact hob obj hu) (by omega) t9 t10 t11
    refine ⟨this.2.1, this.2.2.2.2.2.2.2.2.2.trans ?_⟩
    have : obj = 1 ∨ obj = 2 ∨ obj = 3 := by omega
    rcases this with rfl | rfl | rfl
    · exact h3
    · exact h4
    · exact h5
  · intro ⟨h1, h2, h3⟩
    have key : ∀ obj, 1 ≤ obj → obj ≤ 3 → loadState d obj = 1#8 := by
      intro obj hl hu
      let t : Buf := fun i => if i = 6 then 0x03#8 else if i = 7 then 0xd5#8 else
        if i = 8 then BitVec.ofNat 8 obj else if i = 9 then 5#8 else if i = 10 then 0x10#8 else 1#8
      have ha : apciCommand t = 0x3d5#16 := by
        unfold apciCommand
        rw [show t 6 = 0x03#8 from rfl, show t 7 = 0xd5#8 from rfl]
        decide
      have h := h3 obj hl hu t 0 (fun _ => 0#8) ha rfl rfl rfl rfl
      have := C24_read_property (d := d) (l := 0) (sb := fun _ => 0#8) (t := t) (obj := obj) hk ha
        (hob obj hu) (by omega) rfl rfl rfl
      exact this.2.2.2.2.2.2.2.2.2.symm.trans h.2
    exact ⟨h1, h2, key 1 (by decide) (by decide), key 2 (by decide) (by decide), key 3 (by decide) (by decide)⟩

/-- On the BCU1, which has no load states: enabled, run state "running", run error 0xff (no error), status
not in programming mode and with the bit of the user program set. -/
theorem C25_running_bcu1 (hk : W.kind = .bcu1) (d : Dev) :
    applicationRunning W.kind d = true ↔
      d.enabled = true ∧ d.runState = 1#8 ∧ d.ee 0x0d = 0xff#8 ∧
      programmingMode d = false ∧ d.status.getLsbD 3 = true := by
  have hs : ∀ s : Byte, (s &&& 9#8 == 8#8) = (!s.getLsbD 0 && s.getLsbD 3) := by decide +kernel
  unfold applicationRunning programmingMode
  cases he : d.enabled with
  | false => simp
  | true =>
    rw [if_neg (by decide), if_pos hk, hs]
    simp only [Bool.and_eq_true, Bool.not_eq_true', beq_iff_eq, true_and]
    constructor
    · intro ⟨⟨⟨h1, h2⟩, h3⟩, h4⟩; exact ⟨h3, h4, h1, h2⟩
    · intro ⟨h3, h4, h1, h2⟩; exact ⟨⟨⟨h1, h2⟩, h3⟩, h4⟩

/-- No management service and no broadcast changes "enabled" and the run state. -/
theorem C25_run_state_kept (group : Dev → Buf → Nat → Dev × Option (Buf → Buf))
    (hg : ∀ d t l, (group d t l).1.runState = d.runState ∧ (group d t l).1.enabled = d.enabled)
    (es : List Event) : ∀ s : TL4.State Dev,
    (sysRun W group s es).1.app.runState = s.app.runState ∧
    (sysRun W group s es).1.app.enabled = s.app.enabled := by
  have hset : ∀ (d : Dev) (a : Word), (setOwnAddress W d a).runState = d.runState ∧
      (setOwnAddress W d a).enabled = d.enabled := by
    intro d a
    have h := setOwnDefault_spec d a
    unfold setOwnAddress
    dsimp only
    repeat' split
    all_goals exact ⟨h.runState, h.enabled⟩
  have hbc : ∀ (d : Dev) (t : Buf), (broadcast W d t).1.runState = d.runState ∧
      (broadcast W d t).1.enabled = d.enabled := by
    intro d t
    have hdef : (defaultBroadcast W d (apciCommand t) t).1.runState = d.runState ∧
        (defaultBroadcast W d (apciCommand t) t).1.enabled = d.enabled := by
      unfold defaultBroadcast
      repeat' split
      all_goals first | exact ⟨rfl, rfl⟩ | exact hset d _
    unfold broadcast
    dsimp only
    repeat' split
    all_goals first | exact ⟨rfl, rfl⟩ | exact hset d _ | exact hdef
  have hstep : ∀ (s : TL4.State Dev) (e : Event),
      (sysStep W group s e).1.app.runState = s.app.runState ∧
      (sysStep W group s e).1.app.enabled = s.app.enabled := by
    intro s e
    cases e with
    | button => exact ⟨rfl, rfl⟩
    | setProgMode on =>
      unfold sysStep
      dsimp only
      split <;> exact ⟨rfl, rfl⟩
    | tl op =>
      have h1 : (TL4.step (app W group) s op).1.app.runState = s.app.runState ∧
          (TL4.step (app W group) s op).1.app.enabled = s.app.enabled := by
        rcases step_app (app W group) s op with h | ⟨t, len, hop, h⟩
        · rw [h]; exact ⟨rfl, rfl⟩
        · rcases h with ⟨_, h⟩ | ⟨_, _, h⟩ | ⟨_, _, _, sb, h⟩
          · rw [h]; exact hbc s.app t
          · rw [h]; exact hg _ _ _
          · rw [h]
            have := (processApci_core (W := W) s.app t len sb).1
            exact ⟨this.runState, this.enabled⟩
      cases op with
      | setOwnAddress a =>
        have := hset (TL4.step (app W group) s (.setOwnAddress a)).1.app a
        exact ⟨this.1.trans h1.1, this.2.trans h1.2⟩
      | _ => exact h1
  induction es with
  | nil => intro s; exact ⟨rfl, rfl⟩
  | cons e es ih =>
    intro s
    have := ih (sysStep W group s e).1
    exact ⟨this.1.trans (hstep s e).1, this.2.trans (hstep s e).2⟩

/-- One step makes an object "loaded" only by a telegram as in `MakesLoaded`, or by setting the
individual address where the address table lies over the load state. -/
theorem C25_step (group : Dev → Buf → Nat → Dev × Option (Buf → Buf))
    (hg : ∀ d t l o, loadState (group d t l).1 o = loadState d o) (s : TL4.State Dev) (e : Event)
    (obj : Nat) (ho : obj < 8) (h0 : loadState s.app obj ≠ 1#8)
    (h1 : loadState (sysStep W group s e).1.app obj = 1#8) :
    (∃ t len, e = .tl (.rx t len) ∧ destinationAddress t = s.ownAddr ∧ MakesLoaded W t len obj) ∨
    TableOverState W s.app obj := by
  apply Classical.byContradiction
  intro hno
  have hno1 : ∀ t len, e = .tl (.rx t len) → destinationAddress t = s.ownAddr →
      ¬ MakesLoaded W t len obj := fun t len he hd hm => hno (Or.inl ⟨t, len, he, hd, hm⟩)
  have hno2 : ¬ TableOverState W s.app obj := fun h => hno (Or.inr h)
  cases e with
  | button => exact h0 h1
  | setProgMode on =>
    apply h0
    rw [← h1]
    unfold sysStep
    dsimp only
    split <;> rfl
  | tl op =>
    have hstep : loadState (TL4.step (app W group) s op).1.app obj = loadState s.app obj := by
      rcases step_app (app W group) s op with h | ⟨t, len, hop, h⟩
      · rw [h]
      · rcases h with ⟨_, h⟩ | ⟨_, _, h⟩ | ⟨hd, _, _, sb, h⟩
        · rw [h]; exact broadcast_states s.app t obj hno2
        · rw [h]; exact hg _ _ _ _
        · apply Classical.byContradiction
          intro hne
          subst hop
          have h1' : loadState (TL4.step (app W group) s (.rx t len)).1.app obj = 1#8 := h1
          rw [h] at h1'
          exact hno1 t len rfl hd (processApci_loaded s.app t len sb obj ho h0 h1')
    cases op with
    | setOwnAddress a =>
      have h1' : loadState (setOwnAddress W (TL4.step (app W group) s (.setOwnAddress a)).1.app a) obj = 1#8 := h1
      have happ : (TL4.step (app W group) s (.setOwnAddress a)).1.app = s.app := rfl
      rw [happ] at h1'
      exact h0 ((setOwn_states s.app a obj hno2).symm.trans h1')
    | _ => exact h0 (hstep.symm.trans h1)

/-- Along every history: if the object was not loaded at the beginning and the application runs at the
end, then in between a telegram came that made the object loaded. -/
theorem C25_history (hk : W.kind ≠ .bcu1) (group : Dev → Buf → Nat → Dev × Option (Buf → Buf))
    (hg : ∀ d t l o, loadState (group d t l).1 o = loadState d o) (obj : Nat) (ho : 1 ≤ obj ∧ obj ≤ 3)
    (es : List Event) : ∀ s : TL4.State Dev, loadState s.app obj ≠ 1#8 →
    applicationRunning W.kind (sysRun W group s es).1.app = true →
    ∃ before e after, es = before ++ e :: after ∧
      ((∃ t len, e = .tl (.rx t len) ∧ destinationAddress t = (sysRun W group s before).1.ownAddr ∧
          MakesLoaded W t len obj) ∨
        TableOverState W (sysRun W group s before).1.app obj) := by
  induction es with
  | nil =>
    intro s h0 hr
    have := (running_iff hk _).1 hr
    have hob : obj = 1 ∨ obj = 2 ∨ obj = 3 := by omega
    rcases hob with rfl | rfl | rfl
    · exact absurd this.2.2.1 h0
    · exact absurd this.2.2.2.1 h0
    · exact absurd this.2.2.2.2 h0
  | cons e es ih =>
    intro s h0 hr
    by_cases h1 : loadState (sysStep W group s e).1.app obj = 1#8
    · exact ⟨[], e, es, rfl, C25_step group hg s e obj (by omega) h0 h1⟩
    · obtain ⟨b, e', a, he, h⟩ := ih (sysStep W group s e).1 h1 hr
      exact ⟨e :: b, e', a, by rw [he]; rfl, h⟩

/-- When the last of the three objects is reported as completely loaded, the application runs. -/
theorem C25_starts {t : Buf} {l obj : Nat} {rec : Nat → Byte} {n : Int}
    (hr : LoadRequest W t l obj rec n) (hn : n = 10 ∨ n = 11) (he : (rec 0).toNat % 8 = 2)
    (d : Dev) (sb : Buf) (hen : d.enabled = true) (hrun : d.runState = 1#8)
    (ho : ∀ o, 1 ≤ o → o ≤ 3 → o ≠ obj → loadState d o = 1#8) :
    applicationRunning W.kind (processApci W d t l sb).1 = true := by
  have hk : W.kind ≠ .bcu1 := by
    cases hr with
    | property hk _ _ _ _ => exact hk
    | memory hk _ _ _ _ => exact hk.1
  have hc := (processApci_core (W := W) d t l sb).1
  have hf : ¬ Fills W rec n := fun h => by have := h.2.1; omega
  have key : ∀ o, 1 ≤ o → o ≤ 3 → loadState (processApci W d t l sb).1 o = 1#8 := by
    intro o h1 h3
    by_cases h : o = obj
    · subst h
      exact C24_prescribed_unique (C24_new_state hr d sb) (.loadCompleted hn he)
    · rw [C24_others_partial hr hf d sb o (by omega) h]
      exact ho o h1 h3 h
  rw [running_iff hk]
  exact ⟨hc.enabled.trans hen, hc.runState.trans hrun, key 1 (by decide) (by decide),
    key 2 (by decide) (by decide), key 3 (by decide) (by decide)⟩

/-- Any other load event for one of the three objects stops the application. -/
theorem C25_stops {t : Buf} {l obj : Nat} {rec : Nat → Byte} {n : Int}
    (hr : LoadRequest W t l obj rec n) (ho : 1 ≤ obj ∧ obj ≤ 3)
    (he : ¬ ((n = 10 ∨ n = 11) ∧ (rec 0).toNat % 8 = 2)) (d : Dev) (sb : Buf) :
    applicationRunning W.kind (processApci W d t l sb).1 = false := by
  have hk : W.kind ≠ .bcu1 := by
    cases hr with
    | property hk _ _ _ _ => exact hk
    | memory hk _ _ _ _ => exact hk.1
  cases hrun : applicationRunning W.kind (processApci W d t l sb).1 with
  | false => rfl
  | true =>
    exfalso
    have h := (running_iff hk _).1 hrun
    have hl : loadState (processApci W d t l sb).1 obj = 1#8 := by
      have hob : obj = 1 ∨ obj = 2 ∨ obj = 3 := by omega
      rcases hob with rfl | rfl | rfl
      · exact h.2.2.1
      · exact h.2.2.2.1
      · exact h.2.2.2.2
    have hp := C24_new_state hr d sb
    rw [hl] at hp
    cases hp with
    | loadCompleted hn h2 => exact he ⟨hn, h2⟩

/-! ## The hypotheses are met -/

/-- A BCU2 with address table and association table loaded, application loading. -/
def exAlmost : Dev := { exDev with ee := fun i => if i = 0x371 ∨ i = 0x372 then 1#8 else if i = 0x373 then 2#8
  else 0#8 }

/-- "load completed" for the application -/
def exComplete : Buf := exTel [0x03#8, 0xd7#8, 3#8, 5#8, 0x10#8, 1#8, 2#8]

example : applicationRunning .bcu2 exAlmost = false := by decide
example (sb : Buf) : applicationRunning .bcu2 (processApci exWorld exAlmost exComplete 23 sb).1 = true :=
  C25_starts (W := exWorld) (obj := 3)
    (.property (by decide) (by decide) (by decide) (by decide) (by decide)) (Or.inl rfl) (by decide) exAlmost sb rfl
    rfl (by intro o h1 h2 h3; have : o = 1 ∨ o = 2 := by omega
            rcases this with rfl | rfl <;> rfl)
example (sb : Buf) : applicationRunning .bcu2 (processApci exWorld exAlmost exStart 23 sb).1 = false :=
  C25_stops (W := exWorld) exStart_req (by decide) (by decide) exAlmost sb

/-- A history in which the application starts to run: the telegram comes without a connection. -/
example : applicationRunning exWorld.kind (sysRun exWorld exGroup (exTl { exAlmost with ownAddr := 0x1101#16 })
    [.tl (.rx (upd (upd exComplete 3 0x11#8) 4 0x01#8) 23)]).1.app = true := by
  decide +kernel

example : loadState exAlmost 3 ≠ 1#8 := by decide

end Verif.Dev
