import Verif.Dev.Props67

/-!
# C68 — what is configured is kept

The user EEPROM is an array in RAM; it is written to flash by the loop and before a reset. In every
history the flash holds the EEPROM's contents whenever nothing is marked as modified, and the loop saves
what is marked as soon as no connection is open and nothing is being sent.
-/

namespace Verif.Dev

open Verif.Knx

/-! ## Vocabulary -/

/-- A load control by property (A_PropertyValue_Write to the property 5 of an interface object). -/
def PropertyLoad (W : World) (t : Buf) : Prop := W.kind ≠ .bcu1 ∧ apciCommand t = 0x3d7#16 ∧ t 9 = 5#8

/-- No telegram of these events is a load control by property. -/
def NoPropertyLoad (W : World) (es : List MainEv) : Prop :=
  ∀ e ∈ es, ∀ i t len, e = .loop i → i.rx = some (t, len) → ¬ PropertyLoad W t

/-- A power failure now would lose nothing, except perhaps the bytes of `X` (the bytes which the program writes
itself when it starts, see C69). -/
def Saved (X : Nat → Prop) (m : Main) : Prop := ∀ i, ¬ X i → m.flash i = m.tl.app.ee i

/-- A handler of group telegrams that marks the EEPROM as modified if it changes it. -/
def GroupMarks (group : Dev → Buf → Nat → Dev × Option (Buf → Buf)) : Prop :=
  ∀ d t l, (group d t l).1.eeModified = true ∨
    ((group d t l).1.ee = d.ee ∧ (group d t l).1.eeModified = d.eeModified)

/-! ## Every change of the EEPROM is marked -/

/-- `d'` differs from `d` in the EEPROM only if this is marked. -/
def Marks (d d' : Dev) : Prop := d'.eeModified = true ∨ (d'.ee = d.ee ∧ d'.eeModified = d.eeModified)

theorem Marks.refl (d : Dev) : Marks d d := Or.inr ⟨rfl, rfl⟩

theorem Marks.trans {a b c : Dev} (h1 : Marks a b) (h2 : Marks b c) : Marks a c := by
  rcases h2 with h2 | ⟨h2, h3⟩
  · exact Or.inl h2
  · rcases h1 with h1 | ⟨h1, h4⟩
    · exact Or.inl (h3.trans h1)
    · exact Or.inr ⟨h2.trans h1, h3.trans h4⟩

section
variable {W : World}

theorem mapOp_marks (rd : Bool) (s : MemMap.St) (p : Pos) (n : Nat) : Marks p.d (mapOp W rd s p n).1.d := by
  unfold mapOp
  split <;> exact Or.inr ⟨rfl, rfl⟩

theorem mapBytes_marks (rd : Bool) (n : Nat) : ∀ p : Pos, Marks p.d (mapBytes W rd n p).d := by
  induction n with
  | zero => intro p; exact Marks.refl _
  | succ n ih =>
    intro p
    unfold mapBytes
    split
    · exact Marks.refl _
    · split
      · dsimp only
        split
        · exact (mapOp_marks rd _ p 1).trans (ih _)
        · exact mapOp_marks rd _ p 1
      · exact Marks.refl _

theorem viaMapper_marks (rd : Bool) (fin : Nat) (p : Pos) : Marks p.d (viaMapper W rd fin p).1.d := by
  unfold viaMapper
  split
  · exact Marks.refl _
  · split
    · exact mapOp_marks rd _ p _
    · split
      · exact mapBytes_marks rd _ p
      · exact Marks.refl _

theorem eeCopy_marks (rd : Bool) (p : Pos) (n : Nat) : Marks p.d (eeCopy W rd p n).d := by
  unfold eeCopy
  dsimp only
  split
  · exact Marks.refl _
  · exact Or.inl rfl

theorem viaEeprom_marks (rd : Bool) (fin : Nat) (p : Pos) : Marks p.d (viaEeprom W rd fin p).1.d := by
  unfold viaEeprom
  split
  · exact eeCopy_marks rd p _
  · split
    · exact eeCopy_marks rd p _
    · exact Marks.refl _

theorem ramStore_marks (src : Nat → Byte) (n a o : Nat) (d : Dev) : Marks d (ramStore src n a o d) :=
  Or.inr ⟨(ramStore_wrote src n a o d).ee, (ramStore_wrote src n a o d).eeModified⟩

theorem ramCopy_marks (rd : Bool) (p : Pos) (n : Nat) : Marks p.d (ramCopy W rd p n).d := by
  unfold ramCopy
  split
  · exact Marks.refl _
  · unfold cpyToUserRam
    dsimp only
    repeat' split
    all_goals first | exact Or.inr ⟨rfl, rfl⟩ | exact ramStore_marks _ _ _ _ _

theorem viaRam_marks (rd : Bool) (fin : Nat) (p : Pos) : Marks p.d (viaRam W rd fin p).1.d := by
  unfold viaRam
  split
  · exact ramCopy_marks rd p _
  · split
    · exact ramCopy_marks rd p _
    · exact Marks.refl _

theorem memIter_marks (rd : Bool) (fin : Nat) (p : Pos) : Marks p.d (memIter W rd fin p).1.d := by
  have h1 := viaMapper_marks (W := W) rd fin { p with found := false }
  unfold memIter
  dsimp only
  split
  · exact h1
  · have h2 := h1.trans (viaEeprom_marks (W := W) rd fin _)
    split
    · exact h2
    · exact h2.trans (viaRam_marks rd fin _)

theorem memLoop_marks (rd : Bool) (fin n : Nat) : ∀ p : Pos, Marks p.d (memLoop W rd fin n p).1.d := by
  induction n with
  | zero => intro p; exact Marks.refl _
  | succ n ih =>
    intro p
    unfold memLoop
    split
    · dsimp only
      split
      · exact memIter_marks rd fin p
      · exact (memIter_marks rd fin p).trans (ih _)
    · exact Marks.refl _

theorem memOp_marks (rd : Bool) (d : Dev) (start : Nat) (buf : Nat → Byte) (off len : Nat) :
    Marks d (memOp W rd d start buf off len).1 := by
  unfold memOp
  split
  · exact Marks.refl _
  · exact memLoop_marks rd _ _ ⟨d, buf, start, off, true⟩

theorem memReadPDU_marks (d : Dev) (a : Nat) (sb : Buf) (n : Nat) : Marks d (memReadPDU W d a sb n).1 := by
  unfold memReadPDU
  split
  · exact Marks.refl _
  · exact memOp_marks true d _ _ _ _

theorem memResponse_marks (d : Dev) (a : Word) (n : Nat) (sb : Buf) : Marks d (memResponse W d a n sb).1 := by
  have h := memReadPDU_marks (W := W) d a.toNat sb n
  unfold memResponse
  dsimp only
  split
  · exact h
  · exact h

theorem memWritePDU_marks (d : Dev) (a : Nat) (t : Buf) (n : Nat) : Marks d (memWritePDU W d a t n).1 := by
  unfold memWritePDU
  split
  · dsimp only
    split
    · exact Or.inl rfl
    · exact Marks.refl _
  · exact memOp_marks false d _ _ _ _

theorem defaultApci_marks (d : Dev) (cmd : Word) (t sb : Buf) : Marks d (defaultApci W d cmd t sb).1 := by
  unfold defaultApci
  split
  · exact Marks.refl _
  split
  · unfold memService
    dsimp only
    split
    · have h := memWritePDU_marks (W := W) d (makeWord (t 8) (t 9)).toNat t ((t 7).toNat % 16)
      split
      · exact h.trans (memResponse_marks _ _ _ _)
      · exact h
    · exact memResponse_marks _ _ _ _
  split
  · split <;> exact Marks.refl _
  split
  · unfold masterReset
    dsimp only
    split <;> (split <;> exact Or.inr ⟨rfl, rfl⟩)
  split
  · exact Marks.refl _
  split
  · exact Or.inr ⟨rfl, rfl⟩
  · exact Marks.refl _

theorem type_zero (obj pid : Nat) (p : PropDef) (h : propertyDef obj pid = some p) (ht : p.type = 0) : pid = 5 := by
  have hall : ∀ o, o < 6 → ∀ p ∈ propTab o, p.type = 0 → p.id = 5 := by decide
  unfold propertyDef at h
  have hm := List.mem_of_find?_eq_some h
  have hid : p.id = pid := by simpa using List.find?_some h
  by_cases ho : obj < 6
  · rw [← hid]; exact hall obj ho p hm ht
  · have : propTab obj = [] := by
      match obj, ho with
      | n + 6, _ => rfl
    rw [this] at hm
    cases hm

theorem processApci_marks (d : Dev) (t : Buf) (l : Nat) (sb : Buf) (hp : ¬ PropertyLoad W t) :
    Marks d (processApci W d t l sb).1 := by
  unfold processApci
  split
  · exact defaultApci_marks d _ t sb
  rename_i hk
  unfold bcu2Apci
  split
  · dsimp only
    by_cases hc : apciCommand t = 0x3d5#16
    · rw [if_pos hc]
      unfold propRead
      dsimp only
      repeat' split
      all_goals exact Or.inr ⟨rfl, rfl⟩
    · rw [if_neg hc]
      rename_i hcmd
      have hcmd := hcmd.resolve_left hc
      unfold propWrite
      split
      · exact Marks.refl _
      · rename_i p hpd
        split
        · exact Marks.refl _
        split
        · rename_i hty
          exfalso
          have h5 := type_zero _ _ p hpd hty
          exact hp ⟨hk, hcmd, BitVec.eq_of_toNat_eq h5⟩
        · dsimp only
          split
          · generalize hs : (if W.kind = .systemb ∧ (t 9).toNat = 27 then blit else revBlit) = cp
            split
            · exact Or.inl rfl
            · rename_i hee
              have : p.area ≠ .ee := by
                unfold PropDef.area
                rw [if_neg hee]
                split <;> decide
              unfold setArea
              split
              · exact Or.inr ⟨rfl, rfl⟩
              · rename_i h; exact absurd h this
              · exact Or.inr ⟨rfl, rfl⟩
          · exact Or.inr ⟨rfl, rfl⟩
  split
  · dsimp only
    unfold propDesc
    dsimp only
    repeat' split
    all_goals exact Or.inr ⟨rfl, rfl⟩
  · exact defaultApci_marks d _ t sb

theorem setOwn_marks (d : Dev) (a : Word) : Marks d (setOwnAddress W d a) := by
  have h : Marks d (setOwnAddressDefault d a) := by
    unfold setOwnAddressDefault
    dsimp only
    split
    · exact Or.inl rfl
    · exact Or.inr ⟨rfl, rfl⟩
  unfold setOwnAddress
  dsimp only
  split
  · split
    · exact Or.inl rfl
    · split
      · split <;> exact Or.inl rfl
      · exact Or.inl rfl
  · exact h

theorem broadcast_marks (d : Dev) (t : Buf) : Marks d (broadcast W d t).1 := by
  have h : ∀ cmd, Marks d (defaultBroadcast W d cmd t).1 := by
    intro cmd
    unfold defaultBroadcast
    repeat' split
    all_goals first | exact Marks.refl _ | exact setOwn_marks d _
  unfold broadcast
  dsimp only
  repeat' split
  all_goals first | exact h _ | exact Marks.refl _ | exact setOwn_marks d _

end

section
variable (W : World) (group : Dev → Buf → Nat → Dev × Option (Buf → Buf)) (X : Nat → Prop)

theorem tlOp_marks (hg : GroupMarks group) (m : Main) (op : TL4.Op)
    (hok : ∀ t len, op = .rx t len → ¬ PropertyLoad W t) :
    Marks m.tl.app (tlOp W group m op).1.tl.app ∧ (tlOp W group m op).1.flash = m.flash := by
  generalize hs0 : ({ m.tl with app := { m.tl.app with restart := .none } } : TL4.State Dev) = s0
  have h0 : Marks m.tl.app s0.app := by rw [← hs0]; exact Or.inr ⟨rfl, rfl⟩
  have h1 : Marks s0.app (TL4.step (app W group) s0 op).1.app := by
    rcases step_app (app W group) s0 op with h | ⟨t, len, rfl, h⟩
    · rw [h]; exact Marks.refl _
    · rcases h with ⟨-, h⟩ | ⟨-, -, h⟩ | ⟨-, -, -, sb, h⟩
      · rw [h]; exact broadcast_marks _ _
      · rw [h]; exact hg _ _ _
      · rw [h]; exact processApci_marks _ _ _ _ (hok t len rfl)
  have h2 : Marks s0.app (sysStep W group s0 (.tl op)).1.app := by
    unfold sysStep
    dsimp only
    split
    · exact h1.trans (setOwn_marks _ _)
    · exact h1
  have h3 := h0.trans h2
  unfold tlOp
  rw [hs0]
  dsimp only
  split <;> exact ⟨h3, rfl⟩

/-- Flash and EEPROM agree unless a change is marked. -/
def Synced (m : Main) : Prop := m.tl.app.eeModified = true ∨ Saved X m

theorem Synced.marks {m m' : Main} (h : Synced X m) (hm : Marks m.tl.app m'.tl.app) (hf : m'.flash = m.flash) :
    Synced X m' := by
  rcases hm with hm | ⟨h1, h2⟩
  · exact Or.inl hm
  · rcases h with h | h
    · exact Or.inl (h2.trans h)
    · exact Or.inr (fun i hi => by rw [hf, h1]; exact h i hi)

theorem mainStep_synced (hg : GroupMarks group) (m : Main) (e : MainEv)
    (he : ∀ i t len, e = .loop i → i.rx = some (t, len) → ¬ PropertyLoad W t) (h : Synced X m) :
    Synced X (mainStep W group m e).1 := by
  refine mainStep_keeps W group (Synced X) (fun t => ¬ PropertyLoad W t) ?_ ?_ ?_ ?_ ?_ m e he h
  · intro m op hop h
    have := tlOp_marks W group hg m op hop
    exact h.marks X this.1 this.2
  · intro m pin h
    refine h.marks X ?_ rfl
    unfold pollButton
    dsimp only
    split <;> exact Or.inr ⟨rfl, rfl⟩
  · intro m h
    unfold flush
    dsimp only
    split
    · exact Or.inr fun _ _ => rfl
    · rename_i hm
      exact Or.inr (h.resolve_left hm)
  · intro m on h
    refine h.marks X ?_ rfl
    unfold sysStep
    dsimp only
    split <;> exact Or.inr ⟨rfl, rfl⟩
  · intro m _ _ _ _ h; exact h

/-! ## The claims -/

/-- **C68 (part).** In every history without load control by property: if nothing is marked as modified, the
flash holds exactly the contents of the EEPROM (except in `X`, if it did not there from the beginning). -/
theorem C68_saved_unless_marked_partial (hg : GroupMarks group) (m : Main) (hm : Saved X m) (es : List MainEv)
    (hes : NoPropertyLoad W es) (hn : (mainRun W group m es).1.tl.app.eeModified = false) :
    Saved X (mainRun W group m es).1 := by
  have h := mainRun_keeps W group (Synced X) (fun e => ∀ i t len, e = .loop i → i.rx = some (t, len) → ¬ PropertyLoad W t)
    (mainStep_synced W group X hg) es hes m (Or.inr hm)
  rcases h with h | h
  · rw [hn] at h; cases h
  · exact h

/-- The end of the loop: perhaps a group telegram, then the saving. -/
theorem loopTail_eq (i : In) (m : Main) (h : (m.off.isSome || sendingFrame m i.ack3) = false) :
    ∃ r : MRes, (r = (m, []) ∨ ∃ f, r = tlOp W group m (.userSend f)) ∧
      (loopTail W group i m).1 =
        (if r.1.tl.app.eeModified && decide (r.1.tl.phase = .closed) then flush W r.1 else (r.1, [])).1 := by
  unfold loopTail
  rw [if_neg (by simp [h])]
  cases i.grp with
  | none => exact ⟨_, Or.inl rfl, rfl⟩
  | some f =>
    dsimp only
    split
    · exact ⟨_, Or.inr ⟨f, rfl⟩, rfl⟩
    · exact ⟨_, Or.inl rfl, rfl⟩

/-- What the loop does last. -/
theorem loop_saves (m : Main) (i : In) (ha : Alive m)
    (hfree : sendingFrame (atSend W group m i) i.ack3 = false) (hoff : (atSend W group m i).off = none)
    (hclosed : (mainStep W group m (.loop i)).1.tl.phase = .closed) :
    (mainStep W group m (.loop i)).1.tl.app.eeModified = false := by
  rw [mainStep_loop W group m i ha] at hclosed ⊢
  have e : ((((loopHead W group i m).then (pollRestart W group i.ack2)).then (irq W group i.irq4)).then
      (loopTail W group i)).1 = (loopTail W group i (atSend W group m i)).1 := rfl
  rw [e] at hclosed ⊢
  generalize atSend W group m i = p at *
  obtain ⟨r, -, e2⟩ := loopTail_eq W group i p (by simp [hoff, hfree])
  rw [e2] at hclosed ⊢
  split
  · unfold flush
    dsimp only
    split
    · rfl
    · rename_i h; simpa using h
  · rename_i hc
    rw [if_neg hc] at hclosed
    cases hx : r.1.tl.app.eeModified with
    | false => rfl
    | true =>
      exfalso
      apply hc
      have hclosed : r.1.tl.phase = .closed := hclosed
      simp [hx, hclosed]

/-- **C68 (part).** After a loop that ends without an open connection and found nothing being sent, everything is
saved: a power failure from now on to the next event loses nothing. -/
theorem C68_loop_saves_partial (hg : GroupMarks group) (m : Main) (hm : Saved X m) (es : List MainEv) (i : In)
    (hes : NoPropertyLoad W (es ++ [.loop i])) (ha : Alive (mainRun W group m es).1)
    (hfree : sendingFrame (atSend W group (mainRun W group m es).1 i) i.ack3 = false)
    (hoff : (atSend W group (mainRun W group m es).1 i).off = none)
    (hclosed : (mainRun W group m (es ++ [.loop i])).1.tl.phase = .closed) :
    Saved X (mainRun W group m (es ++ [.loop i])).1 := by
  have er : ∀ (es : List MainEv) (m : Main), (mainRun W group m (es ++ [.loop i])).1 =
      (mainStep W group (mainRun W group m es).1 (.loop i)).1 := by
    intro es
    induction es with
    | nil => intro m; rfl
    | cons e es ih => intro m; exact ih _
  refine C68_saved_unless_marked_partial W group X hg m hm _ hes ?_
  rw [er] at hclosed ⊢
  exact loop_saves W group _ i ha hfree hoff hclosed

theorem tlOp_off (m : Main) (op : TL4.Op) : (tlOp W group m op).1.off = m.off := by
  unfold tlOp
  dsimp only
  split <;> rfl

theorem irq_off (m : Main) (x : Option Bool) : (irq W group x m).1.off = m.off := by
  unfold irq
  split
  · rfl
  · exact tlOp_off W group m _

theorem irq_modified (m : Main) (x : Option Bool) :
    (irq W group x m).1.tl.app.eeModified = m.tl.app.eeModified := by
  unfold irq
  split
  · rfl
  · rename_i ok
    have h := step_app (app W group) { m.tl with app := { m.tl.app with restart := .none } } (.txDone ok)
    have h : (TL4.step (app W group) { m.tl with app := { m.tl.app with restart := .none } } (.txDone ok)).1.app
        = { m.tl.app with restart := .none } := by
      rcases h with h | ⟨t, len, h, -⟩
      · exact h
      · cases h
    unfold tlOp
    dsimp only
    split <;> (show (TL4.step (app W group) _ _).1.app.eeModified = _; rw [h])

theorem flush_off (m : Main) : (flush W m).1.off = m.off := by
  unfold flush
  dsimp only
  split <;> rfl

theorem flush_modified (m : Main) : (flush W m).1.tl.app.eeModified = false := by
  unfold flush
  dsimp only
  split
  · rfl
  · rename_i h; simpa using h

theorem loopHead_off (m : Main) (i : In) : (loopHead W group i m).1.off = m.off := by
  show (irq W group i.irq3 (pollButton i.pin (receive W group i.rx i.ack1 (irq W group i.irq2
    (tlOp W group (irq W group i.irq1 m).1 .loop).1).1).1).1).1.off = m.off
  rw [irq_off]
  show (receive W group i.rx i.ack1 _).1.off = m.off
  have : ∀ m', (receive W group i.rx i.ack1 m').1.off = m'.off := by
    intro m'
    unfold receive
    split
    · rfl
    · split
      · exact tlOp_off W group _ _
      · rfl
  rw [this, irq_off, tlOp_off, irq_off]

theorem step_off_clean (m : Main) (e : MainEv) (h0 : m.off = none) (h : (mainStep W group m e).1.off ≠ none) :
    (mainStep W group m e).1.tl.app.eeModified = false := by
  by_cases he : ∃ i, e = .loop i
  · obtain ⟨i, rfl⟩ := he
    by_cases hen : m.tl.enabled = true
    · rw [mainStep_loop W group m i ⟨h0, hen⟩] at h ⊢
      generalize hh : (loopHead W group i m).1 = m1
      have h1 : m1.off = none := by rw [← hh, loopHead_off, h0]
      have e : ((((loopHead W group i m).then (pollRestart W group i.ack2)).then (irq W group i.irq4)).then
          (loopTail W group i)).1 = (loopTail W group i (irq W group i.irq4 (pollRestart W group i.ack2 m1).1).1).1 := by
        rw [← hh]; rfl
      rw [e] at h ⊢
      have h2 : (pollRestart W group i.ack2 m1).1.off = none ∨
          (pollRestart W group i.ack2 m1).1.tl.app.eeModified = false := by
        unfold pollRestart
        split
        · exact Or.inl h1
        split
        · exact Or.inl h1
        split
        · exact Or.inl ((tlOp_off W group m1 _).trans h1)
        · dsimp only
          split
          · exact Or.inr (flush_modified W _)
          · exact Or.inl h1
      generalize (pollRestart W group i.ack2 m1).1 = m2 at *
      have h3 : (irq W group i.irq4 m2).1.off = none ∨ (irq W group i.irq4 m2).1.tl.app.eeModified = false := by
        rw [irq_off, irq_modified]; exact h2
      generalize (irq W group i.irq4 m2).1 = m3 at *
      by_cases hc : m3.off.isSome || sendingFrame m3 i.ack3
      · have e3 : (loopTail W group i m3).1 = m3 := by unfold loopTail; rw [if_pos hc]
        rw [e3] at h ⊢
        exact h3.resolve_left h
      · have hn : m3.off = none := by
          cases ho : m3.off with
          | none => rfl
          | some b => simp [ho] at hc
        obtain ⟨r, hr, e3⟩ := loopTail_eq W group i m3 (by simpa using hc)
        rw [e3] at h
        exfalso
        apply h
        have hro : r.1.off = none := by
          rcases hr with rfl | ⟨f, rfl⟩
          · exact hn
          · exact (tlOp_off W group _ _).trans hn
        split
        · exact (flush_off W _).trans hro
        · exact hro
    · exfalso
      apply h
      unfold mainStep
      rw [if_neg (by simp [h0])]
      show (mainLoop W group i m).1.off = none
      unfold mainLoop
      rw [if_pos (by simp [hen])]
      exact h0
  · exfalso
    apply h
    unfold mainStep
    rw [if_neg (by simp [h0])]
    split
    · rename_i i; exact absurd ⟨i, rfl⟩ he
    all_goals first | exact (tlOp_off W group _ _).trans h0 | exact h0

/-- After a reset nothing is marked as modified. -/
theorem run_off_clean (es : List MainEv) : ∀ (m : Main), m.off = none → (mainRun W group m es).1.off ≠ none →
    (mainRun W group m es).1.tl.app.eeModified = false := by
  induction es with
  | nil => intro m h0 h; exact absurd h0 h
  | cons e es ih =>
    intro m h0 h
    show (mainRun W group (mainStep W group m e).1 es).1.tl.app.eeModified = false
    have h : (mainRun W group (mainStep W group m e).1 es).1.off ≠ none := h
    cases ho : (mainStep W group m e).1.off with
    | none => exact ih _ ho h
    | some b =>
      rw [run_off W group _ es (by simp [ho])]
      exact step_off_clean W group m e h0 (by rw [ho]; simp)

/-- **C68 (part).** A device that resets itself has saved everything before. -/
theorem C68_reset_saves_partial (hg : GroupMarks group) (m : Main) (hm : Saved X m) (es : List MainEv)
    (hes : NoPropertyLoad W es) (h0 : m.off = none) (hoff : (mainRun W group m es).1.off ≠ none) :
    Saved X (mainRun W group m es).1 :=
  C68_saved_unless_marked_partial W group X hg m hm es hes (run_off_clean W group es m h0 hoff)

/-- No reset and no open connection: nothing is written to flash in any other situation. -/
theorem tlOp_nosave (m : Main) (op : TL4.Op) (x : Nat → Byte) : MainOut.save x ∉ (tlOp W group m op).2 := by
  intro h
  obtain ⟨o, -, h⟩ := List.mem_map.1 h
  cases h

theorem irq_nosave (m : Main) (y : Option Bool) (x : Nat → Byte) : MainOut.save x ∉ (irq W group y m).2 := by
  unfold irq
  split
  · simp
  · exact tlOp_nosave W group m _ x

theorem then_save {r : MRes} {f : Main → MRes} {x : Nat → Byte} (h : MainOut.save x ∈ (r.then f).2) :
    MainOut.save x ∈ r.2 ∨ MainOut.save x ∈ (f r.1).2 := List.mem_append.1 h

theorem flush_save {m : Main} {x : Nat → Byte} (h : MainOut.save x ∈ (flush W m).2) :
    x = m.tl.app.ee ∧ m.tl.app.eeModified = true := by
  unfold flush at h
  dsimp only at h
  split at h
  · rename_i hm
    have : MainOut.save x = MainOut.save m.tl.app.ee := by simpa using h
    injection this with this
    exact ⟨this, hm⟩
  · simp at h

theorem loopHead_nosave (m : Main) (i : In) (x : Nat → Byte) : MainOut.save x ∉ (loopHead W group i m).2 := by
  intro h
  rcases then_save h with h | h
  · rcases then_save h with h | h
    · rcases then_save h with h | h
      · rcases then_save h with h | h
        · rcases then_save h with h | h
          · exact irq_nosave W group _ _ x h
          · exact tlOp_nosave W group _ _ x h
        · exact irq_nosave W group _ _ x h
      · unfold receive at h
        split at h
        · simp at h
        · split at h
          · exact tlOp_nosave W group _ _ x h
          · simp at h
    · simp [pollButton] at h
  · exact irq_nosave W group _ _ x h

/-- Everything written to flash. -/
def saves : List MainOut → List (Nat → Byte)
  | [] => []
  | .save x :: os => x :: saves os
  | _ :: os => saves os

theorem mem_saves {x : Nat → Byte} {os : List MainOut} : x ∈ saves os ↔ MainOut.save x ∈ os := by
  induction os with
  | nil => simp [saves]
  | cons o os ih => cases o <;> simp [saves, ih]

/-- **C68 (part).** The flash is written only by a loop, only if something is marked as modified, and only at
the end of a loop without an open connection or immediately before a reset. What is written is the EEPROM
contents at that moment. -/
theorem C68_written_only_when (m : Main) (e : MainEv) (x : Nat → Byte)
    (h : x ∈ saves (mainStep W group m e).2) :
    (∃ i, e = .loop i) ∧ Alive m ∧ (mainStep W group m e).1.flash = x ∧
    ((mainStep W group m e).1.tl.phase = .closed ∨ (mainStep W group m e).1.off ≠ none) := by
  rw [mem_saves] at h
  by_cases ho : m.off.isSome = true
  · rw [step_off W group m e ho] at h; simp at h
  by_cases he : ∃ i, e = .loop i
  · obtain ⟨i, rfl⟩ := he
    have hn : m.off = none := by simpa using ho
    by_cases hen : m.tl.enabled = true
    · refine ⟨⟨i, rfl⟩, ⟨hn, hen⟩, ?_⟩
      rw [mainStep_loop W group m i ⟨hn, hen⟩] at h ⊢
      have tlf : ∀ m op, (tlOp W group m op).1.flash = m.flash := by
        intro m op; unfold tlOp; dsimp only; split <;> rfl
      have ifl : ∀ y m, (irq W group y m).1.flash = m.flash := by
        intro y m; unfold irq; split
        · rfl
        · exact tlf _ _
      rcases then_save h with h | h
      · rcases then_save h with h | h
        · rcases then_save h with h | h
          · exact absurd h (loopHead_nosave W group m i x)
          · generalize hp : (loopHead W group i m).1 = p at h
            have key : (pollRestart W group i.ack2 p).1.flash = x ∧
                (pollRestart W group i.ack2 p).1.off ≠ none := by
              unfold pollRestart at h ⊢
              split at h
              · simp at h
              rw [if_neg (by assumption)]
              split at h
              · simp at h
              rw [if_neg (by assumption)]
              split at h
              · rcases then_save h with h | h
                · exact absurd h (tlOp_nosave W group _ _ x)
                · simp at h
              rw [if_neg (by assumption)]
              dsimp only at h ⊢
              split at h
              · rw [if_pos (by assumption)]
                unfold softReset at h ⊢
                dsimp only at h ⊢
                rcases then_save h with h | h
                · obtain ⟨h1, h2⟩ := flush_save W h
                  refine ⟨?_, ?_⟩
                  · show (flush W _).1.flash = x
                    unfold flush
                    dsimp only at h2 ⊢
                    rw [if_pos h2, h1]
                  · show some _ ≠ none
                    simp
                · simp at h
              · simp at h
            have e3 : ((((loopHead W group i m).then (pollRestart W group i.ack2)).then (irq W group i.irq4)).then
                (loopTail W group i)).1 =
                (loopTail W group i (irq W group i.irq4 (pollRestart W group i.ack2 p).1).1).1 := by
              rw [← hp]; rfl
            rw [e3]
            have ho2 : (irq W group i.irq4 (pollRestart W group i.ack2 p).1).1.off ≠ none := by
              rw [irq_off]; exact key.2
            have e4 : (loopTail W group i (irq W group i.irq4 (pollRestart W group i.ack2 p).1).1).1 =
                (irq W group i.irq4 (pollRestart W group i.ack2 p).1).1 := by
              generalize (irq W group i.irq4 (pollRestart W group i.ack2 p).1).1 = q at ho2
              unfold loopTail
              rw [if_pos]
              cases hq : q.off with
              | none => exact absurd hq ho2
              | some b => simp
            rw [e4]
            exact ⟨(ifl _ _).trans key.1, Or.inr ho2⟩
        · exact absurd h (irq_nosave W group _ _ x)
      · have e3 : ((((loopHead W group i m).then (pollRestart W group i.ack2)).then (irq W group i.irq4)).then
            (loopTail W group i)).1 = (loopTail W group i (((loopHead W group i m).then (pollRestart W group i.ack2)).then
              (irq W group i.irq4)).1).1 := rfl
        rw [e3]
        generalize (((loopHead W group i m).then (pollRestart W group i.ack2)).then (irq W group i.irq4)).1 = q at h
        unfold loopTail at h ⊢
        split at h
        · simp at h
        rw [if_neg (by assumption)]
        dsimp only at h ⊢
        have fin : ∀ r : MRes, MainOut.save x ∉ r.2 →
            MainOut.save x ∈ (r.then fun m =>
              if m.tl.app.eeModified && decide (m.tl.phase = .closed) then flush W m else (m, [])).2 →
            (r.then fun m =>
              if m.tl.app.eeModified && decide (m.tl.phase = .closed) then flush W m else (m, [])).1.flash = x ∧
            ((r.then fun m =>
              if m.tl.app.eeModified && decide (m.tl.phase = .closed) then flush W m else (m, [])).1.tl.phase = .closed ∨
            (r.then fun m =>
              if m.tl.app.eeModified && decide (m.tl.phase = .closed) then flush W m else (m, [])).1.off ≠ none) := by
          intro r hr h
          have h := (then_save h).resolve_left hr
          dsimp only [MRes.then] at h ⊢
          split at h
          · rename_i hc
            rw [if_pos hc]
            obtain ⟨h1, h2⟩ := flush_save W h
            have h3 : r.1.tl.phase = .closed := by simpa [h2] using hc
            unfold flush
            dsimp only
            rw [if_pos h2]
            exact ⟨h1.symm, Or.inl h3⟩
          · simp at h
        refine fin _ ?_ h
        split
        · simp
        · split
          · exact tlOp_nosave W group _ _ x
          · simp
    · exfalso
      unfold mainStep at h
      rw [if_neg ho] at h
      have h : MainOut.save x ∈ (mainLoop W group i m).2 := h
      unfold mainLoop at h
      rw [if_pos (by simp [hen])] at h
      simp at h
  · exfalso
    unfold mainStep at h
    rw [if_neg ho] at h
    split at h
    · rename_i i; exact he ⟨i, rfl⟩
    all_goals first
      | exact tlOp_nosave W group _ _ x h
      | (obtain ⟨o, -, h⟩ := List.mem_map.1 h; cases h)

/-! ## What is not saved -/

/-- Nothing arrives and the address is not set. -/
def NothingArrives (es : List MainEv) : Prop :=
  ∀ e ∈ es, (∀ i, e = .loop i → i.rx = none) ∧ ∀ a, e ≠ .setOwnAddress a

structure Still (m m' : Main) : Prop where
  ee : m'.tl.app.ee = m.tl.app.ee
  modified : m'.tl.app.eeModified = m.tl.app.eeModified
  mapper : m'.tl.app.mapper = m.tl.app.mapper
  restart : m'.restart = m.restart
  flash : m'.flash = m.flash

theorem Still.refl (m : Main) : Still m m := ⟨rfl, rfl, rfl, rfl, rfl⟩

theorem Still.trans {a b c : Main} (h : Still a b) (k : Still b c) : Still a c :=
  ⟨k.ee.trans h.ee, k.modified.trans h.modified, k.mapper.trans h.mapper, k.restart.trans h.restart,
    k.flash.trans h.flash⟩

theorem tlOp_still (m : Main) (op : TL4.Op) (h1 : ∀ t len, op ≠ .rx t len) (h2 : ∀ a, op ≠ .setOwnAddress a) :
    Still m (tlOp W group m op).1 := by
  have h : (TL4.step (app W group) { m.tl with app := { m.tl.app with restart := .none } } op).1.app
      = { m.tl.app with restart := .none } := by
    rcases step_app (app W group) { m.tl with app := { m.tl.app with restart := .none } } op with h | ⟨t, len, h, -⟩
    · exact h
    · exact absurd h (h1 t len)
  have h' : (sysStep W group { m.tl with app := { m.tl.app with restart := .none } } (.tl op)).1.app
      = { m.tl.app with restart := .none } := by
    unfold sysStep
    dsimp only
    split
    · rename_i a; exact absurd rfl (h2 a)
    · exact h
  unfold tlOp
  dsimp only
  rw [if_neg (by rw [h']; simp)]
  exact ⟨by rw [h'], by rw [h'], by rw [h'], rfl, rfl⟩

theorem irq_still (m : Main) (x : Option Bool) : Still m (irq W group x m).1 := by
  unfold irq
  split
  · exact Still.refl _
  · exact tlOp_still W group m _ (by simp) (by simp)

theorem mainStep_still (m : Main) (e : MainEv) (hm : m.tl.app.eeModified = false) (hr : m.restart = .none)
    (h1 : ∀ i, e = .loop i → i.rx = none) (h2 : ∀ a, e ≠ .setOwnAddress a) :
    Still m (mainStep W group m e).1 := by
  unfold mainStep
  split
  · exact Still.refl _
  split
  · rename_i i
    have hrx := h1 i rfl
    unfold mainLoop
    split
    · exact Still.refl _
    · have a1 : Still m (loopHead W group i m).1 := by
        show Still m (irq W group i.irq3 (pollButton i.pin (receive W group i.rx i.ack1 (irq W group i.irq2
          (tlOp W group (irq W group i.irq1 m).1 .loop).1).1).1).1).1
        refine ((((irq_still W group m i.irq1).trans (tlOp_still W group _ .loop (by simp) (by simp))).trans
          (irq_still W group _ i.irq2)).trans ?_).trans (irq_still W group _ i.irq3)
        rw [hrx]
        generalize (irq W group i.irq2 (tlOp W group (irq W group i.irq1 m).1 .loop).1).1 = q
        show Still q (pollButton i.pin q).1
        unfold pollButton
        dsimp only
        split <;> exact ⟨rfl, rfl, rfl, rfl, rfl⟩
      show Still m (loopTail W group i (irq W group i.irq4 (pollRestart W group i.ack2 (loopHead W group i m).1).1).1).1
      have a2 : (pollRestart W group i.ack2 (loopHead W group i m).1).1 = (loopHead W group i m).1 := by
        unfold pollRestart
        split
        · rfl
        · rw [if_pos (a1.restart.trans hr)]
      rw [a2]
      have a3 := a1.trans (irq_still W group _ i.irq4)
      generalize (irq W group i.irq4 (loopHead W group i m).1).1 = q at a3
      by_cases hc : m.off.isSome
      · contradiction
      by_cases hq : (q.off.isSome || sendingFrame q i.ack3) = true
      · have : (loopTail W group i q).1 = q := by unfold loopTail; rw [if_pos hq]
        rw [this]; exact a3
      · obtain ⟨r, hr2, e3⟩ := loopTail_eq W group i q (by simpa using hq)
        rw [e3]
        have a4 : Still m r.1 := by
          rcases hr2 with rfl | ⟨f, rfl⟩
          · exact a3
          · exact a3.trans (tlOp_still W group q _ (by simp) (by simp))
        rw [if_neg (by rw [a4.modified, hm]; simp)]
        exact a4
  · exact tlOp_still W group m _ (by simp) (by simp)
  · exact tlOp_still W group m _ (by simp) (by simp)
  · exact tlOp_still W group m _ (by simp) (by simp)
  · rename_i a; exact absurd rfl (h2 a)
  · unfold sysStep
    dsimp only
    split <;> exact ⟨rfl, rfl, rfl, rfl, rfl⟩

/-- **C68 (finding).** What is not marked is never saved: if no telegram arrives, neither the EEPROM nor its
image in flash nor the pages of the virtual memory change any more, in any history. -/
theorem C68_unmarked_never_saved (m : Main) (hm : m.tl.app.eeModified = false) (hr : m.restart = .none)
    (es : List MainEv) (hes : NothingArrives es) :
    (mainRun W group m es).1.tl.app.ee = m.tl.app.ee ∧ (mainRun W group m es).1.flash = m.flash ∧
    (mainRun W group m es).1.tl.app.mapper = m.tl.app.mapper := by
  have h := mainRun_keeps W group (fun m' => Still m m')
    (fun e => (∀ i, e = .loop i → i.rx = none) ∧ ∀ a, e ≠ .setOwnAddress a)
    (fun m' e he h => h.trans (mainStep_still W group m' e (h.modified.trans hm) (h.restart.trans hr) he.1 he.2))
    es hes m (Still.refl m)
  exact ⟨h.ee, h.flash, h.mapper⟩

end

/-- A saved device with own address 1.1.5 and virtual memory. -/
def ex68 : Main := Main.begin (TL4.init 0x1105#16 0 { exMapped with ownAddr := 0x1105#16 }) ⟨0#32, 0, 1⟩ exDev.ee true

/-- A loop that finds this telegram; the end of the transmission of the answer; a loop; the end of the
transmission of the response, if there is one. -/
def exDo (l : List Byte) : List MainEv := [.loop { rx := some (exFrom l, 8 + l.length - 1), pin := 1, grp := none },
  .txDone true, .loop exLoop, .txDone true]

/-- T_CONNECT, this service, T_DISCONNECT. -/
def exSession (l : List Byte) : List MainEv := exDo [0x80#8] ++ exDo l ++ exDo [0x81#8]

/-- "Unload" the application (object 3) by property. -/
def exUnload : List Byte :=
  [0x43#8, 0xd7#8, 3#8, 5#8, 0x10#8, 1#8, 4#8, 0#8, 0#8, 0#8, 0#8, 0#8, 0#8, 0#8, 0#8, 0#8]

/-- Write 0x99 at the address 0x4005 of the virtual memory. -/
def exVirtual : List Byte := [0x42#8, 0x81#8, 0x40#8, 0x05#8, 0x99#8]

/-- Write 0x99 at the address 0x0150 of the EEPROM. -/
def exConfig : List Byte := [0x42#8, 0x81#8, 0x01#8, 0x50#8, 0x99#8]

theorem run_app_fst (W : World) (group : Dev → Buf → Nat → Dev × Option (Buf → Buf)) (a b : List MainEv) :
    ∀ m : Main, (mainRun W group m (a ++ b)).1 = (mainRun W group (mainRun W group m a).1 b).1 := by
  induction a with
  | nil => intro m; rfl
  | cons e a ih => intro m; exact ih _

/-- **C68 (finding).** A configuration by property is lost. The application is unloaded over a connection, the
connection is closed again: the load state in the EEPROM is "unloaded" (0), and however long the device then
runs, the image in flash, from which the device starts after a power failure, still has the old state. -/
theorem C68_property_load_lost (es : List MainEv) (hes : NothingArrives es) :
    Saved (fun _ => False) ex68 ∧
    (mainRun exWorld exGroup ex68 (exSession exUnload)).1.tl.phase = .closed ∧
    (mainRun exWorld exGroup ex68 (exSession exUnload ++ es)).1.tl.app.ee 0x373 = 0#8 ∧
    (mainRun exWorld exGroup ex68 (exSession exUnload ++ es)).1.flash 0x373 = 0x73#8 := by
  refine ⟨fun _ _ => rfl, by decide +kernel, ?_⟩
  rw [run_app_fst]
  have h := C68_unmarked_never_saved exWorld exGroup (mainRun exWorld exGroup ex68 (exSession exUnload)).1
    (by decide +kernel) (by decide +kernel) es hes
  rw [h.1, h.2.1]
  decide +kernel

/-- A byte of the virtual memory now, and as it would be after a power failure now. -/
def virtualNow (m : Main) (a : Int) : Option Byte :=
  m.tl.app.mapper.map fun s => (MemMap.readMem exWorld.E exWorld.mc s a false).2.2
def virtualAfterPowerFailure (m : Main) (a : Int) : Option Byte :=
  m.tl.app.mapper.map fun s => (MemMap.readMem exWorld.E exWorld.mc (MemMap.ctor exWorld.mc s.hw) a false).2.2

/-- **C68 (finding).** What a connection writes to the virtual memory is lost, too, however long the device runs
after the connection was closed: only a modified EEPROM makes the loop write the virtual memory to flash. -/
theorem C68_virtual_memory_lost (es : List MainEv) (hes : NothingArrives es) :
    (mainRun exWorld exGroup ex68 (exSession exVirtual)).1.tl.phase = .closed ∧
    virtualNow (mainRun exWorld exGroup ex68 (exSession exVirtual ++ es)).1 0x4005 = some 0x99#8 ∧
    virtualAfterPowerFailure (mainRun exWorld exGroup ex68 (exSession exVirtual ++ es)).1 0x4005 = some 7#8 := by
  refine ⟨by decide +kernel, ?_⟩
  unfold virtualNow virtualAfterPowerFailure
  rw [run_app_fst]
  have h := C68_unmarked_never_saved exWorld exGroup (mainRun exWorld exGroup ex68 (exSession exVirtual)).1
    (by decide +kernel) (by decide +kernel) es hes
  rw [h.2.2]
  decide +kernel

/-! ## The hypotheses are met -/

example : GroupMarks exGroup := fun _ _ _ => Or.inr ⟨rfl, rfl⟩

/-- A configuration by memory write is not saved as long as the connection is open, and saved when it is
closed. -/
example : Saved (fun _ => False) ex68 ∧ NoPropertyLoad exWorld (exSession exConfig) ∧
    (mainRun exWorld exGroup ex68 ((exSession exConfig).take 8)).1.tl.app.ee 0x50 = 0x99#8 ∧
    (mainRun exWorld exGroup ex68 ((exSession exConfig).take 8)).1.flash 0x50 = 0x50#8 ∧
    (mainRun exWorld exGroup ex68 ((exSession exConfig).take 8)).1.tl.app.eeModified = true ∧
    (mainRun exWorld exGroup ex68 (exSession exConfig)).1.tl.app.eeModified = false := by
  refine ⟨fun _ _ => rfl, ?_, by decide +kernel⟩
  intro e he i t len h1 h2 h3
  subst h1
  simp only [exSession, exDo, List.mem_append, List.mem_cons, List.not_mem_nil, MainEv.loop.injEq, or_false,
    reduceCtorEq, false_or] at he
  rcases he with ((rfl | rfl) | (rfl | rfl)) | (rfl | rfl) <;> first
    | (cases h2; revert h3; unfold PropertyLoad; decide +kernel)
    | cases h2

example : (mainRun exWorld exGroup ex68 (exSession exConfig)).1.flash =
    (mainRun exWorld exGroup ex68 (exSession exConfig)).1.tl.app.ee ∧
    NothingArrives [.loop exLoop, .advance 1000, .txDone true, .loop exLoop] := by
  refine ⟨funext fun i => C68_saved_unless_marked_partial exWorld exGroup (fun _ => False)
    (fun _ _ _ => Or.inr ⟨rfl, rfl⟩) ex68 (fun _ _ => rfl) _ ?_ (by decide +kernel) i id, ?_⟩
  · intro e he i t len h1 h2 h3
    subst h1
    simp only [exSession, exDo, List.mem_append, List.mem_cons, List.not_mem_nil, MainEv.loop.injEq, or_false,
      reduceCtorEq, false_or] at he
    rcases he with ((rfl | rfl) | (rfl | rfl)) | (rfl | rfl) <;> first
      | (cases h2; revert h3; unfold PropertyLoad; decide +kernel)
      | cases h2
  · intro e he
    simp only [List.mem_cons, List.not_mem_nil, or_false] at he
    rcases he with rfl | rfl | rfl | rfl <;> exact ⟨fun i h => by cases h; try rfl, fun a h => nomatch h⟩

/-- The hypotheses of `C68_loop_saves_partial`: the loop that finds the T_DISCONNECT. -/
example :
    let m := (mainRun exWorld exGroup ex68 ((exSession exConfig).take 8)).1
    let i : In := { rx := some (exFrom [0x81#8], 8), pin := 1, grp := none }
    Alive m ∧ sendingFrame (atSend exWorld exGroup m i) i.ack3 = false ∧ (atSend exWorld exGroup m i).off = none ∧
    (mainStep exWorld exGroup m (.loop i)).1.tl.phase = .closed := by
  unfold Alive
  decide +kernel

/-- The hypotheses of `C68_reset_saves_partial`. -/
example : (mainRun exWorld exGroup ex68 (exPre ++ [.loop exReqIn] ++ exPost2 ++ [.loop exLoop])).1.off ≠ none := by
  decide +kernel

end Verif.Dev
