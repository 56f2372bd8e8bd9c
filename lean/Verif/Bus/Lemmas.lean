import Verif.Bus.Model

/-!
# Lemmas about the link layer model: control invariant
-/

namespace Verif.Bus

open Verif.Knx

/-- The states in which a frame of ours is on the line. -/
def Sending : St → Prop
  | .sendStart | .sendBit0 | .sendBits | .sendEndTx => True
  | _ => False

instance (s : St) : Decidable (Sending s) := by cases s <;> unfold Sending <;> infer_instance

/-- Control invariant of the bus object. -/
structure Inv (b : Bus) : Prop where
  noInitRx : b.st ≠ .initRx
  noEndByte : b.st ≠ .sendEndByte
  ackSt : b.sendAck ≠ 0#8 → b.st = .waitAckTx ∨ Sending b.st
  ackTx : b.st = .waitAckTx → b.sendAck ≠ 0#8
  cur : Sending b.st → b.sendAck = 0#8 →
    ∃ t, b.sendCur = some t ∧ b.sendTelegramLen = telegramSize t + 1 ∧ b.collisions.toNat ≤ 3
  idxStart : b.st = .sendStart ∨ b.st = .sendBit0 → b.sendAck = 0#8 →
    b.nextByteIndex < b.sendTelegramLen
  idxBits : b.st = .sendBits → b.sendAck = 0#8 →
    1 ≤ b.nextByteIndex ∧ b.nextByteIndex ≤ b.sendTelegramLen
  idxEnd : b.st = .sendEndTx → b.sendAck = 0#8 → b.nextByteIndex = b.sendTelegramLen
  ackIdx : b.sendAck ≠ 0#8 → Sending b.st → b.nextByteIndex = 0
  waitSt : b.waitForAck → (b.st = .ackWindow ∨ b.st = .waitAck ∨ b.st = .recvBits ∨
    b.st = .waitStart) ∧ b.sendCur.isSome
  stWait : b.st = .ackWindow ∨ b.st = .waitAck → b.waitForAck
  fresh : b.sendCur = none →
    b.collisions = 0#8 ∧ b.repeatTel = false ∧ b.sendRetries = 0 ∧ b.sendBusyRetries = 0
  coll : b.collisions.toNat ≤ 4

theorem finish_st (b : Bus) : (finishSendingTelegram b).1.st = b.st := by
  unfold finishSendingTelegram; split <;> rfl

theorem finish_sendCur (b : Bus) : (finishSendingTelegram b).1.sendCur = none := by
  unfold finishSendingTelegram
  split
  · rfl
  · assumption

theorem finish_other (b : Bus) :
    (finishSendingTelegram b).1.collisions = 0#8 ∧ (finishSendingTelegram b).1.repeatTel = false ∧
    (finishSendingTelegram b).1.sendRetries = 0 ∧ (finishSendingTelegram b).1.sendBusyRetries = 0 ∧
    (finishSendingTelegram b).1.waitForAck = false ∧
    (finishSendingTelegram b).1.sendAck = b.sendAck := by
  unfold finishSendingTelegram; split <;> exact ⟨rfl, rfl, rfl, rfl, rfl, rfl⟩

theorem isr_inv_idleish {b : Bus} (h1 : b.st = .idle ∨ b.st = .init ∨ b.st = .wait50)
    (h2 : b.sendAck = 0#8) (h3 : b.waitForAck = false)
    (h4 : b.sendCur = none →
      b.collisions = 0#8 ∧ b.repeatTel = false ∧ b.sendRetries = 0 ∧ b.sendBusyRetries = 0)
    (h5 : b.collisions.toNat ≤ 4) : Inv b := by
  constructor <;> rcases h1 with h1 | h1 | h1 <;> simp_all [Sending]

/-- What `handleTelegram` needs. -/
structure RxInv (b : Bus) : Prop where
  wait : b.waitForAck → b.sendCur.isSome
  fresh : b.sendCur = none →
    b.collisions = 0#8 ∧ b.repeatTel = false ∧ b.sendRetries = 0 ∧ b.sendBusyRetries = 0
  coll : b.collisions.toNat ≤ 4

theorem Inv.rx {b : Bus} (h : Inv b) : RxInv b :=
  ⟨fun w => (h.waitSt w).2, h.fresh, h.coll⟩

theorem processDataFrame_cases (i : Irq) (b : Bus) (time : Nat) :
    ((processDataFrame i b time).1.st = b.st ∧ (processDataFrame i b time).1.sendAck = 0#8 ∨
     (processDataFrame i b time).1.st = .waitAckTx ∧
      (processDataFrame i b time).1.sendAck = ackByte) ∧
    (processDataFrame i b time).1.waitForAck = b.waitForAck ∧
    (processDataFrame i b time).1.sendCur = b.sendCur ∧
    (processDataFrame i b time).1.collisions = b.collisions ∧
    (processDataFrame i b time).1.repeatTel = b.repeatTel ∧
    (processDataFrame i b time).1.sendRetries = b.sendRetries ∧
    (processDataFrame i b time).1.sendBusyRetries = b.sendBusyRetries := by
  unfold processDataFrame
  by_cases h1 : b.telegramLen ≠ 0 <;> by_cases h2 : alreadyReceived b = true <;>
    by_cases h3 : (!i.llEnabled || (b.rx 0 &&& 0x40#8 != 0#8)) = true <;>
    simp [h1, h2, h3, takeTelegram, show ¬ ackByte = 0#8 by decide]

theorem processAck_cases (b : Bus) (time : Nat) :
    (processAck b time).1.st = b.st ∧ (processAck b time).1.sendAck = b.sendAck ∧
    (processAck b time).1.waitForAck = false ∧
    ((processAck b time).1.sendCur = none ∧ (processAck b time).1.collisions = 0#8 ∧
      (processAck b time).1.repeatTel = false ∧ (processAck b time).1.sendRetries = 0 ∧
      (processAck b time).1.sendBusyRetries = 0 ∨
     (processAck b time).1.sendCur = b.sendCur ∧ (processAck b time).1.collisions = b.collisions ∧
      (processAck b time).1.repeatTel = true ∧
      (processAck b time).1.sendRetries = b.sendRetries ∧
      (processAck b time).1.sendBusyRetries = b.sendBusyRetries) := by
  unfold processAck
  simp only
  split
  · split <;> simp [finish_st, finish_sendCur, finish_other]
  · split <;> simp

theorem handle_tail {r : Bus} {m : Nat}
    (hst : r.st = .wait50 ∧ r.sendAck = 0#8 ∨ r.st = .waitAckTx ∧ r.sendAck ≠ 0#8)
    (hw : r.waitForAck = true → ¬ r.sendCur = none)
    (hf : r.sendCur = none →
      r.collisions = 0#8 ∧ r.repeatTel = false ∧ r.sendRetries = 0 ∧ r.sendBusyRetries = 0)
    (hc : r.collisions.toNat ≤ 4) :
    Inv { (if r.waitForAck then { r with repeatTel := true, waitForAck := false } else r) with
      capInt := true, mTime := m } := by
  cases hwb : r.waitForAck <;> rcases hst with ⟨e1, e2⟩ | ⟨e1, e2⟩ <;>
    constructor <;> simp_all [Sending]

theorem handleTelegram_inv {i : Irq} {b : Bus} {v : Bool} (h : RxInv b) :
    Inv (handleTelegram i b v).1 := by
  obtain ⟨hw, hf, hc⟩ := h
  have hns : b.waitForAck = true → ¬ b.sendCur = none := by
    intro hw1 hn
    have := hw hw1
    rw [hn] at this
    cases this
  unfold handleTelegram
  by_cases h1 : isDataFrame { b with sendAck := 0#8, st := .wait50 } v = true
  · by_cases h2 : forUs i { b with sendAck := 0#8, st := .wait50 } = true
    · simp only [h1, h2, if_true]
      obtain ⟨hs, hwa, hsc, hco, hre, hr1, hr2⟩ :=
        processDataFrame_cases i { b with sendAck := 0#8, st := .wait50 } (sendWait - preSend)
      apply handle_tail
      · rcases hs with hs | hs
        · exact Or.inl hs
        · exact Or.inr ⟨hs.1, by rw [hs.2]; decide⟩
      · rw [hwa, hsc]; exact hns
      · rw [hsc, hco, hre, hr1, hr2]; exact hf
      · rw [hco]; exact hc
    · simp only [h1, h2, if_true]
      exact handle_tail (Or.inl ⟨rfl, rfl⟩) hns hf hc
  · by_cases h3 : b.nextByteIndex = 1 ∧ b.waitForAck = true
    · simp only [h1, if_pos h3, Bool.false_eq_true, if_false]
      obtain ⟨hs, ha, hwa, hr⟩ :=
        processAck_cases { b with sendAck := 0#8, st := .wait50 } (sendWait - preSend)
      apply handle_tail
      · exact Or.inl ⟨hs, ha⟩
      · rw [hwa]; intro h; cases h
      · rcases hr with ⟨r1, r2⟩ | ⟨r1, r2⟩
        · exact fun _ => r2
        · intro hn
          rw [r1] at hn
          exact absurd hn (hns h3.2)
      · rcases hr with ⟨r1, r2, _⟩ | ⟨r1, r2, _⟩
        · rw [r2]; decide
        · rw [r2]; exact hc
    · simp only [h1, if_neg h3, Bool.false_eq_true, if_false]
      have : ∀ c : Bus, (c.st = .wait50 ∧ c.sendAck = 0#8) → c.waitForAck = b.waitForAck →
          c.sendCur = b.sendCur → c.collisions = b.collisions → c.repeatTel = b.repeatTel →
          c.sendRetries = b.sendRetries → c.sendBusyRetries = b.sendBusyRetries → ∀ m,
          Inv { (if c.waitForAck then { c with repeatTel := true, waitForAck := false } else c) with
            capInt := true, mTime := m } := by
        intro c e1 e2 e3 e4 e5 e6 e7 m
        refine handle_tail (Or.inl e1) ?_ ?_ ?_
        · rw [e2, e3]; exact hns
        · rw [e3, e4, e5, e6, e7]; exact hf
        · rw [e4]; exact hc
      apply this <;> (unfold processOther; split) <;> simp

theorem waitStart_inv {i : Irq} {b : Bus} (h : RxInv b) (ha : b.sendAck = 0#8) :
    Inv (waitStart i b).1 := by
  unfold waitStart
  cases hc : i.cap
  · simp only [hc, Bool.not_false, if_true]
    apply handleTelegram_inv
    obtain ⟨hw, hf, hc⟩ := h
    split <;> exact ⟨hw, hf, hc⟩
  · obtain ⟨hw, hf, hc⟩ := h
    constructor <;> simp_all [Sending]

theorem initRx_inv {i : Irq} {b : Bus} (h : RxInv b) : Inv (initRx i b).1 := by
  unfold initRx
  apply waitStart_inv
  · obtain ⟨hw, hf, hc⟩ := h
    exact ⟨hw, hf, hc⟩
  · rfl

theorem endOfChar_inv {b : Bus} (h : RxInv b) (ha : b.sendAck = 0#8) : Inv (endOfChar b).1 := by
  obtain ⟨hw, hf, hc⟩ := h
  unfold endOfChar
  simp only
  split <;> constructor <;> simp_all [Sending]

theorem recvBits_inv {i : Irq} {b : Bus} (h : RxInv b) (ha : b.sendAck = 0#8)
    (hs : b.st = .recvBits) : Inv (recvBits i b).1 := by
  unfold recvBits
  simp only
  split
  · apply endOfChar_inv
    · obtain ⟨hw, hf, hc⟩ := h
      exact ⟨hw, hf, hc⟩
    · exact ha
  · obtain ⟨hw, hf, hc⟩ := h
    split <;> constructor <;> simp_all [Sending]

theorem telegramSize_markRepeated (t : Buf) :
    telegramSize (markRepeated t (telegramSize t + 1)) = telegramSize t := by
  have h5 : ¬ (5 = telegramSize t + 1 - 1) := by unfold telegramSize; omega
  have e : markRepeated t (telegramSize t + 1) 5 = t 5 := by
    simp only [markRepeated, upd, if_neg h5]
    simp
  unfold telegramSize at e ⊢
  rw [e]

theorem wait50_inv {i : Irq} {b : Bus} (h : RxInv b) (ha : b.sendAck = 0#8)
    (hw : b.waitForAck = false) : Inv (wait50 i b).1 := by
  unfold wait50
  cases hc : i.cap
  · simp only [Bool.false_eq_true, if_false]
    by_cases hx : retriesExhausted b = true
    · simp only [hx, if_true, finish_sendCur]
      apply isr_inv_idleish
      · exact Or.inl rfl
      · simp [idleState, finish_other, ha]
      · simp [idleState, finish_other]
      · simp [idleState, finish_other]
      · simp [idleState, finish_other]
    · simp only [hx]
      obtain ⟨_, hf, hcl⟩ := h
      cases hsc : b.sendCur with
      | none =>
        simp only [Bool.false_eq_true, if_false, hsc]
        apply isr_inv_idleish
        · exact Or.inl rfl
        · exact ha
        · exact hw
        · exact hf
        · exact hcl
      | some t =>
        simp only [Bool.false_eq_true, if_false, hsc]
        have hcol : b.collisions.toNat ≤ 3 := by
          simp only [retriesExhausted, Bool.or_eq_true, not_or, decide_eq_true_eq] at hx
          have := hx.2
          rw [BitVec.lt_def] at this
          simp at this
          omega
        have hts : telegramSize (if b.repeatTel = true ∧ ¬t 0 &&& 32#8 = 0#8
            then markRepeated t (telegramSize t + 1) else t) = telegramSize t := by
          split
          · exact telegramSize_markRepeated t
          · rfl
        constructor <;> simp_all [Sending] <;> omega
  · exact initRx_inv h

theorem encounteredCollision_eq (b : Bus) :
    (encounteredCollision b).1.st = b.st ∧ (encounteredCollision b).1.sendCur = b.sendCur ∧
    (encounteredCollision b).1.waitForAck = b.waitForAck ∧
    (encounteredCollision b).1.sendAck = b.sendAck ∧
    (encounteredCollision b).1.repeatTel = b.repeatTel ∧
    (encounteredCollision b).1.sendRetries = b.sendRetries ∧
    (encounteredCollision b).1.sendBusyRetries = b.sendBusyRetries ∧
    (encounteredCollision b).1.nextByteIndex = b.nextByteIndex ∧
    (encounteredCollision b).1.sendTelegramLen = b.sendTelegramLen := by
  unfold encounteredCollision; split <;> simp

theorem collision_le {b : Bus} (h : Inv b) (hs : Sending b.st) :
    (encounteredCollision b).1.collisions.toNat ≤ 4 := by
  unfold encounteredCollision
  split
  · next ha =>
    obtain ⟨t, _, _, hc⟩ := h.cur hs ha
    simp only [BitVec.toNat_add]
    simp
    omega
  · exact h.coll

theorem collision_rx {b : Bus} (h : Inv b) (hs : Sending b.st) :
    RxInv (encounteredCollision b).1 := by
  obtain ⟨e1, e2, e3, e4, e5, e6, e7, e8, e9⟩ := encounteredCollision_eq b
  refine ⟨?_, ?_, collision_le h hs⟩
  · rw [e3, e2]; exact h.rx.wait
  · rw [e2, e5, e6, e7]
    intro hn
    obtain ⟨f1, f2, f3, f4⟩ := h.fresh hn
    refine ⟨?_, f2, f3, f4⟩
    unfold encounteredCollision
    split
    · next ha =>
      obtain ⟨t, ht, _⟩ := h.cur hs ha
      rw [hn] at ht; cases ht
    · exact f1

theorem waitForAck_false {b : Bus} (h : Inv b) (hs : Sending b.st) : b.waitForAck = false := by
  cases hw : b.waitForAck
  · rfl
  · have := (h.waitSt hw).1
    rcases this with e | e | e | e <;> rw [e] at hs <;> exact hs.elim

theorem initState_inv {b : Bus} (h : RxInv b) (hw : b.waitForAck = false) : Inv (initState b) :=
  isr_inv_idleish (Or.inr (Or.inl rfl)) rfl hw h.fresh h.coll

theorem switchToRx_inv {i : Irq} {b : Bus} (h : Inv b) (hs : Sending b.st) :
    RxInv (switchToRx i b).1 ∧ (switchToRx i b).1.sendAck = 0#8 ∧
    (switchToRx i b).1.st = .recvBits := by
  obtain ⟨hw, hf, hc⟩ := collision_rx h hs
  unfold switchToRx
  generalize encounteredCollision b = c at *
  simp only
  by_cases ha : c.1.sendAck ≠ 0#8
  · simp only [ha, ne_eq, not_false_eq_true, if_true]
    exact ⟨⟨hw, hf, hc⟩, trivial, trivial⟩
  · simp only [ha, ne_eq, if_false]
    cases hsc : c.1.sendCur with
    | none =>
      refine ⟨⟨?_, ?_, ?_⟩, ?_, trivial⟩ <;> simp_all
    | some t =>
      refine ⟨⟨?_, ?_, ?_⟩, ?_, trivial⟩ <;> simp_all

theorem sendEndByte_inv {b : Bus} (h1 : b.sendAck = 0#8 →
      ∃ t, b.sendCur = some t ∧ b.sendTelegramLen = telegramSize t + 1 ∧ b.collisions.toNat ≤ 3)
    (h2 : b.sendAck = 0#8 → b.nextByteIndex ≤ b.sendTelegramLen)
    (h3 : b.sendAck ≠ 0#8 → b.nextByteIndex = 0) (h4 : b.waitForAck = false)
    (h5 : b.sendCur = none →
      b.collisions = 0#8 ∧ b.repeatTel = false ∧ b.sendRetries = 0 ∧ b.sendBusyRetries = 0)
    (h6 : b.collisions.toNat ≤ 4) : Inv (sendEndByte b).1 := by
  unfold sendEndByte
  split
  · next hc =>
    constructor <;> simp_all [Sending]
  · next hc =>
    constructor <;> simp_all [Sending]
    intro ha
    rw [ha] at hc h2
    simp at hc h2
    omega

theorem sendBits_inv {i : Irq} {b : Bus} (h : Inv b) (hs : b.st = .sendBits) :
    Inv (sendBits i b).1 := by
  have hS : Sending b.st := by rw [hs]; trivial
  unfold sendBits
  split
  · split
    · exact h
    · split
      · refine initState_inv (collision_rx h hS) ?_
        rw [(encounteredCollision_eq b).2.2.1]; exact waitForAck_false h hS
      · split
        · obtain ⟨h1, h2, h3⟩ := switchToRx_inv (i := i) h hS
          exact recvBits_inv h1 h2 h3
        · exact h
  · split
    · have hw := waitForAck_false h hS
      obtain ⟨a1, a2, a3, a4, a5, a6, a7, a8, a9, a10, a11, a12, a13⟩ := h
      constructor <;> simp_all [Sending]
    · apply sendEndByte_inv
      · exact h.cur hS
      · exact fun ha => (h.idxBits hs ha).2
      · exact fun ha => h.ackIdx ha hS
      · exact (waitForAck_false h hS :)
      · exact h.fresh
      · exact h.coll

theorem sendBit0_inv {i : Irq} {b : Bus} (h : Inv b) (hs : b.st = .sendBit0) :
    Inv (sendBit0 i b).1 := by
  have hS : Sending b.st := by rw [hs]; trivial
  have hw := waitForAck_false h hS
  have hlt := h.idxStart (Or.inr hs)
  unfold sendBit0
  refine sendBits_inv ?_ rfl
  obtain ⟨a1, a2, a3, a4, a5, a6, a7, a8, a9, a10, a11, a12, a13⟩ := h
  split
  · constructor <;> simp_all [Sending]
  · next ha =>
    have ha : b.sendAck = 0#8 := by simpa using ha
    have := hlt ha
    constructor <;> simp_all [Sending]
    omega

theorem sendStart_inv {i : Irq} {b : Bus} (h : Inv b) (hs : b.st = .sendStart) :
    Inv (sendStart i b).1 := by
  have hS : Sending b.st := by rw [hs]; trivial
  have hw := waitForAck_false h hS
  unfold sendStart
  split
  · split
    · apply initRx_inv
      have : RxInv (if b.nextByteIndex ≠ 0 then encounteredCollision b else (b, [])).1 := by
        split
        · exact collision_rx h hS
        · exact h.rx
      obtain ⟨p, q, r⟩ := this
      exact ⟨p, q, r⟩
    · obtain ⟨a1, a2, a3, a4, a5, a6, a7, a8, a9, a10, a11, a12, a13⟩ := h
      split <;> constructor <;> simp_all [Sending]
  · apply sendBit0_inv _ rfl
    obtain ⟨a1, a2, a3, a4, a5, a6, a7, a8, a9, a10, a11, a12, a13⟩ := h
    constructor <;> simp_all [Sending]

theorem sendEndTx_inv {b : Bus} (h : Inv b) (hs : b.st = .sendEndTx) : Inv (sendEndTx b).1 := by
  have hS : Sending b.st := by rw [hs]; trivial
  have hw := waitForAck_false h hS
  unfold sendEndTx
  split
  · exact isr_inv_idleish (Or.inr (Or.inr rfl)) rfl hw h.fresh h.coll
  · next ha =>
    have ha : b.sendAck = 0#8 := by simpa using ha
    obtain ⟨t, ht, _, _⟩ := h.cur hS ha
    obtain ⟨a1, a2, a3, a4, a5, a6, a7, a8, a9, a10, a11, a12, a13⟩ := h
    simp only
    split
    · split <;> constructor <;> simp_all [Sending]
    · constructor <;> simp_all [Sending]

theorem Inv.congr {b c : Bus} (h : Inv b) (e : c = { b with tSet := c.tSet }) : Inv c := by
  rw [e]
  obtain ⟨a1, a2, a3, a4, a5, a6, a7, a8, a9, a10, a11, a12, a13⟩ := h
  exact ⟨a1, a2, a3, a4, a5, a6, a7, a8, a9, a10, a11, a12, a13⟩

theorem sendAck_zero {b : Bus} (h : Inv b) (h1 : b.st ≠ .waitAckTx) (h2 : ¬ Sending b.st) :
    b.sendAck = 0#8 := by
  by_cases ha : b.sendAck = 0#8
  · exact ha
  · rcases h.ackSt ha with e | e
    · exact absurd e h1
    · exact absurd e h2

theorem dispatch_inv {i : Irq} {c : Bus} (h' : Inv c) : Inv (dispatch i c).1 := by
  · unfold dispatch
    split
    · next hs =>
      have ha := sendAck_zero h' (by rw [hs]; decide) (by rw [hs]; decide)
      have hw : c.waitForAck = false := by
        cases hw : c.waitForAck
        · rfl
        · have := (h'.waitSt hw).1; simp [hs] at this
      unfold initSt
      split
      · exact isr_inv_idleish (Or.inr (Or.inl hs)) ha hw h'.fresh h'.coll
      · simp only
        split
        · exact wait50_inv ⟨h'.rx.wait, h'.fresh, h'.coll⟩ ha hw
        · exact isr_inv_idleish (Or.inr (Or.inr rfl)) ha hw h'.fresh h'.coll
    · split
      · exact initRx_inv h'.rx
      · exact h'
    · next hs => exact absurd hs h'.noInitRx
    · next hs =>
      exact waitStart_inv h'.rx (sendAck_zero h' (by rw [hs]; decide) (by rw [hs]; decide))
    · next hs =>
      exact recvBits_inv h'.rx (sendAck_zero h' (by rw [hs]; decide) (by rw [hs]; decide)) hs
    · next hs =>
      unfold waitAckTx
      split
      · exact initRx_inv ⟨h'.rx.wait, h'.fresh, h'.coll⟩
      · have ha := h'.ackTx hs
        have hw : c.waitForAck = false := by
          cases hw : c.waitForAck
          · rfl
          · have := (h'.waitSt hw).1; simp [hs] at this
        obtain ⟨a1, a2, a3, a4, a5, a6, a7, a8, a9, a10, a11, a12, a13⟩ := h'
        constructor <;> simp_all [Sending]
    · next hs =>
      have hw : c.waitForAck = false := by
        cases hw : c.waitForAck
        · rfl
        · have := (h'.waitSt hw).1; simp [hs] at this
      exact wait50_inv h'.rx (sendAck_zero h' (by rw [hs]; decide) (by rw [hs]; decide)) hw
    · next hs => exact sendStart_inv h' hs
    · next hs => exact sendBit0_inv h' hs
    · next hs => exact sendBits_inv h' hs
    · next hs => exact absurd hs h'.noEndByte
    · next hs => exact sendEndTx_inv h' hs
    · next hs =>
      have ha := sendAck_zero h' (by rw [hs]; decide) (by rw [hs]; decide)
      have hw := h'.stWait (Or.inl hs)
      obtain ⟨a1, a2, a3, a4, a5, a6, a7, a8, a9, a10, a11, a12, a13⟩ := h'
      unfold ackWindow
      constructor <;> simp_all [Sending]
    · next hs =>
      unfold waitAck
      split
      · exact initRx_inv h'.rx
      · have ha := sendAck_zero h' (by rw [hs]; decide) (by rw [hs]; decide)
        refine isr_inv_idleish (Or.inr (Or.inr rfl)) ha rfl ?_ h'.coll
        intro hn
        have := (h'.waitSt (h'.stWait (Or.inr hs))).2
        simp_all

theorem isr_inv {i : Irq} {b : Bus} (h : Inv b) : Inv (isr i b).1 := by
  have h' : Inv { b with tSet := none } := h.congr rfl
  unfold isr
  split
  · exact h'
  · exact dispatch_inv h'

/-- Paused objects rest in INIT. -/
structure SysInv (s : Sys) : Prop where
  inv : Inv s.bus
  paused : s.paused = true → s.bus.st = .init

theorem step_inv {s : Sys} (h : SysInv s) (e : Ev) : SysInv (step s e).1 := by
  obtain ⟨hi, hp⟩ := h
  cases e with
  | irq i =>
    simp only [step]
    cases hpp : s.paused
    · exact ⟨isr_inv hi, by simp⟩
    · simp only [if_true]; exact ⟨hi, fun _ => hp hpp⟩
  | queue own t len =>
    simp only [step]
    cases hsc : s.bus.sendCur with
    | some u => exact ⟨hi, hp⟩
    | none =>
      refine ⟨?_, hp⟩
      have hw : s.bus.waitForAck = false := by
        cases hw : s.bus.waitForAck
        · rfl
        · have := (hi.waitSt hw).2; simp [hsc] at this
      obtain ⟨a1, a2, a3, a4, a5, a6, a7, a8, a9, a10, a11, a12, a13⟩ := hi
      constructor <;> simp_all [Sending]
  | kick =>
    simp only [step]
    split
    · next hs =>
      refine ⟨?_, fun h => by have := hp h; simp [hs] at this⟩
      have ha := sendAck_zero hi (by rw [hs]; decide) (by rw [hs]; decide)
      have hw : s.bus.waitForAck = false := by
        cases hw : s.bus.waitForAck
        · rfl
        · have := (hi.waitSt hw).1; simp [hs] at this
      exact isr_inv_idleish (Or.inr (Or.inr rfl)) ha hw hi.fresh hi.coll
    · exact ⟨hi, hp⟩
  | discard =>
    refine ⟨?_, hp⟩
    obtain ⟨a1, a2, a3, a4, a5, a6, a7, a8, a9, a10, a11, a12, a13⟩ := hi
    exact ⟨a1, a2, a3, a4, a5, a6, a7, a8, a9, a10, a11, a12, a13⟩
  | pause w =>
    simp only [step]
    split
    · next hc =>
      simp only [Bool.and_eq_true] at hc
      have hst : s.bus.st = .idle ∨ s.bus.st = .wait50 := by
        have := hc.2
        unfold canPause at this
        split at this <;> simp_all
      have ha := sendAck_zero hi (by rcases hst with e | e <;> rw [e] <;> decide)
        (by rcases hst with e | e <;> rw [e] <;> decide)
      have hw : s.bus.waitForAck = false := by
        cases hw : s.bus.waitForAck
        · rfl
        · have := (hi.waitSt hw).1; rcases hst with e | e <;> simp [e] at this
      exact ⟨isr_inv_idleish (Or.inr (Or.inl rfl)) ha hw hi.fresh hi.coll, fun _ => rfl⟩
    · exact ⟨hi, hp⟩
  | resume =>
    simp only [step]
    split
    · next hpp =>
      have hst := hp hpp
      refine ⟨initState_inv hi.rx ?_, by simp⟩
      cases hw : s.bus.waitForAck
      · rfl
      · have := (hi.waitSt hw).1; simp [hst] at this
    · exact ⟨hi, hp⟩
  | maxRetries n =>
    refine ⟨?_, hp⟩
    obtain ⟨a1, a2, a3, a4, a5, a6, a7, a8, a9, a10, a11, a12, a13⟩ := hi
    exact ⟨a1, a2, a3, a4, a5, a6, a7, a8, a9, a10, a11, a12, a13⟩
  | maxBusyRetries n =>
    refine ⟨?_, hp⟩
    obtain ⟨a1, a2, a3, a4, a5, a6, a7, a8, a9, a10, a11, a12, a13⟩ := hi
    exact ⟨a1, a2, a3, a4, a5, a6, a7, a8, a9, a10, a11, a12, a13⟩

theorem boot_inv : SysInv boot := by
  refine ⟨isr_inv_idleish (Or.inr (Or.inl rfl)) rfl rfl (fun _ => ⟨rfl, rfl, rfl, rfl⟩) ?_, ?_⟩
  · decide
  · intro h; cases h

theorem run_inv {s : Sys} (h : SysInv s) (es : List Ev) : SysInv (run s es).1 := by
  induction es generalizing s with
  | nil => exact h
  | cons e es ih => exact ih (step_inv h e)

theorem run_append (s : Sys) (es fs : List Ev) :
    run s (es ++ fs) = ((run (run s es).1 fs).1, (run s es).2 ++ (run (run s es).1 fs).2) := by
  induction es generalizing s with
  | nil => simp [run]
  | cons e es ih => simp [run, ih]

end Verif.Bus
