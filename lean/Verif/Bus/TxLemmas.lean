import Verif.Bus.RxLemmas
import Verif.Bus.CharLemmas

/-!
# Lemmas about transmission
-/

namespace Verif.Bus

open Verif.Knx

/-- The queued telegram is being sent. -/
def SendNow (b : Bus) : Prop := Sending b.st ∧ b.sendAck = 0#8

/-- The fields that belong to the queued telegram. -/
def txF (b : Bus) : Option Buf × Bool × Bool × Nat × Nat × Byte × Nat × Nat :=
  (b.sendCur, b.repeatTel, b.waitForAck, b.sendRetries, b.sendBusyRetries, b.collisions,
    b.sendRetriesMax, b.sendBusyRetriesMax)

/-- Log entries that do not concern the queued telegram. -/
def neutral : Out → Bool
  | .txBegin | .txEnd | .collision | .finished _ => false
  | _ => true

/-- The telegram as it is sent next: with the repeat flag on a repetition. -/
def marked (b : Bus) (t : Buf) : Buf :=
  if b.repeatTel ∧ t 0 &&& 0x20#8 ≠ 0#8 then markRepeated t (telegramSize t + 1) else t

/-- The retry counters after a complete transmission. -/
def counted (b : Bus) : Bus :=
  { b with
    waitForAck := true
    sendRetries := if b.repeatTel ∧ b.busyWait = false then b.sendRetries + 1 else b.sendRetries
    sendBusyRetries :=
      if b.repeatTel ∧ b.busyWait = true then b.sendBusyRetries + 1 else b.sendBusyRetries }

/-- What one interrupt does to the queued telegram. -/
inductive TxStep (b : Bus) (outs : List Out) (b' : Bus) : Prop
  /-- nothing -/
  | other (h1 : txF b' = txF b) (h2 : ∀ o ∈ outs, neutral o) (h3 : ¬ SendNow b')
  /-- somewhere in a character -/
  | same (h0 : SendNow b) (h1 : txF b' = txF b) (h2 : outs = []) (h3 : SendNow b')
      (h4 : b'.nextByteIndex = b.nextByteIndex) (h5 : b'.sendTelegramLen = b.sendTelegramLen)
  /-- the next character -/
  | char (h0 : SendNow b) (t : Buf) (ht : b.sendCur = some t) (h1 : txF b' = txF b)
      (h2 : outs = [.txChar (t b.nextByteIndex) (parityBit (t b.nextByteIndex))])
      (h3 : SendNow b') (h4 : b'.nextByteIndex = b.nextByteIndex + 1)
      (h5 : b'.sendTelegramLen = b.sendTelegramLen)
  /-- the transmission begins -/
  | begin (t : Buf) (ht : b.sendCur = some t) (hx : retriesExhausted b = false)
      (h1 : txF b' = txF { b with sendCur := some (marked b t) })
      (h2 : outs = [.txBegin]) (h3 : SendNow b') (h4 : b'.nextByteIndex = 0)
  /-- the transmission is complete -/
  | done (h0 : SendNow b) (hs : b.st = .sendEndTx)
      (h1 : txF b' = txF (counted b))
      (h2 : outs = [.txEnd]) (h3 : b'.st = .ackWindow)
  /-- somebody else sends -/
  | lost (h0 : SendNow b) (p l : List Out) (h1 : txF b' = txF { b with
        collisions := b.collisions + 1#8 })
      (h2 : outs = p ++ .collision :: l) (hp : ∀ o ∈ p, neutral o) (hl : ∀ o ∈ l, neutral o)
      (h3 : ¬ SendNow b')
  /-- no acknowledge -/
  | noAck (h0 : b.waitForAck = true) (h1 : txF b' = txF { b with
        repeatTel := true, waitForAck := false })
      (h2 : ∀ o ∈ outs, neutral o) (h3 : ¬ SendNow b')
  /-- completion -/
  | finish (ok : Bool) (h0 : b.sendCur.isSome) (h1 : b'.sendCur = none) (h2 : outs = [.finished ok])
      (h3 : ok = true → b.st = .waitStart ∧ b.nextByteIndex = 1 ∧ b.waitForAck = true ∧
        b.parity = true ∧ b.currentByte = ackByte.toNat)
      (h4 : ok = false → retriesExhausted b = true ∧ b.st = .wait50 ∨ b.waitForAck = true ∧
        (b.sendRetriesMax ≤ b.sendRetries ∨ b.sendBusyRetriesMax ≤ b.sendBusyRetries))
      (h5 : b'.sendRetriesMax = b.sendRetriesMax ∧ b'.sendBusyRetriesMax = b.sendBusyRetriesMax)
      (h6 : ¬ SendNow b')

theorem notSendNow {b : Bus} (h : ¬ Sending b.st) : ¬ SendNow b := fun x => h x.1

/-- The error flag of exhausted retries is never left set. -/
def NoRetryErr (b : Bus) : Prop := b.txError &&& 128#16 = 0#16

theorem retryErr_or (x m : Word) (h : x &&& 128#16 = 0#16) (hm : m &&& 128#16 = 0#16) :
    (x ||| m) &&& 128#16 = 0#16 := by
  rw [show (x ||| m) &&& 128#16 = (x &&& 128#16) ||| (m &&& 128#16) by
    ext k hk; simp only [BitVec.getElem_and, BitVec.getElem_or, Bool.and_or_distrib_right]]
  rw [h, hm]
  rfl

theorem retryErr_set (x : Word) : ((x ||| 128#16) &&& 128#16 == 0#16) = false := by
  have : (x ||| 128#16) &&& 128#16 = 128#16 := by
    ext k hk
    simp only [BitVec.getElem_and, BitVec.getElem_or]
    cases (128#16)[k] <;> simp
  rw [this]
  rfl

theorem finish_cases (b : Bus) (h : b.sendCur.isSome) :
    (finishSendingTelegram b).1.sendCur = none ∧
    (finishSendingTelegram b).2 = [.finished (b.txError &&& 128#16 == 0#16)] ∧
    (finishSendingTelegram b).1.sendRetriesMax = b.sendRetriesMax ∧
    (finishSendingTelegram b).1.sendBusyRetriesMax = b.sendBusyRetriesMax ∧
    (finishSendingTelegram b).1.txError = 0#16 ∧ (finishSendingTelegram b).1.waitForAck = false := by
  obtain ⟨t, ht⟩ := Option.isSome_iff_exists.1 h
  unfold finishSendingTelegram
  simp only [ht]
  refine ⟨?_, ?_, ?_, ?_, ?_, ?_⟩ <;> first | rfl | trivial

/-- The acknowledge is accepted. -/
def isAck (b : Bus) : Bool := b.parity && b.currentByte == ackByte.toNat

theorem processAck_tx (b : Bus) (time : Nat) (hw : b.sendCur.isSome) :
    (txF (processAck b time).1 = txF { b with repeatTel := true, waitForAck := false } ∧
      (processAck b time).2.1 = [] ∧ isAck b = false ∧ b.sendRetries < b.sendRetriesMax ∧
      b.sendBusyRetries < b.sendBusyRetriesMax) ∨
    ((processAck b time).1.sendCur = none ∧
      (processAck b time).2.1 =
        [.finished (isAck b && b.txError &&& 128#16 == 0#16)] ∧
      (isAck b = false →
        b.sendRetriesMax ≤ b.sendRetries ∨ b.sendBusyRetriesMax ≤ b.sendBusyRetries) ∧
      (processAck b time).1.sendRetriesMax = b.sendRetriesMax ∧
      (processAck b time).1.sendBusyRetriesMax = b.sendBusyRetriesMax ∧
      (processAck b time).1.txError = 0#16 ∧ (processAck b time).1.waitForAck = false) := by
  unfold processAck
  simp only
  split
  · next h =>
    right
    have hs : ∀ c : Bus, c.sendCur = b.sendCur → c.sendCur.isSome := fun c hc => by rw [hc]; exact hw
    by_cases ha : (b.parity && b.currentByte == ackByte.toNat) = true
    · simp only [ha, if_true]
      obtain ⟨f1, f2, f3, f4, f5, f6⟩ := finish_cases { b with
        waitForAck := false, rxError := b.rxError &&& ~~~16#16 } (hs _ rfl)
      refine ⟨f1, ?_, ?_, f3, f4, f5, f6⟩
      · rw [f2]; simp only [isAck, ha, Bool.true_and]
      · intro hn; rw [isAck, ha] at hn; cases hn
    · simp only [ha, Bool.false_eq_true, if_false]
      obtain ⟨f1, f2, f3, f4, f5, f6⟩ := finish_cases { b with
        waitForAck := false, rxError := b.rxError &&& ~~~16#16, txError := b.txError ||| 128#16 }
        (hs _ rfl)
      refine ⟨f1, ?_, ?_, f3, f4, f5, f6⟩
      · rw [f2]
        simp only [retryErr_set, isAck, eq_false_of_ne_true ha, Bool.false_and]
      · intro _
        simp only [ha, Bool.false_or, Bool.or_eq_true, decide_eq_true_eq] at h
        simpa using h
  · next h =>
    left
    simp only [Bool.or_eq_true, decide_eq_true_eq, not_or, Nat.not_le, Bool.not_eq_true] at h
    split <;> exact ⟨rfl, rfl, h.1.1, h.1.2, h.2⟩

theorem processDataFrame_tx (i : Irq) (b : Bus) (time : Nat) :
    txF (processDataFrame i b time).1 = txF b ∧
    (∀ o ∈ (processDataFrame i b time).2.1, neutral o) ∧
    (processDataFrame i b time).1.txError = b.txError := by
  unfold processDataFrame
  by_cases h1 : b.telegramLen ≠ 0 <;> by_cases h2 : alreadyReceived b = true <;>
    by_cases h3 : (!i.llEnabled || (b.rx 0 &&& 0x40#8 != 0#8)) = true <;>
    simp [h1, h2, h3, takeTelegram, show ¬ ackByte = 0#8 by decide, txF, neutral]

theorem processOther_tx (b : Bus) :
    txF (processOther b) = txF b ∧ (processOther b).txError = b.txError := by
  unfold processOther; split <;> exact ⟨rfl, rfl⟩

theorem tail_tx (r : Bus) (m : Nat) :
    txF { (if r.waitForAck then { r with repeatTel := true, waitForAck := false } else r) with
      capInt := true, mTime := m } =
    (if r.waitForAck then txF { r with repeatTel := true, waitForAck := false } else txF r) ∧
    ({ (if r.waitForAck then { r with repeatTel := true, waitForAck := false } else r) with
      capInt := true, mTime := m } : Bus).txError = r.txError := by
  split <;> exact ⟨rfl, rfl⟩

theorem handleTelegram_st (i : Irq) (b : Bus) (v : Bool) :
    (handleTelegram i b v).1.st = .wait50 ∨ (handleTelegram i b v).1.st = .waitAckTx := by
  unfold handleTelegram
  simp only
  have key : ∀ r : Bus, (r.st = .wait50 ∨ r.st = .waitAckTx) →
      (if r.waitForAck then { r with repeatTel := true, waitForAck := false } else r : Bus).st
        = .wait50 ∨
      (if r.waitForAck then { r with repeatTel := true, waitForAck := false } else r : Bus).st
        = .waitAckTx := by
    intro r h
    split <;> exact h
  refine key _ ?_
  split
  · split
    · rcases (processDataFrame_cases i { b with sendAck := 0#8, st := .wait50 }
        (sendWait - preSend)).1 with h | h
      · exact Or.inl h.1
      · exact Or.inr h.1
    · exact Or.inl rfl
  · split
    · exact Or.inl (processAck_cases { b with sendAck := 0#8, st := .wait50 } _).1
    · left; unfold processOther; split <;> rfl

/-- What `handleTelegram` does to the queued telegram. -/
theorem handleTelegram_tx (i : Irq) (b : Bus) (v : Bool) (hw : b.waitForAck → b.sendCur.isSome) :
    (b.waitForAck = false ∧ txF (handleTelegram i b v).1 = txF b ∧
      (∀ o ∈ (handleTelegram i b v).2, neutral o) ∧
      (handleTelegram i b v).1.txError = b.txError) ∨
    (b.waitForAck = true ∧
      txF (handleTelegram i b v).1 = txF { b with repeatTel := true, waitForAck := false } ∧
      (∀ o ∈ (handleTelegram i b v).2, neutral o) ∧
      ¬ (b.nextByteIndex = 1 ∧ isAck b = true)) ∨
    (b.waitForAck = true ∧ b.nextByteIndex = 1 ∧ (handleTelegram i b v).1.sendCur = none ∧
      (handleTelegram i b v).2 = [.finished (isAck b && b.txError &&& 128#16 == 0#16)] ∧
      (isAck b = false →
        b.sendRetriesMax ≤ b.sendRetries ∨ b.sendBusyRetriesMax ≤ b.sendBusyRetries) ∧
      (handleTelegram i b v).1.sendRetriesMax = b.sendRetriesMax ∧
      (handleTelegram i b v).1.sendBusyRetriesMax = b.sendBusyRetriesMax ∧
      (handleTelegram i b v).1.txError = 0#16) := by
  obtain ⟨c, hc⟩ : ∃ c : Bus, { b with sendAck := 0#8, st := .wait50 } = c := ⟨_, rfl⟩
  have c1 : txF c = txF b := by rw [← hc]; rfl
  have c2 : c.waitForAck = b.waitForAck := by rw [← hc]
  have c3 : c.sendCur = b.sendCur := by rw [← hc]
  have c4 : txF { c with repeatTel := true, waitForAck := false } =
    txF { b with repeatTel := true, waitForAck := false } := by rw [← hc]; rfl
  have c5 : isAck c = isAck b := by rw [← hc]; rfl
  have c6 : c.txError = b.txError := by rw [← hc]
  have c7 : c.nextByteIndex = b.nextByteIndex := by rw [← hc]
  have c8 : c.sendRetries = b.sendRetries := by rw [← hc]
  have c9 : c.sendBusyRetries = b.sendBusyRetries := by rw [← hc]
  have c10 : c.sendRetriesMax = b.sendRetriesMax := by rw [← hc]
  have c11 : c.sendBusyRetriesMax = b.sendBusyRetriesMax := by rw [← hc]
  -- the cases that keep the fields
  have keep : ∀ (r : Bus) (outs : List Out) (m : Nat), txF r = txF c → r.txError = c.txError →
      (∀ o ∈ outs, neutral o) → ¬ (b.nextByteIndex = 1 ∧ b.waitForAck = true ∧ isAck b = true) →
      (b.waitForAck = false ∧
        txF { (if r.waitForAck then { r with repeatTel := true, waitForAck := false } else r) with
          capInt := true, mTime := m } = txF b ∧ (∀ o ∈ outs, neutral o) ∧
        ({ (if r.waitForAck then { r with repeatTel := true, waitForAck := false } else r) with
          capInt := true, mTime := m } : Bus).txError = b.txError) ∨
      (b.waitForAck = true ∧
        txF { (if r.waitForAck then { r with repeatTel := true, waitForAck := false } else r) with
          capInt := true, mTime := m } = txF { b with repeatTel := true, waitForAck := false } ∧
        (∀ o ∈ outs, neutral o) ∧ ¬ (b.nextByteIndex = 1 ∧ isAck b = true)) := by
    intro r outs m h1 h2 h3 h4
    obtain ⟨t1, t2⟩ := tail_tx r m
    rw [t1, t2]
    have hrw : r.waitForAck = b.waitForAck := by
      rw [← c2]; exact congrArg (fun x => x.2.2.1) h1
    have h1' := h1
    rw [c1] at h1'
    simp only [txF, Prod.mk.injEq] at h1'
    obtain ⟨g1, g2, g3, g4, g5, g6, g7, g8⟩ := h1'
    cases hb : b.waitForAck
    · left
      rw [if_neg (by rw [hrw, hb]; simp)]
      exact ⟨rfl, h1.trans c1, h3, h2.trans c6⟩
    · right
      rw [if_pos (by rw [hrw, hb])]
      refine ⟨rfl, ?_, h3, fun h => h4 ⟨h.1, hb, h.2⟩⟩
      simp only [txF, g1, g4, g5, g6, g7, g8]
  unfold handleTelegram
  simp only [hc]
  by_cases hd : isDataFrame c v = true
  · simp only [hd, if_true]
    have hidx : b.nextByteIndex ≠ 1 := by
      rw [← c7]
      simp only [isDataFrame, Bool.and_eq_true, decide_eq_true_eq] at hd
      omega
    by_cases hu : forUs i c = true
    · simp only [hu, if_true]
      obtain ⟨p1, p2, p3⟩ := processDataFrame_tx i c (sendWait - preSend)
      rcases keep _ _ ((processDataFrame i c (sendWait - preSend)).2.2 - 1) p1 p3 p2
        (fun h => hidx h.1) with h | h
      · exact Or.inl h
      · exact Or.inr (Or.inl h)
    · simp only [hu, Bool.false_eq_true, if_false]
      rcases keep c [] (sendWait - preSend - 1) rfl rfl (by simp) (fun h => hidx h.1) with h | h
      · exact Or.inl h
      · exact Or.inr (Or.inl h)
  · simp only [hd, Bool.false_eq_true, if_false]
    by_cases hq : b.nextByteIndex = 1 ∧ b.waitForAck = true
    · have hbw : b.waitForAck = true := hq.2
      have hbi : b.nextByteIndex = 1 := hq.1
      simp only [if_pos hq]
      rcases processAck_tx c (sendWait - preSend) (by rw [c3]; exact hw hbw) with
        ⟨p1, p2, p3, p4, p5⟩ | ⟨p1, p2, p3, p4, p5, p6, p7⟩
      · right; left
        have hrw : (processAck c (sendWait - preSend)).1.waitForAck = false :=
          congrArg (fun x => x.2.2.1) p1
        refine ⟨hbw, ?_, ?_, ?_⟩
        · rw [(tail_tx _ _).1, if_neg (by rw [hrw]; simp), p1, c4]
        · rw [p2]; simp
        · rw [← c5, p3]; simp
      · right; right
        rw [if_neg (by rw [p7]; simp)]
        refine ⟨hbw, hbi, p1, ?_, ?_, ?_, ?_, p6⟩
        · rw [p2, c5, c6]
        · rw [← c5, ← c8, ← c9, ← c10, ← c11]; exact p3
        · rw [← c10]; exact p4
        · rw [← c11]; exact p5
    · simp only [if_neg hq]
      obtain ⟨p1, p2⟩ := processOther_tx c
      rcases keep (processOther c) [] (sendWait - preSend - 1) p1 p2 (by simp)
        (fun h => hq ⟨h.1, h.2.1⟩) with h | h
      · exact Or.inl h
      · exact Or.inr (Or.inl h)

theorem initRx_tx (i : Irq) (b : Bus) (hw : i.cap = true ∨ b.waitForAck = false) :
    txF (initRx i b).1 = txF b ∧ (∀ o ∈ (initRx i b).2, neutral o) ∧
    ¬ Sending (initRx i b).1.st ∧ (initRx i b).1.txError = b.txError := by
  unfold initRx waitStart
  cases hc : i.cap
  · have hw' : b.waitForAck = false := by
      rcases hw with h | h
      · rw [hc] at h; cases h
      · exact h
    simp only [Bool.not_false, if_true]
    rw [if_pos (by decide)]
    obtain ⟨c, hcc⟩ : ∃ c : Bus, ({ b with
      nextByteIndex := 0, checksum := 0xff#8, sendAck := 0#8, valid := true, mTime := 0xfffe
      tInt := true, tReset := true, rxError := 0#16 ||| 16#16 } : Bus) = c := ⟨_, rfl⟩
    rw [hcc]
    have c1 : c.waitForAck = false := by rw [← hcc]; exact hw'
    have c2 : txF c = txF b := by rw [← hcc]; rfl
    have c3 : c.txError = b.txError := by rw [← hcc]
    have hst := handleTelegram_st i c (c.valid && c.checksum == 0#8)
    rcases handleTelegram_tx i c (c.valid && c.checksum == 0#8) (by rw [c1]; simp) with
      ⟨_, h1, h2, h3⟩ | ⟨h, _⟩ | ⟨h, _⟩
    · refine ⟨h1.trans c2, ?_, ?_, h3.trans c3⟩
      · intro o ho
        rcases List.mem_cons.1 ho with rfl | ho
        · rfl
        · exact h2 o ho
      · rcases hst with h | h <;> rw [h] <;> exact id
    · rw [c1] at h; cases h
    · rw [c1] at h; cases h
  · simp only [Bool.not_true, Bool.false_eq_true, if_false]
    exact ⟨rfl, by simp [neutral], id, trivial⟩

theorem recvBits_tx (i : Irq) (b : Bus) (hs : ¬ Sending b.st) :
    txF (recvBits i b).1 = txF b ∧ (∀ o ∈ (recvBits i b).2, neutral o) ∧
    ¬ Sending (recvBits i b).1.st ∧ (recvBits i b).1.txError = b.txError := by
  unfold recvBits endOfChar
  cases i.tmo
  · simp only [Bool.false_eq_true, if_false]
    split <;> exact ⟨rfl, by simp, hs, rfl⟩
  · simp only [if_true]
    split <;> exact ⟨rfl, by simp [neutral], id, rfl⟩

theorem collision_tx (b : Bus) (ha : b.sendAck = 0#8) :
    txF (encounteredCollision b).1 = txF { b with collisions := b.collisions + 1#8 } ∧
    (encounteredCollision b).2 = [.collision] ∧
    (NoRetryErr b → NoRetryErr (encounteredCollision b).1) := by
  unfold encounteredCollision
  rw [if_pos ha]
  exact ⟨rfl, rfl, fun h => retryErr_or _ _ h (by decide)⟩

theorem noCollision_tx (b : Bus) (ha : b.sendAck ≠ 0#8) : encounteredCollision b = (b, []) := by
  unfold encounteredCollision
  rw [if_neg ha]

theorem switchToRx_tx (i : Irq) (b : Bus) :
    txF (switchToRx i b).1 = txF (encounteredCollision b).1 ∧
    (∃ l, (switchToRx i b).2 = (encounteredCollision b).2 ++ l ∧ ∀ o ∈ l, neutral o) ∧
    ¬ Sending (switchToRx i b).1.st ∧
    (switchToRx i b).1.txError = (encounteredCollision b).1.txError := by
  unfold switchToRx
  generalize encounteredCollision b = c
  by_cases ha : c.1.sendAck ≠ 0#8
  · simp only [if_pos ha]
    exact ⟨rfl, ⟨_, rfl, by simp [neutral]⟩, id, trivial⟩
  · simp only [if_neg ha]
    cases hc : c.1.sendCur with
    | none => exact ⟨by simp only [txF, hc], ⟨_, rfl, by simp [neutral]⟩, id, rfl⟩
    | some t => exact ⟨by simp only [txF, hc], ⟨_, rfl, by simp [neutral]⟩, id, rfl⟩

/-- What the bit state does to the queued telegram. -/
theorem sendBits_tx (i : Irq) (b : Bus) (hs : b.st = .sendBits) :
    ((∃ l, (sendBits i b).2 = (encounteredCollision b).2 ++ l ∧ ∀ o ∈ l, neutral o) ∧
      txF (sendBits i b).1 = txF (encounteredCollision b).1 ∧ ¬ Sending (sendBits i b).1.st ∧
      (sendBits i b).1.txError = (encounteredCollision b).1.txError) ∨
    ((sendBits i b).2 = [] ∧ txF (sendBits i b).1 = txF b ∧ Sending (sendBits i b).1.st ∧
      (sendBits i b).1.sendAck = b.sendAck ∧
      (sendBits i b).1.nextByteIndex = b.nextByteIndex ∧
      (sendBits i b).1.sendTelegramLen = b.sendTelegramLen ∧
      (sendBits i b).1.txError = b.txError) := by
  have hsb : Sending b.st := by rw [hs]; trivial
  unfold sendBits
  by_cases ht : (!i.tmo) = true
  · rw [if_pos ht]
    by_cases h1 : i.capVal < 3
    · rw [if_pos h1]
      exact Or.inr ⟨rfl, rfl, hsb, rfl, rfl, rfl, rfl⟩
    · rw [if_neg h1]
      by_cases h2 : i.capVal % bitTimeUs < bitWaitUs - 7
      · rw [if_pos h2]
        exact Or.inl ⟨⟨[], by simp, by simp⟩, rfl, id, rfl⟩
      · rw [if_neg h2]
        by_cases h3 : i.capVal < usub b.mPwm 7
        · rw [if_pos h3]
          obtain ⟨r1, ⟨l, r2, r3⟩, r4, r5⟩ := switchToRx_tx i b
          obtain ⟨s1, s2, s3, s4⟩ := recvBits_tx i (switchToRx i b).1 r4
          refine Or.inl ⟨⟨l ++ (recvBits i (switchToRx i b).1).2, ?_, ?_⟩, s1.trans r1, s3,
            s4.trans r5⟩
          · simp only [r2, List.append_assoc]
          · intro o ho
            rcases List.mem_append.1 ho with ho | ho
            · exact r3 o ho
            · exact s2 o ho
        · rw [if_neg h3]
          exact Or.inr ⟨rfl, rfl, hsb, rfl, rfl, rfl, rfl⟩
  · rw [if_neg ht]
    right
    by_cases hm : b.bitMask ≤ 0x200
    · rw [if_pos hm]
      exact ⟨rfl, rfl, hsb, rfl, rfl, rfl, rfl⟩
    · rw [if_neg hm]
      unfold sendEndByte
      split
      · exact ⟨rfl, rfl, trivial, rfl, rfl, rfl, rfl⟩
      · exact ⟨rfl, rfl, trivial, rfl, rfl, rfl, rfl⟩

theorem neutral_append {l m : List Out} (h1 : ∀ o ∈ l, neutral o) (h2 : ∀ o ∈ m, neutral o) :
    ∀ o ∈ l ++ m, neutral o := by
  intro o ho
  rcases List.mem_append.1 ho with ho | ho
  · exact h1 o ho
  · exact h2 o ho

theorem sendBits_step (i : Irq) (b : Bus) (hs : b.st = .sendBits) :
    TxStep b (sendBits i b).2 (sendBits i b).1 := by
  have hsb : Sending b.st := by rw [hs]; trivial
  rcases sendBits_tx i b hs with ⟨⟨l, h1, h2⟩, h3, h4, _⟩ | ⟨h1, h2, h3, h4, h5, h6, _⟩
  · by_cases ha : b.sendAck = 0#8
    · obtain ⟨c1, c2, _⟩ := collision_tx b ha
      rw [c2] at h1
      exact .lost ⟨hsb, ha⟩ [] l (h3.trans c1) h1 (by simp) h2 (notSendNow h4)
    · rw [noCollision_tx b ha] at h1 h3
      exact .other h3 (by rw [h1]; simpa using h2) (notSendNow h4)
  · by_cases ha : b.sendAck = 0#8
    · exact .same ⟨hsb, ha⟩ h2 h1 ⟨h3, h4.trans ha⟩ h5 h6
    · exact .other h2 (by rw [h1]; simp) (fun h => ha (h4.symm.trans h.2))

theorem sendBit0_step (i : Irq) (b : Bus) (hs : Sending b.st)
    (hcur : b.sendAck = 0#8 → ∃ t, b.sendCur = some t) :
    TxStep b (sendBit0 i b).2 (sendBit0 i b).1 := by
  unfold sendBit0
  by_cases ha : b.sendAck = 0#8
  · obtain ⟨t, ht⟩ := hcur ha
    have hpar := (pulses_char (t b.nextByteIndex)).2
    simp only [ha, ne_eq, not_true_eq_false, if_false, ht]
    obtain ⟨c, hc⟩ : ∃ c : Bus, ({ b with
      nextByteIndex := b.nextByteIndex + 1
      currentByte := withParity (t b.nextByteIndex).toNat, bitMask := 1, st := .sendBits } : Bus) = c :=
      ⟨_, rfl⟩
    have hc0 : ({ b with
      sendAck := 0#8, sendCur := some t, nextByteIndex := b.nextByteIndex + 1
      currentByte := withParity (t b.nextByteIndex).toNat, bitMask := 1, st := .sendBits } : Bus) = c := by
      rw [← hc, ← ha, ← ht]
    have c1 : txF c = txF b := by rw [← hc]; rfl
    have c2 : c.sendAck = 0#8 := by rw [← hc]; exact ha
    have c3 : c.nextByteIndex = b.nextByteIndex + 1 := by rw [← hc]
    have c4 : c.sendTelegramLen = b.sendTelegramLen := by rw [← hc]
    have c5 : c.st = .sendBits := by rw [← hc]
    have c6 : txF { c with collisions := c.collisions + 1#8 } =
      txF { b with collisions := b.collisions + 1#8 } := by rw [← hc]; rfl
    simp only [hc0]
    rcases sendBits_tx i c c5 with ⟨⟨l, h1, h2⟩, h3, h4, _⟩ | ⟨h1, h2, h3, h4, h5, h6, _⟩
    · obtain ⟨d1, d2, _⟩ := collision_tx c c2
      rw [d2] at h1
      refine .lost ⟨hs, ha⟩ [.txChar (t b.nextByteIndex)
        ((withParity (t b.nextByteIndex).toNat).testBit 8)] l (h3.trans (d1.trans c6)) ?_
        (by simp [neutral]) h2 (notSendNow h4)
      rw [h1]
      rfl
    · refine .char ⟨hs, ha⟩ t ht (h2.trans c1) ?_ ⟨h3, h4.trans c2⟩ (h5.trans c3) (h6.trans c4)
      rw [h1, hpar]
  · simp only [ha, ne_eq, not_false_eq_true, if_true]
    obtain ⟨c, hc⟩ : ∃ c : Bus, ({ b with
      currentByte := withParity b.sendAck.toNat, bitMask := 1, st := .sendBits } : Bus) = c :=
      ⟨_, rfl⟩
    have c1 : txF c = txF b := by rw [← hc]; rfl
    have c2 : c.sendAck ≠ 0#8 := by rw [← hc]; exact ha
    have c5 : c.st = .sendBits := by rw [← hc]
    simp only [hc]
    rcases sendBits_tx i c c5 with ⟨⟨l, h1, h2⟩, h3, h4, _⟩ | ⟨h1, h2, h3, h4, h5, h6, _⟩
    · rw [noCollision_tx c c2] at h1 h3
      refine .other (h3.trans c1) ?_ (notSendNow h4)
      rw [h1]
      intro o ho
      rcases List.mem_cons.1 ho with rfl | ho
      · rfl
      · exact h2 o ho
    · refine .other (h2.trans c1) ?_ (fun h => c2 (h4.symm.trans h.2))
      rw [h1]
      simp [neutral]

theorem wait50_step (i : Irq) (b : Bus) (h : Inv b) (hs : b.st = .wait50) :
    TxStep b (wait50 i b).2 (wait50 i b).1 := by
  unfold wait50
  cases hc : i.cap
  · simp only [Bool.false_eq_true, if_false]
    have ha : b.sendAck = 0#8 := sendAck_zero h (by rw [hs]; decide) (by rw [hs]; decide)
    cases hx : retriesExhausted b
    · simp only [Bool.false_eq_true, if_false]
      cases ht : b.sendCur with
      | none =>
        refine .other ?_ (by simp) (notSendNow id)
        simp only [txF, idleState, ht]
      | some t => exact .begin t ht hx rfl rfl ⟨trivial, ha⟩ rfl
    · simp only [if_true]
      have hcur : b.sendCur.isSome := by
        cases ht : b.sendCur with
        | some t => rfl
        | none =>
          obtain ⟨f1, f2, _, _⟩ := h.fresh ht
          rw [retriesExhausted, f1, f2] at hx
          simp at hx
      obtain ⟨f1, f2, f3, f4, f5, f6⟩ := finish_cases { b with txError := b.txError ||| 128#16 } hcur
      simp only [f1, f2, retryErr_set]
      exact .finish false hcur f1 rfl (by simp) (fun _ => Or.inl ⟨hx, hs⟩) ⟨f3, f4⟩ (notSendNow id)
  · obtain ⟨h1, h2, h3, _⟩ := initRx_tx i b (Or.inl hc)
    exact .other h1 h2 (notSendNow h3)

theorem waitStart_step (i : Irq) (b : Bus) (h : Inv b) (hn : NoRetryErr b)
    (hs : b.st = .waitStart) :
    TxStep b (waitStart i b).2 (waitStart i b).1 := by
  unfold waitStart
  cases hc : i.cap
  · simp only [Bool.not_false, if_true]
    obtain ⟨c, hcc⟩ : ∃ c : Bus, (if b.checksum ≠ 0#8 then ({ b with
      mTime := 0xfffe, tInt := true, tReset := true, rxError := b.rxError ||| 16#16 } : Bus)
      else { b with mTime := 0xfffe, tInt := true, tReset := true }) = c := ⟨_, rfl⟩
    rw [hcc]
    have e : ∃ x, c = { b with mTime := 0xfffe, tInt := true, tReset := true, rxError := x } := by
      rw [← hcc]; split
      · exact ⟨_, rfl⟩
      · exact ⟨b.rxError, rfl⟩
    obtain ⟨x, e⟩ := e
    have hst := handleTelegram_st i c (c.valid && c.checksum == 0#8)
    have hns : ¬ SendNow (handleTelegram i c (c.valid && c.checksum == 0#8)).1 := by
      apply notSendNow
      rcases hst with e | e <;> rw [e] <;> exact id
    have c1 : txF c = txF b := by rw [e]; rfl
    have c2 : txF { c with repeatTel := true, waitForAck := false } =
      txF { b with repeatTel := true, waitForAck := false } := by rw [e]; rfl
    rcases handleTelegram_tx i c (c.valid && c.checksum == 0#8)
      (by rw [e]; exact fun hw => (h.waitSt hw).2) with
      ⟨_, h1, h2, _⟩ | ⟨h0, h1, h2, _⟩ | ⟨h0, h1, h2, h3, h4, h5, h6, h7⟩
    · exact .other (h1.trans c1) h2 hns
    · exact .noAck (by rw [e] at h0; exact h0) (h1.trans c2) h2 hns
    · have g0 : b.waitForAck = true := by rw [e] at h0; exact h0
      have g1 : b.nextByteIndex = 1 := by rw [e] at h1; exact h1
      have g3 : isAck c = isAck b := by rw [e]; rfl
      have g4 : (c.txError &&& 128#16 == 0#16) = true := by rw [e, beq_iff_eq]; exact hn
      rw [g4, Bool.and_true, g3] at h3
      rw [g3] at h4
      refine .finish _ (h.waitSt g0).2 h2 h3 ?_ ?_ ?_ hns
      · intro hok
        rw [isAck, Bool.and_eq_true, beq_iff_eq] at hok
        exact ⟨hs, g1, g0, hok.1, hok.2⟩
      · intro hok
        have := h4 hok
        rw [e] at this
        exact Or.inr ⟨g0, this⟩
      · rw [h5, h6, e]; exact ⟨rfl, rfl⟩
  · exact .other rfl (by simp) (notSendNow id)

theorem sendStart_step (i : Irq) (b : Bus) (h : Inv b) (hs : b.st = .sendStart) :
    TxStep b (sendStart i b).2 (sendStart i b).1 := by
  have hsb : Sending b.st := by rw [hs]; trivial
  have hw : b.waitForAck = false := waitForAck_false h hsb
  unfold sendStart
  by_cases ht : (!i.tmo) = true
  · rw [if_pos ht]
    by_cases h1 : i.capVal < usub b.mPwm 30
    · rw [if_pos h1]
      by_cases hz : b.nextByteIndex ≠ 0
      · simp only [if_pos hz]
        have ha : b.sendAck = 0#8 := by
          by_cases ha : b.sendAck = 0#8
          · exact ha
          · exact absurd (h.ackIdx ha hsb) hz
        obtain ⟨c1, c2, _⟩ := collision_tx b ha
        have hwc : (encounteredCollision b).1.waitForAck = false := by
          unfold encounteredCollision; rw [if_pos ha]; exact hw
        obtain ⟨r1, r2, r3, _⟩ := initRx_tx i { (encounteredCollision b).1 with mPwm := 0xffff }
          (Or.inr hwc)
        rw [c2]
        exact .lost ⟨hsb, ha⟩ [] _ (r1.trans c1) rfl (by simp) r2 (notSendNow r3)
      · simp only [if_neg hz]
        obtain ⟨r1, r2, r3, _⟩ := initRx_tx i { b with mPwm := 0xffff } (Or.inr hw)
        exact .other r1 r2 (notSendNow r3)
    · rw [if_neg h1]
      have key : ∀ c : Bus, txF c = txF b → c.sendAck = b.sendAck →
          c.nextByteIndex = b.nextByteIndex → c.sendTelegramLen = b.sendTelegramLen →
          TxStep b [] { c with st := .sendBit0 } := by
        intro c e1 e2 e3 e4
        by_cases ha : b.sendAck = 0#8
        · exact .same ⟨hsb, ha⟩ e1 rfl ⟨trivial, e2.trans ha⟩ e3 e4
        · exact .other e1 (by simp) (fun hn => ha (e2.symm.trans hn.2))
      split
      · exact key { b with mPwm := i.now + 1, mTime := i.capVal + (bitPulseUs - 1) } rfl rfl rfl rfl
      · exact key b rfl rfl rfl rfl
  · rw [if_neg ht]
    obtain ⟨c, hc⟩ : ∃ c : Bus, ({ b with
      st := .sendBit0, txError := b.txError ||| 32#16 } : Bus) = c := ⟨_, rfl⟩
    rw [hc]
    have hst := sendBit0_step i c (by rw [← hc]; trivial) (by
      rw [← hc]
      intro ha
      obtain ⟨t, h1, _⟩ := h.cur hsb ha
      exact ⟨t, h1⟩)
    have d1 : txF c = txF b := by rw [← hc]; rfl
    have d2 : SendNow c → SendNow b := by rw [← hc]; exact fun x => ⟨hsb, x.2⟩
    have d3 : c.nextByteIndex = b.nextByteIndex := by rw [← hc]
    have d4 : c.sendTelegramLen = b.sendTelegramLen := by rw [← hc]
    have d5 : c.sendCur = b.sendCur := by rw [← hc]
    have d6 : txF { c with collisions := c.collisions + 1#8 } =
      txF { b with collisions := b.collisions + 1#8 } := by rw [← hc]; rfl
    have d7 : c.waitForAck = false := by rw [← hc]; exact hw
    have d8 : c.st = .sendBit0 := by rw [← hc]
    cases hst with
    | other h1 h2 h3 => exact .other (h1.trans d1) h2 h3
    | same h0 h1 h2 h3 h4 h5 =>
      exact .same (d2 h0) (h1.trans d1) h2 h3 (h4.trans d3) (h5.trans d4)
    | char h0 t ht h1 h2 h3 h4 h5 =>
      rw [d3] at h2 h4
      exact .char (d2 h0) t (d5 ▸ ht) (h1.trans d1) h2 h3 h4 (h5.trans d4)
    | begin t ht hx h1 h2 h3 h4 =>
      exfalso
      unfold sendBit0 at h2
      cases h2
    | done h0 hs' h1 h2 h3 => rw [d8] at hs'; cases hs'
    | lost h0 p l h1 h2 hp hl h3 => exact .lost (d2 h0) p l (h1.trans d6) h2 hp hl h3
    | noAck h0 h1 h2 h3 => rw [d7] at h0; cases h0
    | finish ok h0 h1 h2 h3 h4 h5 h6 =>
      exfalso
      unfold sendBit0 at h2
      cases h2

theorem sendEndTx_step (b : Bus) (h : Inv b) (hs : b.st = .sendEndTx) :
    TxStep b (sendEndTx b).2 (sendEndTx b).1 := by
  have hsb : Sending b.st := by rw [hs]; trivial
  unfold sendEndTx
  by_cases ha : b.sendAck = 0#8
  · rw [if_neg (by simp [ha])]
    refine .done ⟨hsb, ha⟩ hs ?_ rfl ?_
    · cases hr : b.repeatTel <;> cases hw : b.busyWait <;> simp [txF, counted, hr, hw]
    · cases hr : b.repeatTel <;> cases hw : b.busyWait <;> simp [hr, hw]
  · rw [if_pos ha]
    exact .other rfl (by simp [neutral]) (notSendNow id)

theorem dispatch_tx (i : Irq) (b : Bus) (h : Inv b) (hn : NoRetryErr b) :
    TxStep b (dispatch i b).2 (dispatch i b).1 := by
  unfold dispatch
  cases hs : b.st <;> simp only [hs]
  case init =>
    unfold initSt
    split
    · exact .other rfl (by simp) (notSendNow (by simp only [hs]; exact id))
    · simp only
      split
      · next hc =>
        unfold wait50
        rw [if_pos hc]
        obtain ⟨h1, h2, h3, _⟩ := initRx_tx i ({ b with
          mTime := delayBits 2 + sendWait - preSend, tInt := true, tReset := true
          st := .wait50 } : Bus) (Or.inl hc)
        exact .other h1 h2 (notSendNow h3)
      · exact .other rfl (by simp) (notSendNow id)
  case idle =>
    split
    · next hc =>
      obtain ⟨h1, h2, h3, _⟩ := initRx_tx i b (Or.inl hc)
      exact .other h1 h2 (notSendNow h3)
    · exact .other rfl (by simp) (notSendNow (by rw [hs]; exact id))
  case initRx => exact absurd hs h.noInitRx
  case waitStart => exact waitStart_step i b h hn hs
  case recvBits =>
    obtain ⟨h1, h2, h3, _⟩ := recvBits_tx i b (by rw [hs]; exact id)
    exact .other h1 h2 (notSendNow h3)
  case waitAckTx =>
    unfold waitAckTx
    split
    · next hc =>
      obtain ⟨h1, h2, h3, _⟩ := initRx_tx i { b with sendAck := 0#8 } (Or.inl hc)
      exact .other h1 h2 (notSendNow h3)
    · exact .other rfl (by simp [neutral]) (fun hx => h.ackTx hs hx.2)
  case wait50 => exact wait50_step i b h hs
  case sendStart => exact sendStart_step i b h hs
  case sendBit0 =>
    refine sendBit0_step i b (by rw [hs]; trivial) ?_
    intro ha
    obtain ⟨t, h1, _⟩ := h.cur (by rw [hs]; trivial) ha
    exact ⟨t, h1⟩
  case sendBits => exact sendBits_step i b hs
  case sendEndByte => exact absurd hs h.noEndByte
  case sendEndTx => exact sendEndTx_step b h hs
  case ackWindow => exact .other rfl (by simp [ackWindow]) (notSendNow id)
  case waitAck =>
    unfold waitAck
    split
    · next hc =>
      obtain ⟨h1, h2, h3, _⟩ := initRx_tx i b (Or.inl hc)
      exact .other h1 h2 (notSendNow h3)
    · exact .noAck (h.stWait (Or.inr hs)) rfl (by simp) (notSendNow id)

theorem isr_tx (i : Irq) (b : Bus) (h : Inv b) (hn : NoRetryErr b) :
    TxStep b (isr i b).2 (isr i b).1 := by
  unfold isr
  split
  · by_cases hs : SendNow b
    · exact .same hs rfl rfl hs rfl rfl
    · exact .other rfl (by simp) hs
  · have := dispatch_tx i { b with tSet := none } (h.congr rfl) hn
    cases this with
    | other h1 h2 h3 => exact .other h1 h2 h3
    | same h0 h1 h2 h3 h4 h5 => exact .same h0 h1 h2 h3 h4 h5
    | char h0 t ht h1 h2 h3 h4 h5 => exact .char h0 t ht h1 h2 h3 h4 h5
    | begin t ht hx h1 h2 h3 h4 => exact .begin t ht hx h1 h2 h3 h4
    | done h0 hs' h1 h2 h3 => exact .done h0 hs' h1 h2 h3
    | lost h0 p l h1 h2 hp hl h3 => exact .lost h0 p l h1 h2 hp hl h3
    | noAck h0 h1 h2 h3 => exact .noAck h0 h1 h2 h3
    | finish ok h0 h1 h2 h3 h4 h5 h6 => exact .finish ok h0 h1 h2 h3 h4 h5 h6

/-! ## The error flag of exhausted retries -/

theorem finish_err (b : Bus) : NoRetryErr (finishSendingTelegram b).1 := by
  unfold finishSendingTelegram
  split <;> exact (rfl : (0#16 &&& 128#16) = 0#16)

theorem processAck_err (b : Bus) (time : Nat) (h : NoRetryErr b) :
    NoRetryErr (processAck b time).1 := by
  unfold processAck
  simp only
  split
  · exact finish_err _
  · split
    · exact retryErr_or _ _ h (by decide)
    · exact retryErr_or _ _ h (by decide)

theorem handleTelegram_err (i : Irq) (b : Bus) (v : Bool) (h : NoRetryErr b) :
    NoRetryErr (handleTelegram i b v).1 := by
  have key : ∀ (r : Bus) (m : Nat), NoRetryErr r → NoRetryErr
      ({ (if r.waitForAck then { r with repeatTel := true, waitForAck := false } else r) with
        capInt := true, mTime := m } : Bus) := by
    intro r m hr
    show ({ (if r.waitForAck then { r with repeatTel := true, waitForAck := false } else r) with
      capInt := true, mTime := m } : Bus).txError &&& _ = _
    rw [(tail_tx r m).2]
    exact hr
  have hb : NoRetryErr { b with sendAck := 0#8, st := .wait50 } := h
  unfold handleTelegram
  apply key
  split
  · split
    · show _ &&& _ = _
      rw [(processDataFrame_tx _ _ _).2.2]
      exact h
    · exact h
  · split
    · exact processAck_err _ _ hb
    · show _ &&& _ = _
      rw [(processOther_tx _).2]
      exact h

theorem waitStart_err (i : Irq) (b : Bus) (h : NoRetryErr b) : NoRetryErr (waitStart i b).1 := by
  unfold waitStart
  cases i.cap
  · simp only [Bool.not_false, if_true]
    apply handleTelegram_err
    split <;> exact h
  · exact h

theorem initRx_err (i : Irq) (b : Bus) (h : NoRetryErr b) : NoRetryErr (initRx i b).1 := by
  unfold initRx
  exact waitStart_err i _ h

theorem collision_err (b : Bus) (h : NoRetryErr b) : NoRetryErr (encounteredCollision b).1 := by
  unfold encounteredCollision
  split
  · exact retryErr_or _ _ h (by decide)
  · exact h

theorem sendBits_err (i : Irq) (b : Bus) (h : NoRetryErr b) (hs : b.st = .sendBits) :
    NoRetryErr (sendBits i b).1 := by
  rcases sendBits_tx i b hs with ⟨_, _, _, h4⟩ | ⟨_, _, _, _, _, _, h7⟩
  · show _ &&& _ = _
    rw [h4]
    exact collision_err b h
  · show _ &&& _ = _
    rw [h7]
    exact h

theorem sendBit0_err (i : Irq) (b : Bus) (h : NoRetryErr b) : NoRetryErr (sendBit0 i b).1 := by
  unfold sendBit0
  simp only
  apply sendBits_err _ _ _ rfl
  split <;> exact h

theorem wait50_err (i : Irq) (b : Bus) (h : NoRetryErr b) : NoRetryErr (wait50 i b).1 := by
  unfold wait50
  cases i.cap
  · simp only [Bool.false_eq_true, if_false]
    cases retriesExhausted b
    · simp only [Bool.false_eq_true, if_false]
      cases b.sendCur
      · exact h
      · exact (rfl : (0#16 &&& 128#16) = 0#16)
    · simp only [if_true, finish_sendCur]
      exact finish_err _
  · exact initRx_err i b h

theorem dispatch_err (i : Irq) (b : Bus) (h : NoRetryErr b) : NoRetryErr (dispatch i b).1 := by
  unfold dispatch
  cases hs : b.st <;> simp only [hs]
  case init =>
    unfold initSt
    split
    · exact h
    · simp only
      split
      · exact wait50_err i _ h
      · exact h
  case idle =>
    split
    · exact initRx_err i b h
    · exact h
  case initRx => exact initRx_err i b h
  case waitStart => exact waitStart_err i b h
  case recvBits =>
    show _ &&& _ = _
    rw [(recvBits_tx i b (by rw [hs]; exact id)).2.2.2]
    exact h
  case waitAckTx =>
    unfold waitAckTx
    split
    · exact initRx_err i _ h
    · exact (rfl : (0#16 &&& 128#16) = 0#16)
  case wait50 => exact wait50_err i b h
  case sendStart =>
    unfold sendStart
    split
    · split
      · simp only
        apply initRx_err
        split
        · exact collision_err b h
        · exact h
      · simp only; split <;> exact h
    · exact sendBit0_err i _ (retryErr_or _ _ h (by decide))
  case sendBit0 => exact sendBit0_err i b h
  case sendBits => exact sendBits_err i b h hs
  case sendEndByte => unfold sendEndByte; split <;> exact h
  case sendEndTx =>
    unfold sendEndTx
    split
    · exact h
    · simp only; split
      · split <;> exact h
      · exact h
  case ackWindow => exact h
  case waitAck =>
    unfold waitAck
    split
    · exact initRx_err i b h
    · exact retryErr_or _ _ h (by decide)

theorem step_err (s : Sys) (e : Ev) (h : NoRetryErr s.bus) : NoRetryErr (step s e).1.bus := by
  cases e <;> simp only [step]
  case irq i =>
    split
    · exact h
    · unfold isr
      simp only
      split
      · exact h
      · exact dispatch_err i _ h
  case queue => split <;> exact h
  case kick => split <;> exact h
  case discard => exact h
  case pause => split <;> exact h
  case resume => split <;> exact h
  case maxRetries => exact h
  case maxBusyRetries => exact h

theorem run_err (s : Sys) (es : List Ev) (h : NoRetryErr s.bus) : NoRetryErr (run s es).1.bus := by
  induction es generalizing s with
  | nil => exact h
  | cons e es ih => exact ih _ (step_err s e h)

end Verif.Bus
