import Verif.Bus.Spec
import Verif.Bus.Lemmas

/-!
# Reception: what the receive buffer holds, what is delivered
-/

namespace Verif.Bus

open Verif.Knx

/-! ## Outputs -/

theorem handleTelegram_outs (i : Irq) (b : Bus) (v : Bool) :
    (handleTelegram i b v).2 =
      if isDataFrame b v = true then
        if forUs i b = true ∧ b.telegramLen = 0 ∧ alreadyReceived b = false then
          [.deliver (bytes b.rx b.nextByteIndex)] else []
      else if b.nextByteIndex = 1 ∧ b.waitForAck = true then
        (processAck { b with sendAck := 0#8, st := .wait50 } (sendWait - preSend)).2.1
      else [] := by
  have e1 : isDataFrame { b with sendAck := 0#8, st := .wait50 } v = isDataFrame b v := rfl
  have e2 : forUs i { b with sendAck := 0#8, st := .wait50 } = forUs i b := rfl
  have e3 : alreadyReceived { b with sendAck := 0#8, st := .wait50 } = alreadyReceived b := rfl
  unfold handleTelegram
  simp only [e1, e2]
  by_cases h1 : isDataFrame b v = true
  · rw [if_pos h1, if_pos h1]
    by_cases h2 : forUs i b = true
    · rw [if_pos h2]
      unfold processDataFrame
      simp only [e3]
      by_cases h3 : b.telegramLen ≠ 0
      · simp only [h3, ne_eq, not_false_eq_true, if_true, false_and, and_false, if_false]
        split <;> (split <;> rfl)
      · have h3' : b.telegramLen = 0 := by omega
        cases h4 : alreadyReceived b
        · simp only [h3', h2, h4, ne_eq, not_true_eq_false, if_false, and_self, if_true,
            Bool.false_eq_true]
          split <;> (split <;> rfl)
        · simp only [h3', h4, ne_eq, not_true_eq_false, if_false, if_true,
            Bool.true_eq_false, and_false]
          split <;> (split <;> rfl)
    · rw [if_neg h2, if_neg (by simp [h2])]
  · rw [if_neg h1, if_neg h1]
    by_cases h2 : b.nextByteIndex = 1 ∧ b.waitForAck = true
    · rw [if_pos h2, if_pos h2]
    · rw [if_neg h2, if_neg h2]

theorem finish_outs (b : Bus) :
    (finishSendingTelegram b).2 =
      if b.sendCur.isSome then [.finished (b.txError &&& 128#16 == 0#16)] else [] := by
  unfold finishSendingTelegram
  cases b.sendCur <;> rfl

theorem finish_outs_cases (b : Bus) :
    (finishSendingTelegram b).2 = [] ∨ ∃ ok, (finishSendingTelegram b).2 = [.finished ok] := by
  rw [finish_outs]
  split
  · exact Or.inr ⟨_, rfl⟩
  · exact Or.inl rfl

theorem processAck_outs (b : Bus) (time : Nat) :
    (processAck b time).2.1 = [] ∨ ∃ ok, (processAck b time).2.1 = [.finished ok] := by
  unfold processAck
  simp only
  split
  · exact finish_outs_cases _
  · split <;> exact Or.inl rfl

/-- `deliver` comes out of `handleTelegram` only. -/
theorem handleTelegram_deliver {i : Irq} {b : Bus} {v : Bool} {f : List Byte}
    (h : Out.deliver f ∈ (handleTelegram i b v).2) :
    isDataFrame b v = true ∧ forUs i b = true ∧ b.telegramLen = 0 ∧ alreadyReceived b = false ∧
    f = bytes b.rx b.nextByteIndex ∧ (handleTelegram i b v).2 = [.deliver f] := by
  have e := handleTelegram_outs i b v
  by_cases h1 : isDataFrame b v = true
  · rw [if_pos h1] at e
    by_cases h2 : forUs i b = true ∧ b.telegramLen = 0 ∧ alreadyReceived b = false
    · rw [if_pos h2] at e
      rw [e] at h ⊢
      simp at h
      exact ⟨h1, h2.1, h2.2.1, h2.2.2, h, by rw [h]⟩
    · rw [if_neg h2] at e
      rw [e] at h; simp at h
  · rw [if_neg h1] at e
    rw [e] at h
    split at h
    · rcases processAck_outs { b with sendAck := 0#8, st := .wait50 } (sendWait - preSend) with
        hp | ⟨ok, hp⟩ <;> rw [hp] at h <;> simp at h
    · simp at h

/-- A frame that ends. -/
theorem waitStart_deliver {i : Irq} {b : Bus} {f : List Byte}
    (h : Out.deliver f ∈ (waitStart i b).2) :
    i.cap = false ∧ isDataFrame b (b.valid && b.checksum == 0#8) = true ∧ forUs i b = true ∧
    b.telegramLen = 0 ∧ alreadyReceived b = false ∧ f = bytes b.rx b.nextByteIndex ∧
    (waitStart i b).2 = [.deliver f] := by
  unfold waitStart at h ⊢
  cases hc : i.cap
  · simp only [hc, Bool.not_false, if_true] at h ⊢
    refine ⟨trivial, ?_⟩
    split at h
    · next hz =>
      rw [if_pos hz]
      exact handleTelegram_deliver h
    · next hz =>
      rw [if_neg hz]
      exact handleTelegram_deliver h
  · simp [hc] at h

theorem initRx_no_deliver {i : Irq} {b : Bus} {f : List Byte} : Out.deliver f ∉ (initRx i b).2 := by
  intro h
  unfold initRx at h
  simp only [List.mem_cons, reduceCtorEq, false_or] at h
  have := (waitStart_deliver h).2.1
  simp [isDataFrame] at this

theorem recvBits_outs (i : Irq) (b : Bus) :
    (recvBits i b).2 = [] ∨ ∃ c p, (recvBits i b).2 = [.rxChar c p] := by
  unfold recvBits
  simp only
  split
  · exact Or.inr ⟨_, _, rfl⟩
  · split <;> exact Or.inl rfl

theorem encounteredCollision_outs (b : Bus) :
    (encounteredCollision b).2 = [] ∨ (encounteredCollision b).2 = [.collision] := by
  unfold encounteredCollision
  split
  · exact Or.inr rfl
  · exact Or.inl rfl

theorem switchToRx_outs (i : Irq) (b : Bus) :
    ∃ cs, (switchToRx i b).2 = (encounteredCollision b).2 ++ .rxBegin :: rxChars cs := by
  unfold switchToRx
  simp only
  split
  · exact ⟨[], rfl⟩
  · split
    · next t ht =>
      refine ⟨(bytes t ((encounteredCollision b).1.nextByteIndex - 1)).map fun x => (x, true), ?_⟩
      simp [rxChars]
    · exact ⟨[], rfl⟩

theorem sendBits_no_deliver {i : Irq} {b : Bus} {f : List Byte} :
    Out.deliver f ∉ (sendBits i b).2 := by
  intro h
  unfold sendBits at h
  split at h
  · split at h
    · simp at h
    · split at h
      · rcases encounteredCollision_outs b with e | e <;> simp [e] at h
      · split at h
        · simp only [List.mem_append] at h
          rcases h with h | h
          · obtain ⟨cs, hcs⟩ := switchToRx_outs i b
            rw [hcs] at h
            rcases encounteredCollision_outs b with e | e <;> rw [e] at h <;>
              simp [rxChars] at h
          · rcases recvBits_outs i (switchToRx i b).1 with e | ⟨c, p, e⟩ <;> rw [e] at h <;>
              simp at h
        · simp at h
  · split at h
    · simp at h
    · unfold sendEndByte at h
      split at h <;> simp at h

theorem sendBit0_no_deliver {i : Irq} {b : Bus} {f : List Byte} :
    Out.deliver f ∉ (sendBit0 i b).2 := by
  intro h
  unfold sendBit0 at h
  simp only [List.mem_cons, reduceCtorEq, false_or] at h
  exact sendBits_no_deliver h

theorem wait50_no_deliver {i : Irq} {b : Bus} {f : List Byte} :
    Out.deliver f ∉ (wait50 i b).2 := by
  intro h
  unfold wait50 at h
  split at h
  · exact initRx_no_deliver h
  · simp only at h
    by_cases hx : retriesExhausted b = true
    · simp only [hx, if_true, finish_sendCur, finish_outs] at h
      split at h <;> simp at h
    · simp only [hx, Bool.false_eq_true, if_false] at h
      split at h <;> simp at h

theorem dispatch_deliver {i : Irq} {b : Bus} {f : List Byte}
    (h : Out.deliver f ∈ (dispatch i b).2) :
    b.st = .waitStart ∧ i.cap = false ∧
    isDataFrame b (b.valid && b.checksum == 0#8) = true ∧ forUs i b = true ∧
    b.telegramLen = 0 ∧ alreadyReceived b = false ∧ f = bytes b.rx b.nextByteIndex ∧
    (dispatch i b).2 = [.deliver f] := by
  unfold dispatch at h ⊢
  cases hs : b.st <;> simp only [hs] at h ⊢
  case waitStart => exact ⟨trivial, waitStart_deliver h⟩
  case init =>
    unfold initSt at h
    split at h
    · simp at h
    · simp only at h
      split at h
      · exact absurd h wait50_no_deliver
      · simp at h
  case idle =>
    split at h
    · exact absurd h initRx_no_deliver
    · simp at h
  case initRx => exact absurd h initRx_no_deliver
  case recvBits =>
    rcases recvBits_outs i b with e | ⟨c, p, e⟩ <;> rw [e] at h <;> simp at h
  case waitAckTx =>
    unfold waitAckTx at h
    split at h
    · exact absurd h initRx_no_deliver
    · simp at h
  case wait50 => exact absurd h wait50_no_deliver
  case sendStart =>
    unfold sendStart at h
    split at h
    · split at h
      · simp only [List.mem_append] at h
        rcases h with h | h
        · split at h
          · rcases encounteredCollision_outs b with e | e <;> rw [e] at h <;> simp at h
          · simp at h
        · exact absurd h initRx_no_deliver
      · simp at h
    · exact absurd h sendBit0_no_deliver
  case sendBit0 => exact absurd h sendBit0_no_deliver
  case sendBits => exact absurd h sendBits_no_deliver
  case sendEndByte =>
    unfold sendEndByte at h
    split at h <;> simp at h
  case sendEndTx =>
    unfold sendEndTx at h
    split at h <;> simp at h
  case ackWindow => simp [ackWindow] at h
  case waitAck =>
    unfold waitAck at h
    split at h
    · exact absurd h initRx_no_deliver
    · simp at h

theorem isr_deliver {i : Irq} {b : Bus} {f : List Byte} (h : Out.deliver f ∈ (isr i b).2) :
    b.st = .waitStart ∧ i.cap = false ∧
    isDataFrame b (b.valid && b.checksum == 0#8) = true ∧ forUs i b = true ∧
    b.telegramLen = 0 ∧ alreadyReceived b = false ∧ f = bytes b.rx b.nextByteIndex ∧
    (isr i b).2 = [.deliver f] := by
  unfold isr at h ⊢
  split at h
  · simp at h
  · next hs =>
    rw [if_neg hs]
    exact dispatch_deliver h

/-! ## The delivery buffer -/

/-- The upper layer's buffer. -/
def tel (b : Bus) : Buf × Nat := (b.telegram, b.telegramLen)

theorem tel_finish (b : Bus) : tel (finishSendingTelegram b).1 = tel b := by
  unfold finishSendingTelegram; split <;> rfl

theorem tel_collision (b : Bus) : tel (encounteredCollision b).1 = tel b := by
  unfold encounteredCollision; split <;> rfl

theorem tel_handle (i : Irq) (b : Bus) (v : Bool) :
    tel (handleTelegram i b v).1 =
      if (handleTelegram i b v).2 = [.deliver (bytes b.rx b.nextByteIndex)] then
        (memcpy b.telegram b.rx b.nextByteIndex, b.nextByteIndex) else tel b := by
  have key : ∀ (r : Bus) (m : Nat), tel
      ({ (if r.waitForAck then { r with repeatTel := true, waitForAck := false } else r) with
        capInt := true, mTime := m } : Bus) = tel r := by
    intro r m; split <;> rfl
  have e1 : isDataFrame { b with sendAck := 0#8, st := .wait50 } v = isDataFrame b v := rfl
  have e2 : forUs i { b with sendAck := 0#8, st := .wait50 } = forUs i b := rfl
  have e3 : alreadyReceived { b with sendAck := 0#8, st := .wait50 } = alreadyReceived b := rfl
  rw [handleTelegram_outs]
  unfold handleTelegram
  simp only [key, e1, e2]
  by_cases h1 : isDataFrame b v = true
  · simp only [if_pos h1]
    by_cases h2 : forUs i b = true
    · simp only [if_pos h2]
      unfold processDataFrame
      simp only [e3]
      by_cases h3 : b.telegramLen ≠ 0
      · simp only [h3, ne_eq, not_false_eq_true, if_true, false_and, and_false, if_false]
        split <;> (split <;> rfl)
      · have h3' : b.telegramLen = 0 := by omega
        cases h4 : alreadyReceived b
        · simp only [h3', h2, h4, ne_eq, not_true_eq_false, if_false, and_self, if_true,
            Bool.false_eq_true]
          split <;> (split <;> rfl)
        · simp only [h3', h4, ne_eq, not_true_eq_false, if_false, if_true,
            Bool.true_eq_false, and_false]
          split <;> (split <;> simp [tel, h3'])
    · rw [if_neg h2, if_neg (by simp [h2])]; rfl
  · simp only [if_neg h1]
    by_cases h2 : b.nextByteIndex = 1 ∧ b.waitForAck = true
    · simp only [if_pos h2]
      have hne : ¬ (processAck { b with sendAck := 0#8, st := .wait50 } (sendWait - preSend)).2.1 =
          [.deliver (bytes b.rx b.nextByteIndex)] := by
        rcases processAck_outs { b with sendAck := 0#8, st := .wait50 } (sendWait - preSend) with
          hp | ⟨ok, hp⟩ <;> rw [hp] <;> simp
      rw [if_neg hne]
      unfold processAck
      simp only
      split
      · rw [tel_finish]; split <;> rfl
      · split <;> rfl
    · simp only [if_neg h2]
      rw [if_neg (by simp)]
      unfold processOther
      split <;> rfl

theorem tel_waitStart (i : Irq) (b : Bus) :
    tel (waitStart i b).1 =
      if (waitStart i b).2 = [.deliver (bytes b.rx b.nextByteIndex)] then
        (memcpy b.telegram b.rx b.nextByteIndex, b.nextByteIndex) else tel b := by
  unfold waitStart
  cases hc : i.cap
  · simp only [Bool.not_false, if_true]
    rw [tel_handle]
    split <;> rfl
  · simp [tel]

theorem tel_initRx (i : Irq) (b : Bus) : tel (initRx i b).1 = tel b := by
  unfold initRx
  simp only
  rw [tel_waitStart]
  split
  · next h =>
    have : Out.deliver (bytes b.rx 0) ∈ (initRx i b).2 := by
      unfold initRx; simp only [h]; simp
    exact absurd this initRx_no_deliver
  · rfl

theorem tel_recvBits (i : Irq) (b : Bus) : tel (recvBits i b).1 = tel b := by
  unfold recvBits
  simp only
  split
  · unfold endOfChar; simp only; split <;> rfl
  · split <;> rfl

theorem tel_switchToRx (i : Irq) (b : Bus) : tel (switchToRx i b).1 = tel b := by
  unfold switchToRx
  rw [← tel_collision b]
  simp only
  split
  · rfl
  · split <;> rfl

theorem tel_sendBits (i : Irq) (b : Bus) : tel (sendBits i b).1 = tel b := by
  unfold sendBits
  split
  · split
    · rfl
    · split
      · exact tel_collision b
      · split
        · simp only; rw [tel_recvBits, tel_switchToRx]
        · rfl
  · split
    · rfl
    · unfold sendEndByte; split <;> rfl

theorem tel_sendBit0 (i : Irq) (b : Bus) : tel (sendBit0 i b).1 = tel b := by
  unfold sendBit0
  simp only
  rw [tel_sendBits]
  split <;> rfl

theorem tel_wait50 (i : Irq) (b : Bus) : tel (wait50 i b).1 = tel b := by
  unfold wait50
  split
  · exact tel_initRx i b
  · simp only
    by_cases hx : retriesExhausted b = true
    · simp only [hx, if_true, finish_sendCur]
      exact tel_finish { b with txError := b.txError ||| 128#16 }
    · simp only [hx, Bool.false_eq_true, if_false]
      split <;> rfl

theorem tel_dispatch (i : Irq) (b : Bus) :
    tel (dispatch i b).1 =
      if (dispatch i b).2 = [.deliver (bytes b.rx b.nextByteIndex)] then
        (memcpy b.telegram b.rx b.nextByteIndex, b.nextByteIndex) else tel b := by
  by_cases hs : b.st = .waitStart
  · simp only [dispatch, hs]
    exact tel_waitStart i b
  · rw [if_neg]
    · unfold dispatch
      cases hs : b.st <;> simp only [hs]
      case waitStart => contradiction
      case init =>
        unfold initSt
        split
        · rfl
        · simp only
          split
          · rw [tel_wait50]; rfl
          · rfl
      case idle =>
        split
        · exact tel_initRx i b
        · rfl
      case initRx => exact tel_initRx i b
      case recvBits => exact tel_recvBits i b
      case waitAckTx =>
        unfold waitAckTx
        split
        · rw [tel_initRx]; rfl
        · rfl
      case wait50 => exact tel_wait50 i b
      case sendStart =>
        unfold sendStart
        split
        · split
          · simp only
            rw [tel_initRx]
            split
            · exact tel_collision b
            · rfl
          · simp only; split <;> rfl
        · rw [tel_sendBit0]; rfl
      case sendBit0 => exact tel_sendBit0 i b
      case sendBits => exact tel_sendBits i b
      case sendEndByte => unfold sendEndByte; split <;> rfl
      case sendEndTx =>
        unfold sendEndTx
        split
        · rfl
        · simp only; split
          · split <;> rfl
          · rfl
      case ackWindow => rfl
      case waitAck =>
        unfold waitAck
        split
        · exact tel_initRx i b
        · rfl
    · intro h
      have : Out.deliver (bytes b.rx b.nextByteIndex) ∈ (dispatch i b).2 := by rw [h]; simp
      exact hs (dispatch_deliver this).1

theorem tel_isr (i : Irq) (b : Bus) :
    tel (isr i b).1 =
      if (isr i b).2 = [.deliver (bytes b.rx b.nextByteIndex)] then
        (memcpy b.telegram b.rx b.nextByteIndex, b.nextByteIndex) else tel b := by
  unfold isr
  split
  · simp [tel]
  · exact tel_dispatch i { b with tSet := none }

/-! ## The receive buffer and the log -/

theorem bytes_zero (t : Buf) : bytes t 0 = [] := rfl

theorem bytes_succ (t : Buf) (n : Nat) : bytes t (n + 1) = bytes t n ++ [t n] := by
  simp [bytes, List.range_succ]

theorem bytes_length (t : Buf) (n : Nat) : (bytes t n).length = n := by simp [bytes]

theorem bytes_congr {s t : Buf} {n : Nat} (h : ∀ j, j < n → s j = t j) : bytes s n = bytes t n := by
  unfold bytes
  apply List.map_congr_left
  intro j hj
  exact h j (List.mem_range.1 hj)

theorem bytes_upd (t : Buf) (n : Nat) (v : Byte) : bytes (upd t n v) n = bytes t n :=
  bytes_congr fun j hj => by simp [upd, Nat.ne_of_lt hj]

theorem bytes_memcpy (d s : Buf) (n : Nat) : bytes (memcpy d s n) n = bytes s n :=
  bytes_congr fun j hj => by simp [memcpy, hj]

theorem bytes_getElem? (t : Buf) (n j : Nat) (h : j < n) : (bytes t n)[j]? = some (t j) := by
  simp [bytes, h]

/-- `frame` accumulated by the checksum variable. -/
def fold (f : List Byte) : Byte := f.foldl (· ^^^ ·) 0xff#8

theorem foldl_xor (f : List Byte) (c : Byte) :
    f.foldl (· ^^^ ·) c = c ^^^ f.foldl (· ^^^ ·) 0#8 := by
  induction f generalizing c with
  | nil => simp
  | cons x f ih =>
    simp only [List.foldl_cons]
    rw [ih (c ^^^ x), ih (0#8 ^^^ x)]
    simp [BitVec.xor_assoc]

theorem fold_zero_iff (f : List Byte) : fold f = 0#8 ↔ ChecksumOk f := by
  unfold fold ChecksumOk xorAll
  rw [foldl_xor]
  generalize List.foldl (fun x1 x2 => x1 ^^^ x2) 0#8 f = x
  constructor
  · intro h
    have := congrArg (0xff#8 ^^^ ·) h
    simpa [← BitVec.xor_assoc] using this
  · intro h
    rw [h]; decide

theorem fold_append (f : List Byte) (x : Byte) : fold (f ++ [x]) = fold f ^^^ x := by
  simp [fold, List.foldl_append]

/-- While a frame is being received the log ends with its characters, and the receive buffer
holds them. -/
def RxLog (log : List Out) (b : Bus) : Prop :=
  b.st = .recvBits ∨ b.st = .waitStart → ∃ pre cs, log = pre ++ .rxBegin :: rxChars cs ∧
    bytes b.rx b.nextByteIndex = (cs.map Prod.fst).take maxTel ∧
    b.checksum = fold (bytes b.rx b.nextByteIndex) ∧
    b.valid = cs.all Prod.snd ∧
    (b.st = .waitStart → b.currentByte < 256 ∧
      ∃ cs', cs = cs' ++ [(BitVec.ofNat 8 b.currentByte, b.parity)])

/-- `b` is not receiving. -/
def NotRx (b : Bus) : Prop := b.st ≠ .recvBits ∧ b.st ≠ .waitStart

theorem NotRx.log {b : Bus} (h : NotRx b) (log : List Out) : RxLog log b := by
  intro hs
  rcases hs with hs | hs
  · exact absurd hs h.1
  · exact absurd hs h.2

theorem handleTelegram_notRx (i : Irq) (b : Bus) (v : Bool) : NotRx (handleTelegram i b v).1 := by
  have key : ∀ (r : Bus) (m : Nat), (r.st = .wait50 ∨ r.st = .waitAckTx) → NotRx
      ({ (if r.waitForAck then { r with repeatTel := true, waitForAck := false } else r) with
        capInt := true, mTime := m } : Bus) := by
    intro r m h
    unfold NotRx
    split <;> rcases h with h | h <;> simp [h]
  unfold handleTelegram
  apply key
  split
  · split
    · rcases (processDataFrame_cases i { b with sendAck := 0#8, st := .wait50 }
        (sendWait - preSend)).1 with h | h
      · exact Or.inl h.1
      · exact Or.inr h.1
    · exact Or.inl rfl
  · split
    · exact Or.inl (processAck_cases { b with sendAck := 0#8, st := .wait50 }
        (sendWait - preSend)).1
    · left; unfold processOther; split <;> rfl

theorem endOfChar_log {log : List Out} {b : Bus} (hs : b.st = .recvBits) (hl : RxLog log b) :
    RxLog (log ++ (endOfChar b).2) (endOfChar b).1 := by
  obtain ⟨pre, cs, h1, h2, h3, h4, _⟩ := hl (Or.inl hs)
  intro _
  have hc : b.currentByte &&& 255 < 256 := Nat.lt_of_le_of_lt Nat.and_le_right (by decide)
  have hlen : b.nextByteIndex = min maxTel cs.length := by
    have := congrArg List.length h2
    simpa [bytes_length] using this
  refine ⟨pre, cs ++ [(BitVec.ofNat 8 (b.currentByte &&& 0xff), b.parity)], ?_, ?_, ?_, ?_, ?_⟩
  · rw [h1]; simp [endOfChar, rxChars]
  · unfold endOfChar
    by_cases hn : b.nextByteIndex < maxTel
    · simp only [if_pos hn, bytes_succ, bytes_upd]
      have hcl : cs.length < maxTel := by omega
      rw [h2, List.map_append, List.take_append]
      have : maxTel - cs.length = (maxTel - cs.length - 1) + 1 := by omega
      simp only [List.length_map, List.map_cons, List.map_nil]
      rw [this, List.take_succ_cons]
      simp [upd]
    · simp only [if_neg hn]
      rw [h2, List.map_append, List.take_append_of_le_length]
      simp only [List.length_map]
      omega
  · unfold endOfChar
    by_cases hn : b.nextByteIndex < maxTel
    · simp only [if_pos hn, bytes_succ, bytes_upd, fold_append]
      rw [h3]
      simp [upd]
    · simp only [if_neg hn]
      exact h3
  · unfold endOfChar
    simp only
    split <;> simp [h4]
  · intro _
    have e1 : (endOfChar b).1.currentByte = b.currentByte &&& 255 := by
      unfold endOfChar; simp only; split <;> rfl
    have e2 : (endOfChar b).1.parity = b.parity := by
      unfold endOfChar; simp only; split <;> rfl
    rw [e1, e2]
    exact ⟨hc, cs, rfl⟩

theorem recvBits_log {i : Irq} {log : List Out} {b : Bus} (hs : b.st = .recvBits)
    (hl : RxLog log b) : RxLog (log ++ (recvBits i b).2) (recvBits i b).1 := by
  unfold recvBits
  simp only
  split
  · apply endOfChar_log
    · exact hs
    · intro _
      obtain ⟨pre, cs, h1, h2, h3, h4, _⟩ := hl (Or.inl hs)
      exact ⟨pre, cs, h1, h2, h3, h4, fun h => by simp [hs] at h⟩
  · obtain ⟨pre, cs, h1, h2, h3, h4, _⟩ := hl (Or.inl hs)
    split <;> exact fun _ => ⟨pre, cs, by simpa using h1, h2, h3, h4, fun h => by simp [hs] at h⟩

/-- `RxLog` looks at a few members only. -/
theorem RxLog.congr {log : List Out} {b c : Bus} (h : RxLog log b) (e1 : c.st = b.st)
    (e2 : c.rx = b.rx) (e3 : c.nextByteIndex = b.nextByteIndex) (e4 : c.checksum = b.checksum)
    (e5 : c.valid = b.valid) (e6 : c.currentByte = b.currentByte) (e7 : c.parity = b.parity) :
    RxLog log c := by
  unfold RxLog
  rw [e1, e2, e3, e4, e5, e6, e7]
  exact h

theorem waitStart_log {i : Irq} {log : List Out} {b : Bus}
    (hl : ∃ pre cs, log = pre ++ .rxBegin :: rxChars cs ∧
      bytes b.rx b.nextByteIndex = (cs.map Prod.fst).take maxTel ∧
      b.checksum = fold (bytes b.rx b.nextByteIndex) ∧ b.valid = cs.all Prod.snd) :
    RxLog (log ++ (waitStart i b).2) (waitStart i b).1 := by
  unfold waitStart
  cases hc : i.cap
  · simp only [Bool.not_false, if_true]
    exact (handleTelegram_notRx _ _ _).log _
  · obtain ⟨pre, cs, h1, h2, h3, h4⟩ := hl
    exact fun _ => ⟨pre, cs, by simpa using h1, h2, h3, h4, fun h => by simp at h⟩

theorem initRx_log {i : Irq} {log : List Out} {b : Bus} :
    RxLog (log ++ (initRx i b).2) (initRx i b).1 := by
  unfold initRx
  simp only
  rw [show ∀ l : List Out, log ++ Out.rxBegin :: l = (log ++ [.rxBegin]) ++ l by simp]
  apply waitStart_log
  exact ⟨log, [], rfl, rfl, rfl, rfl⟩

theorem copyOwn_spec (t : Buf) (n : Nat) (r : Buf) (c : Byte) :
    bytes (copyOwn t n (r, c)).1 n = bytes t n ∧
    (copyOwn t n (r, c)).2 = (bytes t n).foldl (· ^^^ ·) c := by
  induction n with
  | zero => exact ⟨rfl, rfl⟩
  | succ n ih =>
    simp only [copyOwn, bytes_succ, bytes_upd, ih.1, ih.2, List.foldl_append]
    simp [upd]

theorem telegramSize_le (t : Buf) : telegramSize t ≤ 22 := by
  unfold telegramSize
  have : (t 5 &&& 15#8).toNat ≤ 15 := by
    simp only [BitVec.toNat_and]
    exact Nat.and_le_right
  omega

theorem switchToRx_log {i : Irq} {log : List Out} {b : Bus} (h : Inv b) (hs : b.st = .sendBits) :
    RxLog (log ++ (switchToRx i b).2) (switchToRx i b).1 := by
  have hS : Sending b.st := by rw [hs]; trivial
  intro _
  obtain ⟨e1, e2, e3, e4, e5, e6, e7, e8, e9⟩ := encounteredCollision_eq b
  by_cases ha : b.sendAck = 0#8
  · obtain ⟨t, ht, hlen, _⟩ := h.cur hS ha
    obtain ⟨hi1, hi2⟩ := h.idxBits hs ha
    have hle := telegramSize_le t
    refine ⟨log ++ (encounteredCollision b).2,
      (bytes t (b.nextByteIndex - 1)).map fun x => (x, true), ?_, ?_, ?_, ?_, ?_⟩
    · simp [switchToRx, e4, ha, e2, ht, e8, rxChars]
    · simp only [switchToRx, e4, ha, e2, ht, e8, ne_eq, not_true_eq_false, if_false]
      rw [(copyOwn_spec t _ _ _).1, List.map_map]
      have : (Prod.fst ∘ fun x : Byte => (x, true)) = id := rfl
      rw [this, List.map_id, List.take_of_length_le]
      rw [bytes_length]
      show _ ≤ 23
      omega
    · simp only [switchToRx, e4, ha, e2, ht, e8, ne_eq, not_true_eq_false, if_false]
      rw [(copyOwn_spec t _ _ _).1, (copyOwn_spec t _ _ _).2]
      rfl
    · simp only [switchToRx, e4, ha, e2, ht, e8, ne_eq, not_true_eq_false, if_false]
      simp
    · intro hh
      simp [switchToRx] at hh
  · have hz := h.ackIdx ha hS
    refine ⟨log ++ (encounteredCollision b).2, [], ?_, ?_, ?_, ?_, ?_⟩
    · simp [switchToRx, e4, ha, rxChars]
    · simp [switchToRx, e4, ha, e8, hz, bytes]
    · simp [switchToRx, e4, ha, e8, hz, bytes, fold]
    · simp [switchToRx, e4, ha]
    · intro hh
      simp [switchToRx] at hh

theorem sendBits_log {i : Irq} {log : List Out} {b : Bus} (h : Inv b) (hs : b.st = .sendBits) :
    RxLog (log ++ (sendBits i b).2) (sendBits i b).1 := by
  have nrx : NotRx b := by unfold NotRx; simp [hs]
  unfold sendBits
  split
  · split
    · exact nrx.log _
    · split
      · exact NotRx.log (by unfold NotRx; simp [initState]) _
      · split
        · simp only
          rw [← List.append_assoc]
          apply recvBits_log
          · exact (switchToRx_inv (i := i) h (by rw [hs]; trivial)).2.2
          · exact switchToRx_log h hs
        · exact nrx.log _
  · split
    · exact NotRx.log (by unfold NotRx; simp [hs]) _
    · apply NotRx.log
      unfold sendEndByte NotRx
      split <;> simp

theorem sendBit0_log {i : Irq} {log : List Out} {b : Bus} (h : Inv b) (hs : b.st = .sendBit0) :
    RxLog (log ++ (sendBit0 i b).2) (sendBit0 i b).1 := by
  have hS : Sending b.st := by rw [hs]; trivial
  have hw := waitForAck_false h hS
  have hlt := h.idxStart (Or.inr hs)
  unfold sendBit0
  simp only
  rw [show ∀ (o : Out) (l : List Out), log ++ o :: l = (log ++ [o]) ++ l by simp]
  refine sendBits_log ?_ rfl
  obtain ⟨a1, a2, a3, a4, a5, a6, a7, a8, a9, a10, a11, a12, a13⟩ := h
  split
  · constructor <;> simp_all [Sending]
  · next ha =>
    have ha : b.sendAck = 0#8 := by simpa using ha
    have := hlt ha
    constructor <;> simp_all [Sending]
    omega

theorem wait50_log {i : Irq} {log : List Out} {b : Bus} :
    RxLog (log ++ (wait50 i b).2) (wait50 i b).1 := by
  unfold wait50
  split
  · exact initRx_log
  · simp only
    split
    · exact NotRx.log (by unfold NotRx; simp) _
    · exact NotRx.log (by unfold NotRx; simp [idleState]) _

theorem dispatch_log {i : Irq} {log : List Out} {b : Bus} (h : Inv b) (hl : RxLog log b) :
    RxLog (log ++ (dispatch i b).2) (dispatch i b).1 := by
  unfold dispatch
  cases hs : b.st <;> simp only [hs]
  case init =>
    unfold initSt
    split
    · exact NotRx.log (by unfold NotRx; simp [hs]) _
    · simp only
      split
      · exact wait50_log
      · exact NotRx.log (by unfold NotRx; simp) _
  case idle =>
    split
    · exact initRx_log
    · exact NotRx.log (by unfold NotRx; simp [hs]) _
  case initRx => exact initRx_log
  case waitStart =>
    apply waitStart_log
    obtain ⟨pre, cs, h1, h2, h3, h4, _⟩ := hl (Or.inr hs)
    exact ⟨pre, cs, h1, h2, h3, h4⟩
  case recvBits => exact recvBits_log hs hl
  case waitAckTx =>
    unfold waitAckTx
    split
    · exact initRx_log
    · exact NotRx.log (by unfold NotRx; simp) _
  case wait50 => exact wait50_log
  case sendStart =>
    unfold sendStart
    split
    · split
      · simp only
        rw [← List.append_assoc]
        exact initRx_log
      · exact NotRx.log (by unfold NotRx; simp) _
    · apply sendBit0_log _ rfl
      obtain ⟨a1, a2, a3, a4, a5, a6, a7, a8, a9, a10, a11, a12, a13⟩ := h
      constructor <;> simp_all [Sending]
  case sendBit0 => exact sendBit0_log h hs
  case sendBits => exact sendBits_log h hs
  case sendEndByte => exact NotRx.log (by unfold sendEndByte NotRx; split <;> simp) _
  case sendEndTx =>
    apply NotRx.log
    unfold sendEndTx NotRx
    split
    · simp
    · simp only; split
      · split <;> simp
      · simp
  case ackWindow => exact NotRx.log (by unfold NotRx; simp [ackWindow]) _
  case waitAck =>
    unfold waitAck
    split
    · exact initRx_log
    · exact NotRx.log (by unfold NotRx; simp) _

theorem isr_log {i : Irq} {log : List Out} {b : Bus} (h : Inv b) (hl : RxLog log b) :
    RxLog (log ++ (isr i b).2) (isr i b).1 := by
  have h' : Inv { b with tSet := none } := h.congr rfl
  have hl' : RxLog log { b with tSet := none } := hl.congr rfl rfl rfl rfl rfl rfl rfl
  unfold isr
  split
  · simpa using hl'
  · exact dispatch_log h' hl'

theorem step_log {log : List Out} {s : Sys} (h : SysInv s) (hl : RxLog log s.bus) (e : Ev) :
    RxLog (log ++ (step s e).2) (step s e).1.bus := by
  cases e with
  | irq i =>
    simp only [step]
    split
    · simpa using hl
    · exact isr_log h.inv hl
  | queue own t len =>
    simp only [step]
    split
    · simpa using hl
    · simpa using hl.congr (c := { s.bus with sendCur := some (prepareTelegram own t len) })
        rfl rfl rfl rfl rfl rfl rfl
  | kick =>
    simp only [step]
    split
    · exact NotRx.log (by unfold NotRx; simp [startSendingImmediately]) _
    · simpa using hl
  | discard =>
    simpa [step] using hl.congr (c := { s.bus with telegramLen := 0 }) rfl rfl rfl rfl rfl rfl rfl
  | pause w =>
    simp only [step]
    split
    · exact NotRx.log (by unfold NotRx; simp) _
    · simpa using hl
  | resume =>
    simp only [step]
    split
    · exact NotRx.log (by unfold NotRx; simp [initState]) _
    · simpa using hl
  | maxRetries n =>
    simpa [step] using hl.congr (c := { s.bus with sendRetriesMax := n })
      rfl rfl rfl rfl rfl rfl rfl
  | maxBusyRetries n =>
    simpa [step] using hl.congr (c := { s.bus with sendBusyRetriesMax := n })
      rfl rfl rfl rfl rfl rfl rfl

theorem run_log {log : List Out} {s : Sys} (h : SysInv s) (hl : RxLog log s.bus) (es : List Ev) :
    RxLog (log ++ (run s es).2) (run s es).1.bus := by
  induction es generalizing s log with
  | nil => simpa [run] using hl
  | cons e es ih =>
    simp only [run]
    rw [← List.append_assoc]
    exact ih (step_inv h e) (step_log h hl e)

theorem boot_log (es : List Ev) : RxLog (run boot es).2 (run boot es).1.bus := by
  have : RxLog [] boot.bus := NotRx.log (by unfold NotRx; decide) _
  simpa using run_log boot_inv this es

end Verif.Bus
