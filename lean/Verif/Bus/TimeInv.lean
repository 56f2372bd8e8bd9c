import Verif.Bus.PropsArmed

/-!
# Which states restart the timer at the match
-/

namespace Verif.Bus

open Verif.Knx

/-- Match mode and match value that belong to a state. -/
def paceOk : St → Bool → Nat → Nat → Prop
  | .sendStart, r, m, p => r = true ∧ m = p + 34
  | .sendBit0, r, _, _ => r = true
  | .sendBits, r, _, _ => r = true
  | .sendEndByte, r, _, _ => r = true
  | .sendEndTx, r, _, _ => r = true
  | .recvBits, r, _, _ => r = true
  | .waitAckTx, r, _, _ => r = true
  | .waitStart, r, _, _ => r = false
  | .ackWindow, r, _, _ => r = false
  | .waitAck, r, _, _ => r = false
  | .init, r, _, _ => r = false
  | _, _, _, _ => True

/-- The timer is set up as the state needs it. -/
def Pace (b : Bus) : Prop := paceOk b.st b.tReset b.mTime b.mPwm

theorem finish_same (b : Bus) :
    (finishSendingTelegram b).1.st = b.st ∧ (finishSendingTelegram b).1.tReset = b.tReset ∧
    (finishSendingTelegram b).1.mTime = b.mTime ∧ (finishSendingTelegram b).1.mPwm = b.mPwm := by
  unfold finishSendingTelegram
  split <;> exact ⟨rfl, rfl, rfl, rfl⟩

theorem coll_same (b : Bus) :
    (encounteredCollision b).1.st = b.st ∧ (encounteredCollision b).1.tReset = b.tReset ∧
    (encounteredCollision b).1.mTime = b.mTime ∧ (encounteredCollision b).1.mPwm = b.mPwm := by
  unfold encounteredCollision
  split <;> exact ⟨rfl, rfl, rfl, rfl⟩

/-- What `handleTelegram` does to the timer, given the result of its inner parts. -/
def Waits (b : Bus) (r : Bus × List Out × Nat) : Prop :=
  (r.1.st = .waitAckTx ∧ r.2.2 = 1459 ∨ r.1.st = .wait50 ∧ 5104 ≤ r.2.2) ∧
  r.1.tReset = b.tReset ∧ r.1.tSet = b.tSet

theorem t1459 : delayBits 15 - preSend = 1459 := by decide
theorem t5104 : 5104 ≤ 5104 := by decide
theorem t15521 : 5104 ≤ delayBits 150 - preSend := by decide

theorem dataFrame_waits (i : Irq) (b : Bus) (hs : b.st = .wait50) :
    Waits b (processDataFrame i b 5104) := by
  have key : ∀ (r : Bus × List Out) (d : Bus), d.st = b.st → d.tReset = b.tReset →
      d.tSet = b.tSet →
      Waits b (if d.sendAck ≠ 0#8 then ({ d with st := .waitAckTx }, r.2, delayBits 15 - preSend)
        else (d, r.2, 5104)) := by
    intro r d h1 h2 h3
    split
    · exact ⟨Or.inl ⟨rfl, t1459⟩, h2, h3⟩
    · exact ⟨Or.inr ⟨h1.trans hs, t5104⟩, h2, h3⟩
  unfold processDataFrame
  simp only []
  split <;> apply key
  all_goals
    by_cases h1 : b.telegramLen ≠ 0
    · simp only [if_pos h1]
    · by_cases h2 : alreadyReceived b = true
      · simp only [if_neg h1, if_pos h2]
      · simp only [if_neg h1, if_neg h2, takeTelegram]

theorem ack_waits (b : Bus) (hs : b.st = .wait50) : Waits b (processAck b 5104) := by
  unfold processAck
  simp only []
  split
  · refine ⟨Or.inr ⟨?_, t5104⟩, ?_, ?_⟩
    · rw [(finish_same _).1]; split <;> exact hs
    · rw [(finish_same _).2.1]; split <;> rfl
    · unfold finishSendingTelegram; split <;> (simp only [prepareForSending]; split <;> rfl)
  · split
    · exact ⟨Or.inr ⟨hs, t15521⟩, rfl, rfl⟩
    · exact ⟨Or.inr ⟨hs, t5104⟩, rfl, rfl⟩

theorem other_waits (b : Bus) (hs : b.st = .wait50) : Waits b (processOther b, [], 5104) := by
  unfold processOther
  split <;> exact ⟨Or.inr ⟨hs, t5104⟩, rfl, rfl⟩

/-- After `handleTelegram` the device waits for its acknowledge or for the end of the pause. -/
theorem handle_pace (i : Irq) (b : Bus) (v : Bool) :
    ((handleTelegram i b v).1.st = .waitAckTx ∧ (handleTelegram i b v).1.mTime = 1458 ∨
      (handleTelegram i b v).1.st = .wait50 ∧ 5103 ≤ (handleTelegram i b v).1.mTime) ∧
    (handleTelegram i b v).1.tReset = b.tReset ∧ (handleTelegram i b v).1.tSet = b.tSet := by
  have key : ∀ r : Bus × List Out × Nat, Waits b r →
      ∀ c : Bus, c = { (if r.1.waitForAck then { r.1 with repeatTel := true, waitForAck := false }
          else r.1) with capInt := true, mTime := r.2.2 - 1 } →
      (c.st = .waitAckTx ∧ c.mTime = 1458 ∨ c.st = .wait50 ∧ 5103 ≤ c.mTime) ∧
      c.tReset = b.tReset ∧ c.tSet = b.tSet := by
    intro r h c hc
    obtain ⟨h1, h2, h3⟩ := h
    subst hc
    have : ∀ d : Bus, d.st = r.1.st → d.tReset = r.1.tReset → d.tSet = r.1.tSet →
        ((d.st = .waitAckTx ∧ r.2.2 - 1 = 1458 ∨ d.st = .wait50 ∧ 5103 ≤ r.2.2 - 1) ∧
        d.tReset = b.tReset ∧ d.tSet = b.tSet) := by
      intro d d1 d2 d3
      rw [d1, d2, d3]
      refine ⟨?_, h2, h3⟩
      rcases h1 with ⟨a1, a2⟩ | ⟨a1, a2⟩
      · exact Or.inl ⟨a1, by omega⟩
      · exact Or.inr ⟨a1, by omega⟩
    by_cases hw : r.1.waitForAck = true
    · rw [if_pos hw]
      exact this { r.1 with repeatTel := true, waitForAck := false } rfl rfl rfl
    · rw [if_neg hw]
      exact this r.1 rfl rfl rfl
  unfold handleTelegram
  apply key _ ?_ _ rfl
  simp only []
  split
  · split
    · exact dataFrame_waits i { b with sendAck := 0#8, st := .wait50 } rfl
    · exact ⟨Or.inr ⟨rfl, t5104⟩, rfl, rfl⟩
  · split
    · exact ack_waits { b with sendAck := 0#8, st := .wait50 } rfl
    · exact other_waits { b with sendAck := 0#8, st := .wait50 } rfl

theorem waitStart_pace (i : Irq) (b : Bus) : Pace (waitStart i b).1 := by
  unfold waitStart
  simp only []
  split
  · obtain ⟨h1, h2, _⟩ := handle_pace i (if b.checksum ≠ 0#8 then
      { b with mTime := 0xfffe, tInt := true, tReset := true, rxError := b.rxError ||| 16#16 }
      else { b with mTime := 0xfffe, tInt := true, tReset := true })
      ((if b.checksum ≠ 0#8 then
      { b with mTime := 0xfffe, tInt := true, tReset := true, rxError := b.rxError ||| 16#16 }
      else { b with mTime := 0xfffe, tInt := true, tReset := true }).valid &&
      (if b.checksum ≠ 0#8 then
      { b with mTime := 0xfffe, tInt := true, tReset := true, rxError := b.rxError ||| 16#16 }
      else { b with mTime := 0xfffe, tInt := true, tReset := true }).checksum == 0#8)
    have h3 : (if b.checksum ≠ 0#8 then
      { b with mTime := 0xfffe, tInt := true, tReset := true, rxError := b.rxError ||| 16#16 }
      else { b with mTime := 0xfffe, tInt := true, tReset := true }).tReset = true := by
      split <;> rfl
    rw [h3] at h2
    unfold Pace
    rcases h1 with ⟨a, _⟩ | ⟨a, _⟩
    · rw [a]; exact h2
    · rw [a]; trivial
  · exact rfl

theorem initRx_pace (i : Irq) (b : Bus) : Pace (initRx i b).1 := waitStart_pace i _

theorem recvBits_pace (i : Irq) (b : Bus) (h : b.tReset = true) (hs : b.st = .recvBits) :
    Pace (recvBits i b).1 := by
  unfold recvBits
  simp only []
  split
  · unfold endOfChar
    simp only []
    split <;> exact rfl
  · split <;> (unfold Pace; simp only [hs, paceOk]; exact h)

theorem sendEndByte_pace (b : Bus) (h : b.tReset = true) : Pace (sendEndByte b).1 := by
  unfold sendEndByte
  split
  · exact ⟨h, rfl⟩
  · exact h

theorem switchToRx_pace (i : Irq) (b : Bus) :
    (switchToRx i b).1.tReset = true ∧ (switchToRx i b).1.st = .recvBits := by
  unfold switchToRx
  exact ⟨rfl, rfl⟩

theorem sendBits_pace (i : Irq) (b : Bus) (h : b.tReset = true) (hs : b.st = .sendBits) :
    Pace (sendBits i b).1 := by
  have hb : Pace b := by unfold Pace; rw [hs]; exact h
  unfold sendBits
  split
  · split
    · exact hb
    · split
      · exact rfl
      · split
        · exact recvBits_pace i _ (switchToRx_pace i b).1 (switchToRx_pace i b).2
        · exact hb
  · split
    · unfold Pace; simp only [hs]; exact h
    · exact sendEndByte_pace _ h

theorem sendBit0_pace (i : Irq) (b : Bus) (h : b.tReset = true) : Pace (sendBit0 i b).1 := by
  unfold sendBit0
  simp only []
  apply sendBits_pace _ _ _ rfl
  simp only []
  split <;> exact h

theorem wait50_pace (i : Irq) (b : Bus) : Pace (wait50 i b).1 := by
  unfold wait50
  split
  · exact initRx_pace i b
  · simp only []
    split
    · exact ⟨rfl, rfl⟩
    · unfold Pace idleState; trivial

theorem dispatch_pace (i : Irq) (b : Bus) (h : Pace b) : Pace (dispatch i b).1 := by
  unfold dispatch
  cases hs : b.st <;> dsimp only
  case init =>
    unfold initSt
    split
    · exact h
    · simp only []
      split
      · exact wait50_pace i _
      · trivial
  case idle =>
    split
    · exact initRx_pace i b
    · exact h
  case initRx => exact initRx_pace i b
  case waitStart => exact waitStart_pace i b
  case recvBits =>
    unfold Pace at h; rw [hs] at h
    exact recvBits_pace i b h hs
  case waitAckTx =>
    unfold waitAckTx
    split
    · exact initRx_pace i _
    · exact ⟨rfl, rfl⟩
  case wait50 => exact wait50_pace i b
  case sendStart =>
    unfold Pace at h; rw [hs] at h
    obtain ⟨h1, h2⟩ := h
    unfold sendStart
    split
    · split
      · exact initRx_pace i _
      · simp only []
        unfold Pace
        simp only [paceOk]
        split <;> exact h1
    · exact sendBit0_pace i _ h1
  case sendBit0 =>
    unfold Pace at h; rw [hs] at h
    exact sendBit0_pace i b h
  case sendBits =>
    unfold Pace at h; rw [hs] at h
    exact sendBits_pace i b h hs
  case sendEndByte =>
    unfold Pace at h; rw [hs] at h
    exact sendEndByte_pace b h
  case sendEndTx =>
    unfold sendEndTx
    split
    · trivial
    · simp only []
      unfold Pace
      split
      · split <;> exact rfl
      · exact rfl
  case ackWindow =>
    unfold Pace at h; rw [hs] at h
    exact h
  case waitAck =>
    unfold waitAck
    split
    · exact initRx_pace i b
    · trivial

theorem step_pace (s : Sys) (e : Ev) (h : s.paused = false → Pace s.bus) :
    (step s e).1.paused = false → Pace (step s e).1.bus := by
  cases e <;> simp only [step]
  case irq i =>
    split
    · exact h
    · intro hp
      unfold isr
      split
      · exact h hp
      · exact dispatch_pace i _ (h hp)
  case queue own t len => split <;> exact h
  case kick =>
    split
    · intro _; trivial
    · exact h
  case discard => exact h
  case pause w =>
    split
    · intro hp; cases hp
    · exact h
  case resume =>
    split
    · intro _; exact rfl
    · exact h
  case maxRetries => exact h
  case maxBusyRetries => exact h

theorem run_pace (es : List Ev) : ∀ s : Sys, (s.paused = false → Pace s.bus) →
    (run s es).1.paused = false → Pace (run s es).1.bus := by
  induction es with
  | nil => exact fun s h => h
  | cons e es ih => exact fun s h => ih _ (step_pace s e h)

theorem boot_pace (es : List Ev) (hp : (run boot es).1.paused = false) :
    Pace (run boot es).1.bus :=
  run_pace es boot (fun _ => rfl) hp

end Verif.Bus
