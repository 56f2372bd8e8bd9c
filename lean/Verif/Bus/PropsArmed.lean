import Verif.Bus.PropsTx

/-!
# C14: the state machine is never left without an interrupt

`C14_completes` says that a telegram is completed after finitely many timeouts.  Here: the timeouts do
come, because the match interrupt of the timer is enabled in every state but IDLE, and the bus object is
not IDLE while a telegram is in progress.  A bus object that is not sending the end of a telegram also
listens for falling edges, so it misses no start of a frame.
-/

namespace Verif.Bus

open Verif.Knx

/-- The interrupts the state needs are enabled. -/
structure Armed (b : Bus) : Prop where
  timer : b.st ≠ .idle → b.tInt = true
  edge : b.st ≠ .sendEndTx → b.st ≠ .ackWindow → b.capInt = true

theorem armed_of {b : Bus} (h1 : b.tInt = true) (h2 : b.capInt = true) : Armed b :=
  ⟨fun _ => h1, fun _ _ => h2⟩

theorem finish_ints (b : Bus) : (finishSendingTelegram b).1.tInt = b.tInt ∧
    (finishSendingTelegram b).1.capInt = b.capInt ∧ (finishSendingTelegram b).1.st = b.st := by
  unfold finishSendingTelegram
  split <;> exact ⟨rfl, rfl, rfl⟩

theorem coll_ints (b : Bus) : (encounteredCollision b).1.tInt = b.tInt ∧
    (encounteredCollision b).1.capInt = b.capInt := by
  unfold encounteredCollision
  split <;> exact ⟨rfl, rfl⟩

theorem handle_armed (i : Irq) (b : Bus) (v : Bool) (h : b.tInt = true) :
    Armed (handleTelegram i b v).1 := by
  refine armed_of ?_ rfl
  have key : (handleTelegram i b v).1.tInt = b.tInt := by
    unfold handleTelegram
    dsimp only
    have hd : ∀ c t, (processDataFrame i c t).1.tInt = c.tInt := by
      intro c t
      unfold processDataFrame takeTelegram
      dsimp only
      repeat' split
      all_goals rfl
    have ha : ∀ c t, (processAck c t).1.tInt = c.tInt := by
      intro c t
      unfold processAck
      dsimp only
      split
      · rw [(finish_ints _).1]; split <;> rfl
      · split <;> rfl
    have ho : ∀ c, (processOther c).tInt = c.tInt := by
      intro c
      unfold processOther
      split <;> rfl
    have hr : (if isDataFrame { b with sendAck := 0#8, st := .wait50 } v then
          if forUs i { b with sendAck := 0#8, st := .wait50 } then
            processDataFrame i { b with sendAck := 0#8, st := .wait50 } (sendWait - preSend)
          else ({ b with sendAck := 0#8, st := .wait50 }, [], sendWait - preSend)
        else if b.nextByteIndex = 1 ∧ b.waitForAck then
          processAck { b with sendAck := 0#8, st := .wait50 } (sendWait - preSend)
        else (processOther { b with sendAck := 0#8, st := .wait50 }, [], sendWait - preSend)).1.tInt =
        b.tInt := by
      split
      · split
        · exact hd _ _
        · rfl
      · split
        · exact ha _ _
        · exact ho _
    have hw : ∀ c : Bus, (if c.waitForAck then { c with repeatTel := true, waitForAck := false }
        else c).tInt = c.tInt := by
      intro c
      split <;> rfl
    exact (hw _).trans hr
  rw [key, h]

theorem waitStart_armed (i : Irq) (b : Bus) : Armed (waitStart i b).1 := by
  unfold waitStart
  dsimp only
  split
  · refine handle_armed _ _ _ ?_
    split <;> rfl
  · exact armed_of rfl rfl

theorem initRx_armed (i : Irq) (b : Bus) : Armed (initRx i b).1 := waitStart_armed i _

theorem recvBits_armed (i : Irq) (b : Bus) (h1 : b.tInt = true) (h2 : b.capInt = true) :
    Armed (recvBits i b).1 := by
  unfold recvBits
  dsimp only
  split
  · unfold endOfChar
    exact armed_of rfl rfl
  · split
    · exact armed_of h1 h2
    · exact armed_of h1 h2

theorem wait50_armed (i : Irq) (b : Bus) (h2 : b.capInt = true) : Armed (wait50 i b).1 := by
  unfold wait50
  split
  · exact initRx_armed i b
  · dsimp only
    have hc : (if retriesExhausted b then finishSendingTelegram { b with txError := b.txError ||| 128#16 }
      else (b, [])).1.capInt = true := by
      split
      · rw [(finish_ints _).2.1]; exact h2
      · exact h2
    split
    · exact armed_of rfl hc
    · exact ⟨fun h => absurd rfl h, fun _ _ => rfl⟩

theorem switch_ints (i : Irq) (b : Bus) (h2 : b.capInt = true) :
    (switchToRx i b).1.tInt = true ∧ (switchToRx i b).1.capInt = true := by
  refine ⟨rfl, ?_⟩
  unfold switchToRx
  dsimp only
  split
  · rw [← h2]; exact (coll_ints b).2
  · split
    · rw [← h2]; exact (coll_ints b).2
    · rw [← h2]; exact (coll_ints b).2

theorem sendBits_armed (i : Irq) (b : Bus) (h1 : b.tInt = true) (h2 : b.capInt = true) :
    Armed (sendBits i b).1 := by
  unfold sendBits
  split
  · split
    · exact armed_of h1 h2
    · split
      · exact armed_of rfl rfl
      · split
        · have := switch_ints i b h2
          exact recvBits_armed i _ this.1 this.2
        · exact armed_of h1 h2
  · split
    · exact armed_of h1 h2
    · unfold sendEndByte
      split
      · exact armed_of h1 h2
      · exact ⟨fun _ => h1, fun h => absurd rfl h⟩

theorem sendBit0_armed (i : Irq) (b : Bus) (h1 : b.tInt = true) (h2 : b.capInt = true) :
    Armed (sendBit0 i b).1 := by
  unfold sendBit0
  dsimp only
  split
  · exact sendBits_armed i _ h1 h2
  · exact sendBits_armed i _ h1 h2

theorem dispatch_armed (i : Irq) (b : Bus) (h : Armed b) : Armed (dispatch i b).1 := by
  have hi : ∀ s, b.st = s → s ≠ .idle → s ≠ .sendEndTx → s ≠ .ackWindow →
      b.tInt = true ∧ b.capInt = true :=
    fun s hs h1 h2 h3 => ⟨h.timer (hs ▸ h1), h.edge (hs ▸ h2) (hs ▸ h3)⟩
  unfold dispatch
  cases hst : b.st <;> dsimp only
  case init =>
    obtain ⟨h1, h2⟩ := hi _ hst (by decide) (by decide) (by decide)
    unfold initSt
    split
    · exact armed_of h1 h2
    · dsimp only
      split
      · exact wait50_armed i _ h2
      · exact armed_of rfl h2
  case idle =>
    split
    · exact initRx_armed i b
    · exact h
  case initRx => exact initRx_armed i b
  case waitStart => exact waitStart_armed i b
  case recvBits =>
    obtain ⟨h1, h2⟩ := hi _ hst (by decide) (by decide) (by decide)
    exact recvBits_armed i b h1 h2
  case waitAckTx =>
    unfold waitAckTx
    split
    · exact initRx_armed i _
    · exact armed_of rfl rfl
  case wait50 =>
    exact wait50_armed i b (hi _ hst (by decide) (by decide) (by decide)).2
  case sendStart =>
    obtain ⟨h1, h2⟩ := hi _ hst (by decide) (by decide) (by decide)
    unfold sendStart
    split
    · split
      · exact initRx_armed i _
      · dsimp only
        split <;> exact armed_of h1 h2
    · exact sendBit0_armed i _ h1 h2
  case sendBit0 =>
    obtain ⟨h1, h2⟩ := hi _ hst (by decide) (by decide) (by decide)
    exact sendBit0_armed i b h1 h2
  case sendBits =>
    obtain ⟨h1, h2⟩ := hi _ hst (by decide) (by decide) (by decide)
    exact sendBits_armed i b h1 h2
  case sendEndByte =>
    obtain ⟨h1, h2⟩ := hi _ hst (by decide) (by decide) (by decide)
    unfold sendEndByte
    split
    · exact armed_of h1 h2
    · exact ⟨fun _ => h1, fun h => absurd rfl h⟩
  case sendEndTx =>
    have h1 := h.timer (by rw [hst]; decide)
    unfold sendEndTx
    split
    · exact armed_of h1 rfl
    · dsimp only
      split
      · split <;> exact ⟨fun _ => rfl, fun _ h => absurd rfl h⟩
      · exact ⟨fun _ => rfl, fun _ h => absurd rfl h⟩
  case ackWindow =>
    have h1 := h.timer (by rw [hst]; decide)
    unfold ackWindow
    exact armed_of h1 rfl
  case waitAck =>
    obtain ⟨h1, h2⟩ := hi _ hst (by decide) (by decide) (by decide)
    unfold waitAck
    split
    · exact initRx_armed i _
    · exact armed_of rfl h2

theorem step_armed (s : Sys) (e : Ev) (h : s.paused = false → Armed s.bus) :
    (step s e).1.paused = false → Armed (step s e).1.bus := by
  cases e <;> simp only [step]
  case irq i =>
    split
    · exact h
    · intro hp
      have ha := h hp
      unfold isr
      split
      · exact ⟨ha.timer, ha.edge⟩
      · exact dispatch_armed i _ ⟨ha.timer, ha.edge⟩
  case queue =>
    split
    · exact h
    · exact fun hp => ⟨(h hp).timer, (h hp).edge⟩
  case kick =>
    split
    · rename_i hst
      exact fun hp => armed_of rfl ((h hp).edge (by rw [hst]; decide) (by rw [hst]; decide))
    · exact h
  case discard => exact fun hp => ⟨(h hp).timer, (h hp).edge⟩
  case pause =>
    split
    · intro hp; cases hp
    · exact h
  case resume =>
    split
    · exact fun _ => armed_of rfl rfl
    · exact h
  case maxRetries => exact fun hp => ⟨(h hp).timer, (h hp).edge⟩
  case maxBusyRetries => exact fun hp => ⟨(h hp).timer, (h hp).edge⟩

theorem run_armed (es : List Ev) : ∀ s : Sys, (s.paused = false → Armed s.bus) →
    (run s es).1.paused = false → Armed (run s es).1.bus := by
  induction es with
  | nil => exact fun s h => h
  | cons e es ih => exact fun s h => ih _ (step_armed s e h)

/-- C14: after any history, a bus object that is not paused has the timer interrupt enabled unless it is
IDLE: no state waits for a timeout that cannot come. -/
theorem C14_timer_enabled (es : List Ev) (hp : (run boot es).1.paused = false)
    (hs : (run boot es).1.bus.st ≠ .idle) : (run boot es).1.bus.tInt = true :=
  (run_armed es boot (fun _ => armed_of rfl rfl) hp).timer hs

/-- C14: a telegram for which `sendTelegram` has returned and that is not completed is never left lying:
unless the bus object is paused, the timer interrupt is enabled and the state is not IDLE. -/
theorem C14_never_stuck (es fs : List Ev) (own : Word) (t : Buf) (len : Nat)
    (hacc : accepted (step (run boot es).1 (.queue own t len)).1 (.kick :: fs) = 0)
    (hp : (run boot (es ++ .queue own t len :: .kick :: fs)).1.paused = false)
    (hc : (run boot (es ++ .queue own t len :: .kick :: fs)).1.bus.sendCur.isSome) :
    (run boot (es ++ .queue own t len :: .kick :: fs)).1.bus.st ≠ .idle ∧
    (run boot (es ++ .queue own t len :: .kick :: fs)).1.bus.tInt = true := by
  have hi1 := step_inv (run_inv boot_inv es) (.queue own t len)
  have hn1 := step_err _ (.queue own t len) (run_err boot es boot_err)
  rw [accepted_cons] at hacc
  have hawake : Awake (run (step (run boot es).1 (.queue own t len)).1 (.kick :: fs)).1 :=
    run_awake _ fs (step_inv hi1 .kick) (step_err _ .kick hn1) (by omega) (kick_awake _)
  have hst : (run boot (es ++ .queue own t len :: .kick :: fs)).1.bus.st ≠ .idle := by
    rw [run_append] at hc ⊢
    exact hawake hc
  exact ⟨hst, C14_timer_enabled _ hp hst⟩

/-- C11, C14: after any history, a bus object that is not paused reacts to falling edges on the bus except
from the last bit of its own telegram to the beginning of the acknowledge window. -/
theorem C14_listens (es : List Ev) (hp : (run boot es).1.paused = false)
    (h1 : (run boot es).1.bus.st ≠ .sendEndTx) (h2 : (run boot es).1.bus.st ≠ .ackWindow) :
    (run boot es).1.bus.capInt = true :=
  (run_armed es boot (fun _ => armed_of rfl rfl) hp).edge h1 h2

example := C14_never_stuck dReady (dSilence 90) 0x1101#16
  (ofList [0xBC, 0, 0, 0x08, 0x01, 0xE1, 0x00, 0x81]) 8 (by decide +kernel) (by decide +kernel)
  (by decide +kernel)

example := C14_listens dReceive (by decide +kernel) (by decide +kernel) (by decide +kernel)

end Verif.Bus
