import Verif.Bus.PropsArmed

/-!
# C124: pausing the bus
-/

namespace Verif.Bus

open Verif.Knx

/-! ## Specification -/

/-- A telegram has been sent to its end and the upper layer has not been told of its completion yet. -/
def Due (log : List Out) : Prop := ∃ pre post, log = pre ++ .txEnd :: post ∧ ∀ ok, Out.finished ok ∉ post

/-- The calls and interrupts that can happen while the bus is paused: anything but `resume`. -/
def NoResume (es : List Ev) : Prop := ∀ e ∈ es, e ≠ .resume

/-! ## A transmission that is not reported -/

/-- One entry of the log. -/
def dueStep (d : Bool) : Out → Bool
  | .txEnd => true
  | .finished _ => false
  | _ => d

theorem due_iff (log : List Out) : Due log ↔ log.foldl dueStep false = true := by
  suffices h : ∀ (n : Nat) (log : List Out), log.length = n → (Due log ↔ log.foldl dueStep false = true) from
    h _ log rfl
  intro n
  induction n with
  | zero =>
    intro log hl
    rw [List.length_eq_zero_iff] at hl
    subst hl
    simp [Due]
  | succ n ih =>
    intro log hl
    have hne : log ≠ [] := by rintro rfl; simp at hl
    obtain ⟨l, o, rfl⟩ : ∃ l o, log = l ++ [o] := ⟨_, _, (List.dropLast_concat_getLast hne).symm⟩
    have hl' := ih l (by simpa using hl)
    rw [List.foldl_append, List.foldl_cons, List.foldl_nil]
    have keep : o ≠ .txEnd → (∀ ok, o ≠ .finished ok) → (Due (l ++ [o]) ↔ Due l) := by
      intro h1 h2
      constructor
      · rintro ⟨pre, post, he, hp⟩
        rcases List.eq_nil_or_concat post with rfl | ⟨q, x, rfl⟩
        · obtain ⟨_, e⟩ := List.append_inj' he rfl
          simp at e
          exact absurd e h1
        · rw [List.concat_eq_append, ← List.cons_append, ← List.append_assoc] at he
          obtain ⟨e1, e2⟩ := List.append_inj' he rfl
          exact ⟨pre, q, e1, fun ok hm => hp ok (by simp [hm])⟩
      · rintro ⟨pre, post, rfl, hp⟩
        refine ⟨pre, post ++ [o], by simp, fun ok hm => ?_⟩
        rw [List.mem_append, List.mem_singleton] at hm
        rcases hm with hm | hm
        · exact hp ok hm
        · exact h2 ok hm.symm
    cases o with
    | txEnd =>
      simp only [dueStep, iff_true]
      exact ⟨l, [], rfl, by simp⟩
    | finished ok =>
      simp only [dueStep, Bool.false_eq_true, iff_false]
      rintro ⟨pre, post, he, hp⟩
      rcases List.eq_nil_or_concat post with rfl | ⟨q, x, rfl⟩
      · obtain ⟨_, e⟩ := List.append_inj' he rfl
        simp at e
      · rw [List.concat_eq_append, ← List.cons_append, ← List.append_assoc] at he
        obtain ⟨e1, e2⟩ := List.append_inj' he rfl
        simp only [List.cons.injEq, and_true] at e2
        exact hp ok (by simp [e2])
    | _ =>
      simp only [dueStep]
      rw [keep (by simp) (by simp), hl']

theorem due_neutral (d : Bool) (l : List Out) (h : ∀ o ∈ l, neutral o) : l.foldl dueStep d = d := by
  induction l generalizing d with
  | nil => rfl
  | cons o l ih =>
    have ho := h o (by simp)
    rw [List.foldl_cons, show dueStep d o = d by cases o <;> first | rfl | simp [neutral] at ho]
    exact ih d (fun o ho => h o (by simp [ho]))

/-- What the bus object knows of it. -/
def dueOf (b : Bus) : Bool := b.repeatTel || b.waitForAck

theorem dueOf_eq {b c : Bus} (h : txF c = txF b) : dueOf c = dueOf b := by
  obtain ⟨_, e2, e3, _⟩ := txF_eq h
  unfold dueOf; rw [e2, e3]

theorem dueOf_none {b : Bus} (h : Inv b) (hc : b.sendCur = none) : dueOf b = false := by
  unfold dueOf
  rw [(h.fresh hc).2.1]
  cases hw : b.waitForAck
  · rfl
  · have := (h.waitSt hw).2; simp [hc] at this

theorem isr_due (i : Irq) (b : Bus) (h : Inv b) (hn : NoRetryErr b) :
    (isr i b).2.foldl dueStep (dueOf b) = dueOf (isr i b).1 := by
  have h' := isr_inv (i := i) h
  have ht := isr_tx i b h hn
  generalize isr i b = r at *
  cases ht with
  | other h1 h2 h3 => rw [due_neutral _ _ h2, dueOf_eq h1]
  | same h0 h1 h2 => rw [h2, dueOf_eq h1]; rfl
  | char h0 t ht h1 h2 => rw [h2, dueOf_eq h1]; rfl
  | begin t ht hx h1 h2 => rw [h2, dueOf_eq h1]; rfl
  | done h0 hs h1 h2 => rw [h2, dueOf_eq h1]; simp [dueStep, dueOf, counted]
  | lost h0 p l h1 h2 hp hl =>
    rw [h2, dueOf_eq h1, List.foldl_append, due_neutral _ _ hp, List.foldl_cons, due_neutral _ _ hl]
    rfl
  | noAck h0 h1 h2 => rw [due_neutral _ _ h2, dueOf_eq h1]; simp [dueOf, h0]
  | finish ok h0 h1 h2 => rw [h2, dueOf_none h' h1]; rfl

theorem step_due (s : Sys) (e : Ev) (h : SysInv s) (hn : NoRetryErr s.bus) :
    (step s e).2.foldl dueStep (dueOf s.bus) = dueOf (step s e).1.bus := by
  cases e <;> simp only [step]
  case irq i =>
    split
    · rfl
    · exact isr_due i s.bus h.inv hn
  case queue => split <;> rfl
  case kick => split <;> rfl
  case discard => rfl
  case pause => split <;> rfl
  case resume => split <;> rfl
  case maxRetries => rfl
  case maxBusyRetries => rfl

theorem run_due (es : List Ev) : ∀ s : Sys, SysInv s → NoRetryErr s.bus →
    (run s es).2.foldl dueStep (dueOf s.bus) = dueOf (run s es).1.bus := by
  induction es with
  | nil => intro s _ _; rfl
  | cons e es ih =>
    intro s h hn
    simp only [run]
    rw [List.foldl_append, step_due s e h hn]
    exact ih _ (step_inv h e) (step_err s e hn)

theorem boot_due (es : List Ev) : Due (run boot es).2 ↔ dueOf (run boot es).1.bus = true := by
  rw [due_iff, ← run_due es boot boot_inv boot_err]
  rfl

/-! ## No repetition is due on an idle bus -/

/-- In IDLE no repetition is due. -/
def IdleInv (b : Bus) : Prop := b.st = .idle → b.repeatTel = false

theorem isr_idleInv (i : Irq) (b : Bus) (h : Inv b) (hd : IdleInv b) : IdleInv (isr i b).1 := by
  have hi := isr_inv (i := i) h
  unfold isr at *
  split
  · exact hd
  · rename_i hsp
    rw [if_neg hsp] at hi
    intro hst
    by_cases hs : b.st = .idle
    · unfold dispatch at hst ⊢
      simp only [hs] at hst ⊢
      by_cases hc : i.cap = true
      · rw [if_pos hc] at hst
        exact absurd hst (initRx_notIdle i _)
      · rw [if_neg hc]; exact hd hs
    · rcases dispatch_idle i { b with tSet := none } hs with h1 | h1
      · exact absurd hst h1
      · exact (hi.fresh h1).2.1

theorem step_idleInv (s : Sys) (e : Ev) (h : SysInv s) (hd : IdleInv s.bus) : IdleInv (step s e).1.bus := by
  cases e <;> simp only [step]
  case irq i =>
    split
    · exact hd
    · exact isr_idleInv i s.bus h.inv hd
  case queue => split <;> exact hd
  case kick =>
    split
    · intro hx; cases hx
    · exact hd
  case discard => exact hd
  case pause =>
    split
    · intro hx; cases hx
    · exact hd
  case resume =>
    split
    · intro hx; cases hx
    · exact hd
  case maxRetries => exact hd
  case maxBusyRetries => exact hd

theorem run_idleInv (es : List Ev) : ∀ s : Sys, SysInv s → IdleInv s.bus → IdleInv (run s es).1.bus := by
  induction es with
  | nil => exact fun s _ h => h
  | cons e es ih => exact fun s hi h => ih _ (step_inv hi e) (step_idleInv s e hi h)

/-! ## The output of the line -/

/-- Outside of the states that send bits the output has no pulse to come: its match value is out of reach. -/
structure PwmInv (b : Bus) : Prop where
  off : b.st ≠ .sendStart → b.st ≠ .sendBit0 → b.st ≠ .sendBits → b.mPwm = 0xffff
  last : b.st = .sendBits → 0x200 < b.bitMask → b.mPwm = 0xffff

theorem pwm_of {b : Bus} (h : b.mPwm = 0xffff) : PwmInv b := ⟨fun _ _ _ => h, fun _ _ => h⟩

theorem finish_pwm (b : Bus) : (finishSendingTelegram b).1.mPwm = b.mPwm := by
  unfold finishSendingTelegram
  split <;> rfl

theorem coll_pwm (b : Bus) : (encounteredCollision b).1.mPwm = b.mPwm := by
  unfold encounteredCollision
  split <;> rfl

theorem handle_pwm (i : Irq) (b : Bus) (v : Bool) : (handleTelegram i b v).1.mPwm = b.mPwm := by
  unfold handleTelegram
  dsimp only
  have hd : ∀ c t, (processDataFrame i c t).1.mPwm = c.mPwm := by
    intro c t
    unfold processDataFrame takeTelegram
    dsimp only
    repeat' split
    all_goals rfl
  have ha : ∀ c t, (processAck c t).1.mPwm = c.mPwm := by
    intro c t
    unfold processAck
    dsimp only
    split
    · rw [finish_pwm]; split <;> rfl
    · split <;> rfl
  have ho : ∀ c, (processOther c).mPwm = c.mPwm := by
    intro c
    unfold processOther
    split <;> rfl
  have hr : (if isDataFrame { b with sendAck := 0#8, st := .wait50 } v then
        if forUs i { b with sendAck := 0#8, st := .wait50 } then
          processDataFrame i { b with sendAck := 0#8, st := .wait50 } (sendWait - preSend)
        else ({ b with sendAck := 0#8, st := .wait50 }, [], sendWait - preSend)
      else if b.nextByteIndex = 1 ∧ b.waitForAck then
        processAck { b with sendAck := 0#8, st := .wait50 } (sendWait - preSend)
      else (processOther { b with sendAck := 0#8, st := .wait50 }, [], sendWait - preSend)).1.mPwm =
      b.mPwm := by
    split
    · split
      · exact hd _ _
      · rfl
    · split
      · exact ha _ _
      · exact ho _
  have hw : ∀ c : Bus, (if c.waitForAck then { c with repeatTel := true, waitForAck := false }
      else c).mPwm = c.mPwm := by
    intro c
    split <;> rfl
  exact (hw _).trans hr

theorem waitStart_pwm (i : Irq) (b : Bus) : (waitStart i b).1.mPwm = b.mPwm := by
  unfold waitStart
  dsimp only
  split
  · rw [handle_pwm]; split <;> rfl
  · rfl

theorem initRx_pwm (i : Irq) (b : Bus) : (initRx i b).1.mPwm = b.mPwm := waitStart_pwm i _

theorem recvBits_pwm (i : Irq) (b : Bus) : (recvBits i b).1.mPwm = b.mPwm := by
  unfold recvBits
  dsimp only
  split
  · unfold endOfChar
    dsimp only
    split <;> rfl
  · split <;> rfl

theorem wait50_pwm (i : Irq) (b : Bus) (h : b.mPwm = 0xffff) : PwmInv (wait50 i b).1 := by
  unfold wait50
  split
  · exact pwm_of (by rw [initRx_pwm]; exact h)
  · dsimp only
    split
    · exact ⟨fun h => absurd rfl h, fun h => by cases h⟩
    · exact pwm_of rfl

theorem sendBits_pwm (i : Irq) (b : Bus) (hs : b.st = .sendBits) (h : PwmInv b) : PwmInv (sendBits i b).1 := by
  unfold sendBits
  split
  · split
    · exact h
    · split
      · exact pwm_of rfl
      · split
        · exact pwm_of (recvBits_pwm i _)
        · exact h
  · split
    · refine ⟨fun _ _ h3 => absurd hs h3, fun _ hm => ?_⟩
      dsimp only at hm ⊢
      rw [if_pos hm]
    · rename_i hm
      unfold sendEndByte
      split
      · exact ⟨fun h => absurd rfl h, fun h => by cases h⟩
      · exact pwm_of (h.last hs (by omega))

theorem sendBit0_pwm (i : Irq) (b : Bus) : PwmInv (sendBit0 i b).1 := by
  unfold sendBit0
  exact sendBits_pwm i _ rfl ⟨fun _ _ h => absurd rfl h, fun _ hm => by simp at hm⟩

theorem dispatch_pwm (i : Irq) (b : Bus) (hi : Inv b) (h : PwmInv b) : PwmInv (dispatch i b).1 := by
  have off : ∀ s, b.st = s → s ≠ .sendStart → s ≠ .sendBit0 → s ≠ .sendBits → b.mPwm = 0xffff :=
    fun s hs h1 h2 h3 => h.off (hs ▸ h1) (hs ▸ h2) (hs ▸ h3)
  unfold dispatch
  cases hst : b.st <;> dsimp only
  case init =>
    have := off _ hst (by decide) (by decide) (by decide)
    unfold initSt
    split
    · exact pwm_of this
    · dsimp only
      split
      · exact wait50_pwm i _ this
      · exact pwm_of this
  case idle =>
    split
    · exact pwm_of ((initRx_pwm i b).trans (off _ hst (by decide) (by decide) (by decide)))
    · exact h
  case initRx => exact absurd hst hi.noInitRx
  case waitStart => exact pwm_of ((waitStart_pwm i b).trans (off _ hst (by decide) (by decide) (by decide)))
  case recvBits => exact pwm_of ((recvBits_pwm i b).trans (off _ hst (by decide) (by decide) (by decide)))
  case waitAckTx =>
    unfold waitAckTx
    split
    · exact pwm_of ((initRx_pwm i _).trans (off _ hst (by decide) (by decide) (by decide)))
    · exact ⟨fun h => absurd rfl h, fun h => by cases h⟩
  case wait50 => exact wait50_pwm i b (off _ hst (by decide) (by decide) (by decide))
  case sendStart =>
    unfold sendStart
    split
    · split
      · exact pwm_of (initRx_pwm i _)
      · exact ⟨fun _ h => absurd rfl h, fun h => by cases h⟩
    · exact sendBit0_pwm i _
  case sendBit0 => exact sendBit0_pwm i b
  case sendBits => exact sendBits_pwm i b hst h
  case sendEndByte => exact absurd hst hi.noEndByte
  case sendEndTx =>
    have := off _ hst (by decide) (by decide) (by decide)
    unfold sendEndTx
    split
    · exact pwm_of this
    · dsimp only
      split
      · split <;> exact pwm_of this
      · exact pwm_of this
  case ackWindow => exact pwm_of (off _ hst (by decide) (by decide) (by decide))
  case waitAck =>
    have := off _ hst (by decide) (by decide) (by decide)
    unfold waitAck
    split
    · exact pwm_of ((initRx_pwm i _).trans this)
    · exact pwm_of this

theorem step_pwm (s : Sys) (e : Ev) (hi : SysInv s) (h : PwmInv s.bus) : PwmInv (step s e).1.bus := by
  cases e <;> simp only [step]
  case irq i =>
    split
    · exact h
    · unfold isr
      dsimp only
      split
      · exact ⟨h.off, h.last⟩
      · exact dispatch_pwm i _ (hi.inv.congr rfl) ⟨h.off, h.last⟩
  case queue =>
    split
    · exact h
    · exact ⟨h.off, h.last⟩
  case kick =>
    split
    · rename_i hs
      exact pwm_of (h.off (by rw [hs]; decide) (by rw [hs]; decide) (by rw [hs]; decide))
    · exact h
  case discard => exact ⟨h.off, h.last⟩
  case pause =>
    split
    · rename_i hc
      simp only [Bool.and_eq_true] at hc
      have hst : s.bus.st = .idle ∨ s.bus.st = .wait50 := by
        have := hc.2
        unfold canPause at this
        split at this <;> simp_all
      rcases hst with hs | hs <;>
        exact pwm_of (h.off (by rw [hs]; decide) (by rw [hs]; decide) (by rw [hs]; decide))
    · exact h
  case resume =>
    split
    · exact pwm_of rfl
    · exact h
  case maxRetries => exact ⟨h.off, h.last⟩
  case maxBusyRetries => exact ⟨h.off, h.last⟩

theorem run_pwm (es : List Ev) : ∀ s : Sys, SysInv s → PwmInv s.bus → PwmInv (run s es).1.bus := by
  induction es with
  | nil => exact fun s _ h => h
  | cons e es ih => exact fun s hi h => ih _ (step_inv hi e) (step_pwm s e hi h)

/-! ## The properties -/

/-- When `pause` returns. After any history the bus becomes paused at once if nothing was received or sent for a
while, and if the frame on the line is over and no telegram is to be sent; if a telegram is to be sent, then only if it
has not been sent to its end before, and only if the caller does not want to wait for it. It does not become paused in
any other case: not while a frame is sent or received, not while an acknowledge is due. -/
theorem C124_when (es : List Ev) (w : Bool) (hp : (run boot es).1.paused = false) :
    (step (run boot es).1 (.pause w)).1.paused = true ↔
      (run boot es).1.bus.st = .idle ∨ (run boot es).1.bus.st = .wait50 ∧
        ((run boot es).1.bus.sendCur = none ∨ ¬ Due (run boot es).2 ∧ w = false) := by
  rw [boot_due es]
  have hi := (run_inv boot_inv es).inv
  generalize run boot es = r at *
  obtain ⟨⟨b, p⟩, log⟩ := r
  simp only at hp hi
  subst hp
  have hw : b.st = .wait50 → b.waitForAck = false := by
    intro hs
    cases hw : b.waitForAck
    · rfl
    · have := (hi.waitSt hw).1; simp [hs] at this
  simp only [step, Bool.not_false, Bool.true_and, dueOf]
  unfold canPause
  cases hs : b.st <;> simp
  case wait50 =>
    rw [hw hs]
    cases hc : b.sendCur <;> cases b.repeatTel <;> cases w <;> simp

/-- What holds when `pause` has returned: every telegram that was sent to its end has been reported as completed (none
waits for its acknowledge or for a repetition), and the output of the line has no pulse to come: the timer starts again
before it reaches the match value of the output; and no interrupt is enabled. -/
theorem C124_safe (es : List Ev) (w : Bool) (hp : (run boot es).1.paused = false)
    (h : (step (run boot es).1 (.pause w)).1.paused = true) :
    ¬ Due (run boot es).2 ∧
    (step (run boot es).1 (.pause w)).1.bus.mTime < (step (run boot es).1 (.pause w)).1.bus.mPwm ∧
    (step (run boot es).1 (.pause w)).1.bus.tReset = true ∧
    (step (run boot es).1 (.pause w)).1.bus.tInt = false ∧
    (step (run boot es).1 (.pause w)).1.bus.capInt = false := by
  have hwhen := (C124_when es w hp).1 h
  have hi := run_inv boot_inv es
  have hd := run_idleInv es boot boot_inv (fun hx => by cases hx)
  have hpw := step_pwm _ (.pause w) hi (run_pwm es boot boot_inv (pwm_of rfl))
  rw [boot_due es] at hwhen ⊢
  generalize run boot es = r at *
  obtain ⟨⟨b, p⟩, log⟩ := r
  simp only at hp
  subst hp
  simp only [step, Bool.not_false, Bool.true_and] at h hpw ⊢
  by_cases hc : canPause b w = true
  · rw [if_pos hc] at hpw ⊢
    refine ⟨?_, ?_, rfl, rfl, rfl⟩
    · have hw : (b.st = .idle ∨ b.st = .wait50) → b.waitForAck = false := by
        intro hs
        cases hw : b.waitForAck
        · rfl
        · have := (hi.inv.waitSt hw).1; rcases hs with hs | hs <;> simp [hs] at this
      rcases hwhen with hs | ⟨hs, hn | hn⟩
      · unfold dueOf; rw [hw (Or.inl hs), hd hs]; simp
      · rw [dueOf_none hi.inv hn]; simp
      · exact hn.1
    · rw [hpw.off (by simp) (by simp) (by simp)]; exact (by decide : (0xfffe : Nat) < 0xffff)
  · rw [if_neg hc] at h; cases h

/-- With `waitForTelegramSent` (`pause(true)`, and so `end()`): after a `sendTelegram` that has returned, a bus that
gets paused has no telegram left to be sent, and the completion of the telegram has been reported. -/
theorem C124_waits (es fs : List Ev) (own : Word) (t : Buf) (len : Nat)
    (hfree : (run boot es).1.bus.sendCur = none)
    (hacc : accepted (step (run boot es).1 (.queue own t len)).1 (.kick :: fs) = 0)
    (hp : (run boot (es ++ .queue own t len :: .kick :: fs)).1.paused = false)
    (h : (step (run boot (es ++ .queue own t len :: .kick :: fs)).1 (.pause true)).1.paused = true) :
    (run boot (es ++ .queue own t len :: .kick :: fs)).1.bus.sendCur = none ∧
    completions (run boot (es ++ .queue own t len :: .kick :: fs)).2 = completions (run boot es).2 + 1 := by
  have hc : (run boot (es ++ .queue own t len :: .kick :: fs)).1.bus.sendCur = none := by
    rcases (C124_when _ true hp).1 h with hs | ⟨_, hn | ⟨_, hn⟩⟩
    · cases hsc : (run boot (es ++ .queue own t len :: .kick :: fs)).1.bus.sendCur with
      | none => rfl
      | some u => exact absurd hs (C14_never_stuck es fs own t len hacc hp (by rw [hsc]; rfl)).1
    · exact hn
    · cases hn
  refine ⟨hc, ?_⟩
  have a1 := C14_one_completion (es ++ .queue own t len :: .kick :: fs)
  have a2 := C14_one_completion es
  rw [hc] at a1
  rw [hfree] at a2
  rw [accepted_append] at a1
  have e0 := accepted_append (run boot es).1 [.queue own t len] (.kick :: fs)
  rw [show [Ev.queue own t len] ++ (.kick :: fs) = .queue own t len :: .kick :: fs from rfl] at e0
  have e1 : accepted (run boot es).1 [.queue own t len] = 1 := by simp [accepted, hfree]
  have e2 : (run (run boot es).1 [.queue own t len]).1 = (step (run boot es).1 (.queue own t len)).1 := rfl
  rw [e1, e2, hacc] at e0
  simp only [Option.isSome_none, Bool.false_eq_true, if_false] at a1 a2
  omega

/-- While the bus is paused nothing is sent, received or reported, whatever happens. -/
theorem paused_run (s : Sys) (hi : SysInv s) (hp : s.paused = true) (es : List Ev) (h : NoResume es) :
    (run s es).2 = [] ∧ (run s es).1.paused = true ∧ (run s es).1.bus.mPwm = s.bus.mPwm ∧
    (run s es).1.bus.mTime = s.bus.mTime ∧ (run s es).1.bus.tReset = s.bus.tReset ∧
    (∀ t, s.bus.sendCur = some t → (run s es).1.bus.sendCur = some t) := by
  induction es generalizing s with
  | nil => exact ⟨rfl, hp, rfl, rfl, rfl, fun _ h => h⟩
  | cons e es ih =>
    have hs : s.bus.st = .init := hi.paused hp
    have key : (step s e).2 = [] ∧ (step s e).1.paused = true ∧ (step s e).1.bus.mPwm = s.bus.mPwm ∧
        (step s e).1.bus.mTime = s.bus.mTime ∧ (step s e).1.bus.tReset = s.bus.tReset ∧
        (∀ t, s.bus.sendCur = some t → (step s e).1.bus.sendCur = some t) := by
      cases e with
      | irq i => simp [step, hp]
      | queue own t len => cases hc : s.bus.sendCur <;> simp [step, hc, hp]
      | kick => simp [step, hs, hp]
      | discard => simp [step, hp]
      | pause w => simp [step, hp]
      | resume => exact absurd rfl (h _ (by simp))
      | maxRetries n => simp [step, hp]
      | maxBusyRetries n => simp [step, hp]
    obtain ⟨k1, k2, k3, k4, k5, k6⟩ := key
    obtain ⟨g1, g2, g3, g4, g5, g6⟩ := ih _ (step_inv hi e) k2 (fun e he => h e (by simp [he]))
    simp only [run]
    exact ⟨by rw [k1, g1]; rfl, g2, g3.trans k3, g4.trans k4, g5.trans k5, fun t ht => g6 t (k6 t ht)⟩

/-- Until the bus is resumed nothing is sent, received or reported after `pause` has returned, no pulse is given to the
line, and a telegram that was to be sent is kept, whatever is called meanwhile. -/
theorem C124_paused (es : List Ev) (w : Bool) (hp : (run boot es).1.paused = false)
    (h : (step (run boot es).1 (.pause w)).1.paused = true) (fs : List Ev) (hf : NoResume fs) :
    (run (step (run boot es).1 (.pause w)).1 fs).2 = [] ∧
    (run (step (run boot es).1 (.pause w)).1 fs).1.bus.mTime < (run (step (run boot es).1 (.pause w)).1 fs).1.bus.mPwm ∧
    (run (step (run boot es).1 (.pause w)).1 fs).1.bus.tReset = true ∧
    (∀ t, (run boot es).1.bus.sendCur = some t →
      (run (step (run boot es).1 (.pause w)).1 fs).1.bus.sendCur = some t) := by
  obtain ⟨_, s1, s2, _⟩ := C124_safe es w hp h
  obtain ⟨k1, _, k3, k4, k5, k6⟩ := paused_run _ (step_inv (run_inv boot_inv es) (.pause w)) h fs hf
  rw [k1, k3, k4, k5]
  refine ⟨rfl, s1, s2, fun t ht => k6 t ?_⟩
  simp only [step]
  split <;> exact ht

/-- The two timeouts after `resume`. -/
theorem resumed (s : Sys) (hi : SysInv s) (hp : s.paused = true) (hr : s.bus.repeatTel = false) (t : Buf)
    (ht : s.bus.sendCur = some t) (i j : Irq) (hic : i.cap = false) (hit : i.tmo = true) (hjc : j.cap = false) :
    (run s [.resume, .irq i, .irq j]).2 = (if s.bus.collisions.toNat ≤ 3 then [.txBegin] else [.finished false]) ∧
    (run s [.resume]).1.bus.sendCur = some t := by
  obtain ⟨b, p⟩ := s
  simp only at hp hr ht
  subst hp
  have hlt : BitVec.ofNat 8 collisionMax < b.collisions ↔ ¬ b.collisions.toNat ≤ 3 := by
    rw [BitVec.lt_def]; simp [collisionMax]
  refine ⟨?_, by simpa [run, step, initState] using ht⟩
  by_cases hc : b.collisions.toNat ≤ 3
  · have hx : ¬ BitVec.ofNat 8 collisionMax < b.collisions := by rw [hlt]; simpa using hc
    rw [if_pos hc]
    simp [run, step, initState, isr, isSpike, hic, hit, hjc, dispatch, initSt, wait50, retriesExhausted, hr, ht, hx]
  · have hx : BitVec.ofNat 8 collisionMax < b.collisions := hlt.2 hc
    rw [if_neg hc]
    simp [run, step, initState, isr, isSpike, hic, hit, hjc, dispatch, initSt, wait50, retriesExhausted, hr, ht, hx,
      finishSendingTelegram, prepareForSending, retryErr_set]

/-- A paused bus has no repetition due. -/
def PausedInv (s : Sys) : Prop := s.paused = true → s.bus.repeatTel = false

theorem step_pausedInv (s : Sys) (e : Ev) (hi : SysInv s) (hd : IdleInv s.bus) (h : PausedInv s) :
    PausedInv (step s e).1 := by
  obtain ⟨b, p⟩ := s
  unfold PausedInv at *
  cases p with
  | true =>
    have hr : b.repeatTel = false := h rfl
    have hs : b.st = .init := hi.paused rfl
    cases e with
    | queue own t len => cases hc : b.sendCur <;> simp [step, hc, hr]
    | _ => simp [step, hr, hs]
  | false =>
    cases e with
    | queue own t len => cases hc : b.sendCur <;> simp [step, hc]
    | kick => simp only [step]; split <;> simp
    | pause w =>
      simp only [step, Bool.not_false, Bool.true_and]
      by_cases hc : canPause b w = true
      · rw [if_pos hc]
        intro _
        show b.repeatTel = false
        unfold canPause at hc
        cases hs : b.st <;> simp only [hs] at hc
        case idle => exact hd hs
        case wait50 =>
          cases hsc : b.sendCur with
          | none => exact (hi.inv.fresh hsc).2.1
          | some t => simp [hsc] at hc; exact hc.1
        all_goals cases hc
      · rw [if_neg hc]; intro hx; cases hx
    | _ => simp [step]

theorem run_pausedInv (es : List Ev) : ∀ s : Sys, SysInv s → IdleInv s.bus → PausedInv s →
    PausedInv (run s es).1 := by
  induction es with
  | nil => exact fun s _ _ h => h
  | cons e es ih =>
    exact fun s hi hd h => ih _ (step_inv hi e) (step_idleInv s e hi hd) (step_pausedInv s e hi hd h)

/-- `When passing false, the enqueued telegram is sent out after resume()` (bus.h:54): a telegram that was to be sent
when the bus was paused, or was handed over while it was paused, is still there when it is resumed, and after the two
waiting times on a quiet line its transmission begins, for the first time, unless it has lost four times against other senders before: then it
is reported as failed. -/
theorem C124_sent (es fs : List Ev) (own : Word) (t : Buf) (len : Nat) (h : Sending1 es own t len fs)
    (hp : (run (step (run boot es).1 (.queue own t len)).1 fs).1.paused = true)
    (hc : completions (logOf es own t len fs) = 0) (i j : Irq)
    (hic : i.cap = false) (hit : i.tmo = true) (hjc : j.cap = false) :
    count .txEnd (logOf es own t len fs) = 0 ∧
    (run (run (step (run boot es).1 (.queue own t len)).1 fs).1 [.resume, .irq i, .irq j]).2 =
      if count .collision (logOf es own t len fs) ≤ 3 then [.txBegin] else [.finished false] := by
  have hi0 := run_inv boot_inv es
  have hd0 := run_idleInv es boot boot_inv (fun hx => by cases hx)
  have hz0 := run_pausedInv es boot boot_inv (fun hx => by cases hx) (fun hx => by cases hx)
  have hi := run_inv (step_inv hi0 (.queue own t len)) fs
  have hz := run_pausedInv fs _ (step_inv hi0 (.queue own t len)) (step_idleInv _ (.queue own t len) hi0 hd0)
    (step_pausedInv _ (.queue own t len) hi0 hd0 hz0)
  rcases sending1 h with hr | ho
  · obtain ⟨u, hu, _⟩ := hr.cur
    have hrep := hz hp
    have hst := hi.paused hp
    refine ⟨?_, ?_⟩
    · by_cases h0 : count .txEnd (logOf es own t len fs) = 0
      · exact h0
      · exfalso
        rcases (hr.pos (by omega)).1 with e | e
        · rw [hrep] at e; cases e
        · have := (hi.inv.waitSt e).1; simp [hst] at this
    · rw [(resumed _ hi hp hrep u hu i j hic hit hjc).1, hr.coll]
  · rw [ho.compl] at hc; cases hc

/-! ## `pause` returns -/

/-- Without a queued telegram a timeout leads to IDLE or makes progress. -/
theorem dispatch_quiet (i : Irq) (b : Bus) (hi : Inv b) (hn : NoRetryErr b) (hmask : MaskInv b)
    (hsc : b.sendCur = none) (hidle : b.st ≠ .idle) (hc : i.cap = false) (ht : i.tmo = true) :
    (dispatch i b).1.st = .idle ∨ measure (dispatch i b).1 < measure b := by
  have ack : Sending b.st → b.sendAck ≠ 0#8 := by
    intro hs ha
    obtain ⟨t, h1, _⟩ := hi.cur hs ha
    rw [hsc] at h1; cases h1
  have hw : b.waitForAck = false := by
    cases hw : b.waitForAck
    · rfl
    · have := (hi.waitSt hw).2; simp [hsc] at this
  unfold dispatch
  cases hs : b.st <;> simp only [hs]
  case init =>
    right
    unfold initSt
    simp only [ht, hc, Bool.not_true, Bool.false_eq_true, if_false]
    exact measure_lt rfl (by simp [phase, hs])
  case idle => exact absurd hs hidle
  case initRx => exact absurd hs hi.noInitRx
  case waitStart =>
    right
    have hst := waitStart_end i b hc
    have hph : phase (waitStart i b).1 ≤ 52000 := by
      unfold phase
      rcases hst with e | e <;> rw [e] <;> simp
    have hno : ¬ SendNow b := notSendNow (by rw [hs]; exact id)
    have hstep := waitStart_step i b hi hn hs
    generalize waitStart i b = r at *
    cases hstep with
    | other h1 h2 h3 =>
      refine measure_lt h1 (Nat.lt_of_le_of_lt hph ?_)
      simp [phase, hs]
    | same h0 => exact absurd h0 hno
    | char h0 => exact absurd h0 hno
    | begin t' ht' => rw [hsc] at ht'; cases ht'
    | done h0 => exact absurd h0 hno
    | lost h0 => exact absurd h0 hno
    | noAck h0 => rw [hw] at h0; cases h0
    | finish ok h0 => rw [hsc] at h0; cases h0
  case recvBits =>
    right
    obtain ⟨h1, _, _, _⟩ := recvBits_tx i b (by rw [hs]; exact id)
    have hst : (recvBits i b).1.st = .waitStart := by
      unfold recvBits
      simp only [ht, if_true]
      rfl
    refine measure_lt h1 ?_
    simp [phase, hs, hst]
  case waitAckTx =>
    right
    unfold waitAckTx
    simp only [hc, Bool.false_eq_true, if_false]
    refine measure_lt rfl ?_
    simp [phase, hs, hi.ackTx hs]
  case wait50 =>
    left
    unfold wait50
    simp only [hc, Bool.false_eq_true, if_false]
    have hx : (if retriesExhausted b then finishSendingTelegram { b with txError := b.txError ||| 128#16 }
      else (b, [])).1.sendCur = none := by
      split
      · exact finish_sendCur _
      · exact hsc
    rw [hx]
    rfl
  case sendStart =>
    right
    unfold sendStart
    rw [if_neg (by rw [ht]; decide)]
    have := sendBit0_measure i { b with st := .sendBit0, txError := b.txError ||| 32#16 } ht
      (Or.inr rfl) (fun ha => hi.idxStart (Or.inl hs) ha)
    refine Nat.lt_of_lt_of_eq this.1 ?_
    unfold measure phase
    simp only [hs]
    rfl
  case sendBit0 =>
    exact Or.inr (sendBit0_measure i b ht (Or.inr hs) (fun ha => hi.idxStart (Or.inr hs) ha)).1
  case sendBits => exact Or.inr (sendBits_measure i b ht hs (hmask hs)).1
  case sendEndByte => exact absurd hs hi.noEndByte
  case sendEndTx =>
    right
    have ha := ack (by rw [hs]; trivial)
    unfold sendEndTx
    rw [if_pos ha]
    refine measure_lt rfl ?_
    simp [phase, hs, ha]
  case ackWindow => have := hi.stWait (Or.inl hs); rw [hw] at this; cases this
  case waitAck => have := hi.stWait (Or.inr hs); rw [hw] at this; cases this

theorem quiet_run {s : Sys} (hi : SysInv s) (hn : NoRetryErr s.bus) (hmask : MaskInv s.bus)
    (hsc : s.bus.sendCur = none) (hp : s.paused = false) (g : Nat → Irq)
    (hg : ∀ n, (g n).cap = false ∧ (g n).tmo = true) :
    ∃ n, (run s ((List.range n).map fun k => .irq (g k))).1.bus.st = .idle ∧
      (run s ((List.range n).map fun k => .irq (g k))).1.paused = false := by
  obtain ⟨m, hm⟩ : ∃ m, measure s.bus = m := ⟨_, rfl⟩
  induction m using Nat.strongRecOn generalizing s g with
  | _ m ih =>
    by_cases hidle : s.bus.st = .idle
    · exact ⟨0, by simpa [run] using hidle, by simpa [run] using hp⟩
    have hg0 := hg 0
    have e1 : step s (.irq (g 0)) = ({ s with bus := (isr (g 0) s.bus).1 }, (isr (g 0) s.bus).2) := by
      simp only [step, hp, Bool.false_eq_true, if_false]
    have hd := dispatch_quiet (g 0) { s.bus with tSet := none } (hi.inv.congr rfl) hn hmask hsc hidle hg0.1 hg0.2
    rw [← isr_timeout (g 0) s.bus hg0.1, measure_tSet] at hd
    rcases hd with hd | hd
    · refine ⟨1, ?_, ?_⟩
      · simpa [run, e1] using hd
      · simpa [run, e1] using hp
    · have hi' := step_inv hi (.irq (g 0))
      have hn' := step_err s (.irq (g 0)) hn
      have hm' := step_mask s (.irq (g 0)) hmask
      rw [e1] at hi' hn' hm'
      obtain ⟨n, hf, hf2⟩ := ih _ (by rw [← hm]; exact hd) hi' hn' hm' (quiet_isr (g 0) s.bus hi.inv hn hsc).2 hp
        (fun k => g (k + 1)) (fun k => hg (k + 1)) rfl
      refine ⟨n + 1, ?_, ?_⟩ <;> rw [List.range_succ_eq_map, List.map_cons, List.map_map, run, e1]
      · exact hf
      · exact hf2

/-- On a quiet line `pause` returns, also with `waitForTelegramSent`, if no telegram is to be sent. -/
theorem C124_returns (es : List Ev) (hsc : (run boot es).1.bus.sendCur = none) (hp : (run boot es).1.paused = false)
    (g : Nat → Irq) (hg : ∀ n, (g n).cap = false ∧ (g n).tmo = true) :
    ∃ n, ∀ w, (step (run boot (es ++ (List.range n).map fun k => .irq (g k))).1 (.pause w)).1.paused = true := by
  obtain ⟨n, h1, h2⟩ := quiet_run (run_inv boot_inv es) (run_err boot es boot_err)
    (run_mask _ es (fun hx => by cases hx)) hsc hp g hg
  refine ⟨n, fun w => ?_⟩
  rw [run_append]
  simp only [step, h2, canPause, h1]
  simp

-- the bus can be paused 50 bit times after the start, not while a telegram is sent, and not before its repetitions
example : (step (run boot (dReady ++ [.irq dTimeout])).1 (.pause true)).1.paused = true ∧
    (step (run boot (dReady ++ [dSend, .kick] ++ dSilence 30)).1 (.pause false)).1.paused = false ∧
    (step (run boot (dReady ++ [dSend, .kick] ++ dSilence 80)).1 (.pause false)).1.paused = false ∧
    (step (run boot dUnanswered).1 (.pause true)).1.paused = true := by decide +kernel

-- a telegram that is to be sent does not hinder a pause without waiting
example : (run boot (dReady ++ [dSend])).1.bus.sendCur.isSome ∧
    (step (run boot (dReady ++ [dSend])).1 (.pause false)).1.paused = true ∧
    (step (run boot (dReady ++ [dSend])).1 (.pause true)).1.paused = false := by decide +kernel

example := C124_when (dReady ++ [dSend]) false (by decide +kernel)
example := C124_safe (dReady ++ [dSend]) false (by decide +kernel) (by decide +kernel)
example := C124_paused (dReady ++ [dSend]) false (by decide +kernel) (by decide +kernel) [.irq dTimeout, .kick, dSend]
  (by intro e he; rcases List.mem_cons.1 he with rfl | he
      · simp
      · rcases List.mem_cons.1 he with rfl | he
        · simp
        · rw [List.mem_singleton] at he; subst he; simp [dSend])
example := C124_waits dReady (dSilence 400) 0x1101#16 (ofList [0xBC, 0, 0, 0x08, 0x01, 0xE1, 0x00, 0x81]) 8
  (by decide +kernel) (by decide +kernel) (by decide +kernel) (by decide +kernel)
example := C124_sent dReady [.kick, .pause false, .irq dTimeout] 0x1101#16
  (ofList [0xBC, 0, 0, 0x08, 0x01, 0xE1, 0x00, 0x81]) 8
  ⟨by decide +kernel, by decide +kernel, by decide +kernel⟩ (by decide +kernel) (by decide +kernel) dTimeout dTimeout
  rfl rfl rfl
example := C124_returns dReceive (by decide +kernel) (by decide +kernel) (fun _ => dTimeout) (fun _ => ⟨rfl, rfl⟩)

theorem run_irqs_unpaused (s : Sys) (hp : s.paused = false) (g : Nat → Irq) (l : List Nat) :
    (run s (l.map fun k => .irq (g k))).1.paused = false := by
  induction l generalizing s with
  | nil => exact hp
  | cons a l ih =>
    rw [List.map_cons, run]
    apply ih
    simp [step, hp]

/-- On a quiet line `pause` returns, also with `waitForTelegramSent`, after a `sendTelegram` that has returned. -/
theorem C124_returns_sending (es fs : List Ev) (own : Word) (t : Buf) (len : Nat)
    (h : Sending1 es own t len (.kick :: fs))
    (hp : (run boot (es ++ .queue own t len :: .kick :: fs)).1.paused = false)
    (g : Nat → Irq) (hg : ∀ n, (g n).cap = false ∧ (g n).tmo = true) :
    ∃ n, ∀ w, (step (run boot (es ++ .queue own t len :: .kick :: fs ++
      (List.range n).map fun k => .irq (g k))).1 (.pause w)).1.paused = true := by
  have hp' := hp
  rw [run_append] at hp'
  obtain ⟨n, hn⟩ := C14_completes es fs own t len h hp' g hg
  have hsc : (run boot (es ++ .queue own t len :: .kick :: fs ++
      (List.range n).map fun k => .irq (g k))).1.bus.sendCur = none := by
    have h2 : Sending1 es own t len (.kick :: fs ++ (List.range n).map fun k => .irq (g k)) := by
      refine ⟨h.free, ?_, ?_⟩
      · rw [accepted_append, h.none, Nat.zero_add]
        have : ∀ (s : Sys) (l : List Nat), accepted s (l.map fun k => .irq (g k)) = 0 := by
          intro s l
          induction l generalizing s with
          | nil => rfl
          | cons a l ih => simp only [List.map_cons, accepted, ih]
        exact this _ _
      · intro e he
        rcases List.mem_append.1 he with he | he
        · exact h.fixed e he
        · obtain ⟨k, _, rfl⟩ := List.mem_map.1 he
          rfl
    rcases sending1 h2 with hr | ho
    · rw [hr.compl] at hn; cases hn
    · rw [List.append_assoc, run_append]
      exact ho.cur
  have hq : (run boot (es ++ .queue own t len :: .kick :: fs ++
      (List.range n).map fun k => .irq (g k))).1.paused = false := by
    rw [run_append]
    exact run_irqs_unpaused _ hp g _
  obtain ⟨m, hm⟩ := C124_returns _ hsc hq (fun k => g (n + k)) (fun k => hg (n + k))
  refine ⟨n + m, fun w => ?_⟩
  have := hm w
  rw [List.append_assoc] at this
  rw [List.range_add, List.map_append, List.map_map]
  exact this

example := C124_returns_sending dReady (dSilence 90) 0x1101#16
  (ofList [0xBC, 0, 0, 0x08, 0x01, 0xE1, 0x00, 0x81]) 8
  ⟨by decide +kernel, by decide +kernel, by decide +kernel⟩ (by decide +kernel)
  (fun _ => dTimeout) (fun _ => ⟨rfl, rfl⟩)

end Verif.Bus
