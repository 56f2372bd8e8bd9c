import Verif.Bus.LinkSpec

/-!
# Lemmas for two devices on a lossy line
-/

namespace Verif.Bus

open Verif.Knx

/-! ## When a device acknowledges -/

theorem processDataFrame_st {i : Irq} {b : Bus} {time : Nat} (hs : b.st ≠ .waitAckTx)
    (h : (processDataFrame i b time).1.st = .waitAckTx) :
    alreadyReceived b = true ∨
      (processDataFrame i b time).2.1 = [.deliver (bytes b.rx b.nextByteIndex)] := by
  unfold processDataFrame at h ⊢
  by_cases hl : b.telegramLen = 0
  · by_cases ha : alreadyReceived b = true
    · exact Or.inl ha
    · right
      simp only [hl, ne_eq, not_true_eq_false, if_false, ha]
      split <;> rfl
  · exfalso
    simp only [ne_eq, hl, not_false_eq_true, if_true] at h
    by_cases hsup : (!i.llEnabled || (b.rx 0 &&& 0x40#8 != 0#8)) = true
    · simp only [hsup, if_true, ne_eq, not_true_eq_false, if_false] at h
      exact hs h
    · simp only [hsup, Bool.false_eq_true, if_false, ne_eq, not_true_eq_false] at h
      exact hs h

theorem handle_tail_st (r : Bus) (m : Nat) :
    ({ (if r.waitForAck then { r with repeatTel := true, waitForAck := false } else r) with
        capInt := true, mTime := m } : Bus).st = r.st := by
  by_cases h : r.waitForAck = true
  · simp [h]
  · simp [h]

theorem processAck_st (b : Bus) (time : Nat) : (processAck b time).1.st = b.st := by
  unfold processAck
  dsimp only
  split
  · split <;> rw [finish_st]
  · split <;> rfl

theorem processOther_st (b : Bus) : (processOther b).st = b.st := by
  unfold processOther; split <;> rfl

theorem handle_waitAckTx {i : Irq} {b : Bus} {v : Bool}
    (h : (handleTelegram i b v).1.st = .waitAckTx) :
    isDataFrame b v = true ∧ (alreadyReceived b = true ∨
      (handleTelegram i b v).2 = [.deliver (bytes b.rx b.nextByteIndex)]) := by
  obtain ⟨b1, hb1⟩ : ∃ b1 : Bus, { b with sendAck := 0#8, st := .wait50 } = b1 := ⟨_, rfl⟩
  have hst : b1.st = .wait50 := by rw [← hb1]
  have hd : isDataFrame b1 v = isDataFrame b v := by rw [← hb1]; rfl
  have ha : alreadyReceived b1 = alreadyReceived b := by rw [← hb1]; rfl
  have hb : bytes b1.rx b1.nextByteIndex = bytes b.rx b.nextByteIndex := by rw [← hb1]
  unfold handleTelegram at h ⊢
  simp only [hb1] at h ⊢
  rw [handle_tail_st (m := 0)] at h
  rw [← hd, ← ha, ← hb]
  by_cases h1 : isDataFrame b1 v = true
  · refine ⟨h1, ?_⟩
    simp only [h1, if_true] at h ⊢
    by_cases h2 : forUs i b1 = true
    · simp only [h2, if_true] at h ⊢
      exact processDataFrame_st (by rw [hst]; decide) h
    · exfalso
      rw [if_neg h2] at h
      rw [hst] at h
      cases h
  · exfalso
    rw [if_neg h1] at h
    by_cases h3 : b.nextByteIndex = 1 ∧ b.waitForAck = true
    · rw [if_pos h3, processAck_st, hst] at h; cases h
    · rw [if_neg h3] at h
      simp only [processOther_st, hst] at h
      cases h

theorem waitStart_waitAckTx {i : Irq} {b : Bus} (h : (waitStart i b).1.st = .waitAckTx) :
    i.cap = false ∧ isDataFrame b (b.valid && b.checksum == 0#8) = true ∧
    (alreadyReceived b = true ∨ (waitStart i b).2 = [.deliver (bytes b.rx b.nextByteIndex)]) := by
  unfold waitStart at h ⊢
  cases hc : i.cap
  · simp only [hc, Bool.not_false, if_true] at h ⊢
    by_cases hk : b.checksum = 0#8
    · simp only [hk, ne_eq, not_true_eq_false, if_false] at h ⊢
      have := handle_waitAckTx h
      exact ⟨trivial, this.1, this.2⟩
    · simp only [ne_eq, hk, not_false_eq_true, if_true] at h ⊢
      have := handle_waitAckTx h
      exact ⟨trivial, this.1, this.2⟩
  · exfalso
    simp only [hc, Bool.not_true, Bool.false_eq_true, if_false] at h
    cases h

theorem initRx_not_waitAckTx (i : Irq) (b : Bus) : (initRx i b).1.st ≠ .waitAckTx := by
  intro h
  unfold initRx at h
  have := (waitStart_waitAckTx h).2.1
  rw [isDataFrame_iff] at this
  exact absurd this.1 (by simp)

theorem recvBits_st (i : Irq) (b : Bus) (hs : b.st = .recvBits) :
    (recvBits i b).1.st = .recvBits ∨ (recvBits i b).1.st = .waitStart := by
  unfold recvBits
  dsimp only
  split
  · right; rfl
  · left; split <;> exact hs

theorem sendEndByte_not_waitAckTx (b : Bus) : (sendEndByte b).1.st ≠ .waitAckTx := by
  unfold sendEndByte; split <;> simp

theorem sendBits_not_waitAckTx (i : Irq) (b : Bus) (hs : b.st = .sendBits) :
    (sendBits i b).1.st ≠ .waitAckTx := by
  unfold sendBits
  split
  · split
    · rw [hs]; decide
    · split
      · simp [initState]
      · split
        · dsimp only
          rcases recvBits_st i (switchToRx i b).1 rfl with h | h <;> rw [h] <;> decide
        · rw [hs]; decide
  · split
    · show b.st ≠ _
      rw [hs]; decide
    · exact sendEndByte_not_waitAckTx _

theorem sendBit0_not_waitAckTx (i : Irq) (b : Bus) : (sendBit0 i b).1.st ≠ .waitAckTx := by
  unfold sendBit0
  exact sendBits_not_waitAckTx _ _ rfl

theorem wait50_not_waitAckTx (i : Irq) (b : Bus) (hs : b.st = .wait50) :
    (wait50 i b).1.st ≠ .waitAckTx := by
  unfold wait50
  by_cases hc : i.cap = true
  · rw [if_pos hc]; exact initRx_not_waitAckTx _ _
  · rw [if_neg hc]
    dsimp only
    split <;> simp [idleState]

theorem dispatch_waitAckTx {i : Irq} {b : Bus} (h : (dispatch i b).1.st = .waitAckTx) :
    b.st = .waitStart ∧ i.cap = false ∧ isDataFrame b (b.valid && b.checksum == 0#8) = true ∧
    (alreadyReceived b = true ∨ (dispatch i b).2 = [.deliver (bytes b.rx b.nextByteIndex)]) := by
  unfold dispatch at h ⊢
  cases hs : b.st <;> simp only [hs] at h ⊢
  case waitStart => exact ⟨trivial, waitStart_waitAckTx h⟩
  case init =>
    exfalso
    unfold initSt at h
    split at h
    · rw [show ({ b with tSet := some (3 + 2) } : Bus).st = b.st from rfl, hs] at h; cases h
    · simp only at h
      split at h
      · exact wait50_not_waitAckTx _ _ rfl h
      · cases h
  case idle =>
    exfalso
    split at h
    · exact initRx_not_waitAckTx _ _ h
    · simp only [hs] at h; cases h
  case initRx => exact absurd h (initRx_not_waitAckTx _ _)
  case recvBits =>
    exfalso
    rcases recvBits_st i b hs with e | e <;> rw [e] at h <;> cases h
  case waitAckTx =>
    exfalso
    unfold waitAckTx at h
    split at h
    · exact initRx_not_waitAckTx _ _ h
    · cases h
  case wait50 => exact absurd h (wait50_not_waitAckTx _ _ hs)
  case sendStart =>
    exfalso
    unfold sendStart at h
    split at h
    · split at h
      · exact initRx_not_waitAckTx _ _ h
      · cases h
    · exact sendBit0_not_waitAckTx _ _ h
  case sendBit0 => exact absurd h (sendBit0_not_waitAckTx _ _)
  case sendBits => exact absurd h (sendBits_not_waitAckTx _ _ hs)
  case sendEndByte => exact absurd h (sendEndByte_not_waitAckTx _)
  case sendEndTx =>
    exfalso
    unfold sendEndTx at h
    split at h
    · cases h
    · dsimp only at h
      split at h
      · split at h <;> cases h
      · cases h
  case ackWindow => cases h
  case waitAck =>
    exfalso
    unfold waitAck at h
    split at h
    · exact initRx_not_waitAckTx _ _ h
    · cases h

/-- A device that is about to acknowledge was so before, or has just found the end of a telegram
that it handed over now or has already. -/
theorem step_waitAckTx {s : Sys} (hi : SysInv s) {e : Ev} (h : (step s e).1.bus.st = .waitAckTx) :
    s.bus.st = .waitAckTx ∨
    (FrameEnd s e ∧ isDataFrame s.bus (s.bus.valid && s.bus.checksum == 0#8) = true ∧
      (alreadyReceived s.bus = true ∨
        (step s e).2 = [.deliver (bytes s.bus.rx s.bus.nextByteIndex)])) := by
  cases e with
  | irq i =>
    simp only [step] at h ⊢
    by_cases hp : s.paused = true
    · rw [if_pos hp] at h; exact Or.inl h
    · rw [if_neg hp] at h ⊢
      simp only at h ⊢
      unfold isr at h ⊢
      by_cases hk : isSpike i s.bus = true
      · rw [if_pos hk] at h; exact Or.inl h
      · rw [if_neg hk] at h ⊢
        obtain ⟨h1, h2, h3, h4⟩ := dispatch_waitAckTx h
        exact Or.inr ⟨⟨by simpa using hp, h1, h2⟩, h3, h4⟩
  | queue own t len =>
    left; simp only [step] at h; split at h <;> exact h
  | kick =>
    left; simp only [step] at h; split at h
    · cases h
    · exact h
  | discard => exact Or.inl h
  | pause w =>
    left; simp only [step] at h; split at h
    · cases h
    · exact h
  | resume =>
    left; simp only [step] at h; split at h
    · cases h
    · exact h
  | maxRetries n => exact Or.inl h
  | maxBusyRetries n => exact Or.inl h

theorem handle_no_ackBegin (i : Irq) (b : Bus) (v : Bool) : Out.ackBegin ∉ (handleTelegram i b v).2 := by
  rw [handleTelegram_outs]
  split
  · split <;> simp
  · split
    · rcases processAck_outs { b with sendAck := 0#8, st := .wait50 } (sendWait - preSend) with
        e | ⟨ok, e⟩ <;> rw [e] <;> simp
    · simp

theorem waitStart_no_ackBegin (i : Irq) (b : Bus) : Out.ackBegin ∉ (waitStart i b).2 := by
  unfold waitStart
  cases i.cap
  · simp only [Bool.not_false, if_true]
    exact handle_no_ackBegin _ _ _
  · simp

theorem initRx_no_ackBegin (i : Irq) (b : Bus) : Out.ackBegin ∉ (initRx i b).2 := by
  unfold initRx
  simp only [List.mem_cons, reduceCtorEq, false_or]
  exact waitStart_no_ackBegin _ _

theorem recvBits_no_ackBegin (i : Irq) (b : Bus) : Out.ackBegin ∉ (recvBits i b).2 := by
  rcases recvBits_outs i b with e | ⟨c, p, e⟩ <;> rw [e] <;> simp

theorem sendEndByte_no_ackBegin (b : Bus) : Out.ackBegin ∉ (sendEndByte b).2 := by
  unfold sendEndByte; split <;> simp

theorem collision_no_ackBegin (b : Bus) : Out.ackBegin ∉ (encounteredCollision b).2 := by
  rcases encounteredCollision_outs b with e | e <;> rw [e] <;> simp

theorem switchToRx_no_ackBegin (i : Irq) (b : Bus) : Out.ackBegin ∉ (switchToRx i b).2 := by
  unfold switchToRx
  dsimp only
  intro h
  simp only [List.mem_append, List.mem_cons, reduceCtorEq, false_or] at h
  rcases h with h | h
  · exact collision_no_ackBegin _ h
  · split at h
    · simp at h
    · split at h
      · simp at h
      · simp at h

theorem sendBits_no_ackBegin (i : Irq) (b : Bus) : Out.ackBegin ∉ (sendBits i b).2 := by
  unfold sendBits
  split
  · split
    · simp
    · split
      · exact collision_no_ackBegin _
      · split
        · simp only [List.mem_append, not_or]
          exact ⟨switchToRx_no_ackBegin _ _, recvBits_no_ackBegin _ _⟩
        · simp
  · split
    · simp
    · exact sendEndByte_no_ackBegin _

theorem sendBit0_no_ackBegin (i : Irq) (b : Bus) : Out.ackBegin ∉ (sendBit0 i b).2 := by
  unfold sendBit0
  simp only [List.mem_cons, reduceCtorEq, false_or]
  exact sendBits_no_ackBegin _ _

theorem wait50_no_ackBegin (i : Irq) (b : Bus) : Out.ackBegin ∉ (wait50 i b).2 := by
  unfold wait50
  by_cases hc : i.cap = true
  · rw [if_pos hc]; exact initRx_no_ackBegin _ _
  · rw [if_neg hc]
    dsimp only
    have hf : Out.ackBegin ∉ (finishSendingTelegram { b with txError := b.txError ||| 128#16 }).2 := by
      rcases finish_outs_cases { b with txError := b.txError ||| 128#16 } with e | ⟨ok, e⟩ <;>
        rw [e] <;> simp
    cases retriesExhausted b
    · simp only [Bool.false_eq_true, if_false]
      split <;> simp
    · simp only [if_true]
      split
      · simp only [List.mem_append, not_or]; exact ⟨hf, by simp⟩
      · exact hf

theorem dispatch_ackBegin {i : Irq} {b : Bus} (h : Out.ackBegin ∈ (dispatch i b).2) :
    b.st = .waitAckTx := by
  unfold dispatch at h
  cases hs : b.st <;> simp only [hs] at h ⊢ <;> exfalso
  case waitStart => exact waitStart_no_ackBegin _ _ h
  case init =>
    unfold initSt at h
    split at h
    · simp at h
    · simp only at h
      split at h
      · exact wait50_no_ackBegin _ _ h
      · simp at h
  case idle =>
    split at h
    · exact initRx_no_ackBegin _ _ h
    · simp at h
  case initRx => exact initRx_no_ackBegin _ _ h
  case recvBits => exact recvBits_no_ackBegin _ _ h
  case wait50 => exact wait50_no_ackBegin _ _ h
  case sendStart =>
    unfold sendStart at h
    split at h
    · split at h
      · simp only [List.mem_append] at h
        rcases h with h | h
        · split at h
          · exact collision_no_ackBegin _ h
          · simp at h
        · exact initRx_no_ackBegin _ _ h
      · simp at h
    · exact sendBit0_no_ackBegin _ _ h
  case sendBit0 => exact sendBit0_no_ackBegin _ _ h
  case sendBits => exact sendBits_no_ackBegin _ _ h
  case sendEndByte => exact sendEndByte_no_ackBegin _ h
  case sendEndTx =>
    unfold sendEndTx at h
    split at h <;> simp at h
  case ackWindow => simp [ackWindow] at h
  case waitAck =>
    unfold waitAck at h
    split at h
    · exact initRx_no_ackBegin _ _ h
    · simp at h

theorem step_ackBegin {s : Sys} {e : Ev} (h : Out.ackBegin ∈ (step s e).2) :
    s.bus.st = .waitAckTx := by
  cases e with
  | irq i =>
    simp only [step] at h
    split at h
    · simp at h
    · simp only at h
      unfold isr at h
      split at h
      · simp at h
      · have h1 := dispatch_ackBegin h
        exact h1
  | queue own t len => simp only [step] at h; split at h <;> simp at h
  | kick => simp only [step] at h; split at h <;> simp at h
  | discard => simp [step] at h
  | pause w => simp only [step] at h; split at h <;> simp at h
  | resume => simp only [step] at h; split at h <;> simp at h
  | maxRetries n => simp [step] at h
  | maxBusyRetries n => simp [step] at h

theorem step_irq_eq (s : Sys) (i : Irq) (hp : s.paused = false) :
    step s (.irq i) = (⟨(isr i s.bus).1, s.paused⟩, (isr i s.bus).2) := by
  simp [step, hp]

theorem step_deliver {s : Sys} {e : Ev} {g : List Byte} (h : Out.deliver g ∈ (step s e).2) :
    FrameEnd s e ∧ isDataFrame s.bus (s.bus.valid && s.bus.checksum == 0#8) = true ∧
    g = bytes s.bus.rx s.bus.nextByteIndex ∧ (step s e).2 = [.deliver g] := by
  cases e with
  | irq i =>
    cases hp : s.paused
    · have he : (step s (.irq i)).2 = (isr i s.bus).2 := by rw [step_irq_eq s i hp]
      rw [he] at h ⊢
      obtain ⟨h1, h2, h3, _, _, _, h7, h8⟩ := isr_deliver h
      exact ⟨⟨hp, h1, h2⟩, h3, h7, h8⟩
    · simp only [step, hp, if_true] at h; simp at h
  | queue own t len => simp only [step] at h; split at h <;> simp at h
  | kick => simp only [step] at h; split at h <;> simp at h
  | discard => simp [step] at h
  | pause w => simp only [step] at h; split at h <;> simp at h
  | resume => simp only [step] at h; split at h <;> simp at h
  | maxRetries n => simp [step] at h
  | maxBusyRetries n => simp [step] at h

/-! ## Runs of both devices -/

theorem of_append (w : Who) (l m : List (Who × α)) : of w (l ++ m) = of w l ++ of w m := by
  simp [of, List.filterMap_append]

theorem of_map (w v : Who) (l : List α) :
    of w (l.map fun o => (v, o)) = if v = w then l else [] := by
  induction l with
  | nil => split <;> rfl
  | cons x xs ih =>
    by_cases h : v = w
    · simp only [h, if_true, of, List.map_cons, List.filterMap_cons] at ih ⊢
      rw [ih]
    · simp only [h, if_false, of, List.map_cons, List.filterMap_cons] at ih ⊢
      exact ih

theorem mem_of {w : Who} {x : α} {l : List (Who × α)} : x ∈ of w l ↔ (w, x) ∈ l := by
  unfold of
  rw [List.mem_filterMap]
  constructor
  · rintro ⟨⟨v, y⟩, h1, h2⟩
    by_cases hv : v = w
    · simp only [hv, if_true, Option.some.injEq] at h2
      rw [← h2, ← hv]; exact h1
    · simp [hv] at h2
  · intro h
    exact ⟨_, h, by simp⟩

theorem netStep_of (s : Net) (m : Who × Ev) :
    of .a (netStep s m).2 = (if m.1 = .a then (step s.a m.2).2 else []) ∧
    of .b (netStep s m).2 = (if m.1 = .b then (step s.b m.2).2 else []) ∧
    (netStep s m).1.a = (if m.1 = .a then (step s.a m.2).1 else s.a) ∧
    (netStep s m).1.b = (if m.1 = .b then (step s.b m.2).1 else s.b) := by
  obtain ⟨w, e⟩ := m
  cases w <;> simp [netStep, of_map]

theorem netRun_append (s : Net) (ms ns : List (Who × Ev)) :
    netRun s (ms ++ ns) = ((netRun (netRun s ms).1 ns).1,
      (netRun s ms).2 ++ (netRun (netRun s ms).1 ns).2) := by
  induction ms generalizing s with
  | nil => simp [netRun]
  | cons m ms ih => simp only [List.cons_append, netRun, ih, List.append_assoc]

theorem netRun_snoc (s : Net) (ms : List (Who × Ev)) (m : Who × Ev) :
    netRun s (ms ++ [m]) = ((netStep (netRun s ms).1 m).1,
      (netRun s ms).2 ++ (netStep (netRun s ms).1 m).2) := by
  rw [netRun_append]
  simp [netRun]

/-- Each device runs on its own. -/
theorem netRun_of (s : Net) (ms : List (Who × Ev)) :
    (netRun s ms).1.a = (run s.a (of .a ms)).1 ∧ (netRun s ms).1.b = (run s.b (of .b ms)).1 ∧
    of .a (netRun s ms).2 = (run s.a (of .a ms)).2 ∧
    of .b (netRun s ms).2 = (run s.b (of .b ms)).2 := by
  induction ms generalizing s with
  | nil => exact ⟨rfl, rfl, rfl, rfl⟩
  | cons m ms ih =>
    obtain ⟨h1, h2, h3, h4⟩ := ih (netStep s m).1
    obtain ⟨w, e⟩ := m
    cases w
    · have ea : of .a ((Who.a, e) :: ms) = e :: of .a ms := rfl
      have eb : of .b ((Who.a, e) :: ms) = of .b ms := rfl
      rw [ea, eb]
      simp only [netRun, run, of_append, h1, h2, h3, h4]
      simp [netStep, of_map]
    · have ea : of .a ((Who.b, e) :: ms) = of .a ms := rfl
      have eb : of .b ((Who.b, e) :: ms) = e :: of .b ms := rfl
      rw [ea, eb]
      simp only [netRun, run, of_append, h1, h2, h3, h4]
      simp [netStep, of_map]

theorem line_append (s : Net) (log : List (Who × Out)) (ms ns : List (Who × Ev)) :
    Line s log (ms ++ ns) ↔
      Line s log ms ∧ Line (netRun s ms).1 (log ++ (netRun s ms).2) ns := by
  induction ms generalizing s log with
  | nil => simp [Line, netRun]
  | cons m ms ih =>
    simp only [List.cons_append, Line, ih, netRun, List.append_assoc, and_assoc]

/-! ## Last occurrences -/

theorem since_none [DecidableEq α] {o : α} {l : List α} : since o l = none ↔ o ∉ l := by
  induction l with
  | nil => simp [since]
  | cons x xs ih =>
    simp only [since, List.mem_cons, not_or]
    cases h : since o xs with
    | some l =>
      rw [h] at ih
      simp only [reduceCtorEq, false_iff, Classical.not_not] at ih
      simp [ih]
    | none =>
      have := ih.1 h
      by_cases hx : x = o
      · simp [hx]
      · simp [hx, this, Ne.symm hx]

theorem since_some [DecidableEq α] {o : α} {l r : List α} :
    since o l = some r ↔ ∃ p, l = p ++ o :: r ∧ o ∉ r := by
  induction l with
  | nil => simp [since]
  | cons x xs ih =>
    simp only [since]
    cases h : since o xs with
    | some l =>
      rw [h] at ih
      simp only [Option.some.injEq] at ih ⊢
      rw [ih]
      constructor
      · rintro ⟨p, rfl, h2⟩; exact ⟨x :: p, rfl, h2⟩
      · rintro ⟨p, h1, h2⟩
        cases p with
        | nil =>
          simp only [List.nil_append, List.cons.injEq] at h1
          obtain ⟨rfl, rfl⟩ := h1
          rw [since_none.2 h2] at h; cases h
        | cons y p =>
          simp only [List.cons_append, List.cons.injEq] at h1
          exact ⟨p, h1.2, h2⟩
    | none =>
      have hn := since_none.1 h
      by_cases hx : x = o
      · subst hx
        simp only [if_true, Option.some.injEq]
        constructor
        · rintro rfl; exact ⟨[], rfl, hn⟩
        · rintro ⟨p, h1, h2⟩
          cases p with
          | nil =>
            simp only [List.nil_append, List.cons.injEq, true_and] at h1
            exact h1
          | cons y p =>
            simp only [List.cons_append, List.cons.injEq] at h1
            exact absurd (h1.2 ▸ by simp) hn
      · simp only [hx, if_false, reduceCtorEq, false_iff, not_exists, not_and]
        intro p h1 h2
        cases p with
        | nil =>
          simp only [List.nil_append, List.cons.injEq] at h1
          exact hx h1.1
        | cons y p =>
          simp only [List.cons_append, List.cons.injEq] at h1
          exact hn (h1.2 ▸ by simp)

theorem rxBegin_not_rxChars (cs : List (Byte × Bool)) : Out.rxBegin ∉ rxChars cs := by
  simp [rxChars]

theorem received_eq (pre : List Out) (cs : List (Byte × Bool)) :
    received (pre ++ .rxBegin :: rxChars cs) = cs := by
  unfold received
  rw [since_some.2 ⟨pre, rfl, rxBegin_not_rxChars cs⟩]
  simp only [Option.getD_some]
  induction cs with
  | nil => rfl
  | cons c cs ih =>
    simp only [rxChars, List.map_cons, List.filterMap_cons] at ih ⊢
    rw [ih]

end Verif.Bus
