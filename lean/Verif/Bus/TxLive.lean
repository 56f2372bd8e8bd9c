import Verif.Bus.TxRound

/-!
# Lemmas about transmission: progress on a silent bus
-/

namespace Verif.Bus

open Verif.Knx

/-- A timeout without an edge. -/
def isTimeout (i : Irq) : Bool := !i.cap && i.tmo

/-! ## The bit mask while sending -/

theorem nextZero_ge (n cur mask time : Nat) : mask ≤ (nextZero n cur mask time).1 := by
  induction n generalizing mask time with
  | zero => exact Nat.le_refl _
  | succ n ih =>
    unfold nextZero
    split
    · refine Nat.le_trans ?_ (ih _ _)
      rw [Nat.shiftLeft_eq]
      omega
    · exact Nat.le_refl _

/-- The bit mask is positive while a character is sent. -/
def MaskInv (b : Bus) : Prop := b.st = .sendBits → 1 ≤ b.bitMask

theorem sendBits_mask (i : Irq) (b : Bus) (h : 1 ≤ b.bitMask) (hs : b.st = .sendBits) :
    MaskInv (sendBits i b).1 := by
  unfold sendBits
  by_cases ht : (!i.tmo) = true
  · rw [if_pos ht]
    split
    · exact fun _ => h
    · split
      · intro hx; cases hx
      · split
        · intro hx
          have h1 := (recvBits_tx i (switchToRx i b).1 (switchToRx_tx i b).2.2.1).2.2.1
          rw [hx] at h1
          exact absurd trivial h1
        · exact fun _ => h
  · rw [if_neg ht]
    split
    · intro _
      have := nextZero_ge 10 b.currentByte b.bitMask bitTimeUs
      simp only [Nat.shiftLeft_eq]
      omega
    · unfold sendEndByte
      split <;> intro hx <;> cases hx

theorem sendBit0_mask (i : Irq) (b : Bus) : MaskInv (sendBit0 i b).1 := by
  unfold sendBit0
  exact sendBits_mask i _ (Nat.le_refl 1) rfl

theorem notSending_mask {b : Bus} (h : ¬ Sending b.st) : MaskInv b := by
  intro hs
  rw [hs] at h
  exact absurd trivial h

theorem waitStart_notSending (i : Irq) (b : Bus) : ¬ Sending (waitStart i b).1.st := by
  cases hc : i.cap
  · rcases waitStart_end i b hc with e | e <;> rw [e] <;> exact id
  · unfold waitStart
    rw [hc]
    exact id

theorem initRx_notSending (i : Irq) (b : Bus) : ¬ Sending (initRx i b).1.st :=
  waitStart_notSending i _

theorem wait50_mask (i : Irq) (b : Bus) : MaskInv (wait50 i b).1 := by
  unfold wait50
  split
  · exact notSending_mask (initRx_notSending i b)
  · simp only
    split
    · intro hx; cases hx
    · intro hx; cases hx

theorem dispatch_mask (i : Irq) (b : Bus) (h : MaskInv b) : MaskInv (dispatch i b).1 := by
  unfold dispatch
  cases hs : b.st <;> simp only [hs]
  case init =>
    unfold initSt
    split
    · exact h
    · simp only
      split
      · exact wait50_mask i _
      · intro hx; cases hx
  case idle =>
    split
    · exact notSending_mask (initRx_notSending i b)
    · exact h
  case initRx => exact notSending_mask (initRx_notSending i b)
  case waitStart => exact notSending_mask (waitStart_notSending i b)
  case recvBits => exact notSending_mask (recvBits_tx i b (by rw [hs]; exact id)).2.2.1
  case waitAckTx =>
    unfold waitAckTx
    split
    · exact notSending_mask (initRx_notSending i _)
    · intro hx; cases hx
  case wait50 => exact wait50_mask i b
  case sendStart =>
    unfold sendStart
    split
    · split
      · exact notSending_mask (initRx_notSending i _)
      · intro hx; cases hx
    · exact sendBit0_mask i _
  case sendBit0 => exact sendBit0_mask i b
  case sendBits => exact sendBits_mask i b (h hs) hs
  case sendEndByte => unfold sendEndByte; split <;> intro hx <;> cases hx
  case sendEndTx =>
    unfold sendEndTx
    split
    · intro hx; cases hx
    · simp only; split
      · split <;> intro hx <;> cases hx
      · intro hx; cases hx
  case ackWindow => intro hx; cases hx
  case waitAck =>
    unfold waitAck
    split
    · exact notSending_mask (initRx_notSending i b)
    · intro hx; cases hx

theorem step_mask (s : Sys) (e : Ev) (h : MaskInv s.bus) : MaskInv (step s e).1.bus := by
  cases e <;> simp only [step]
  case irq i =>
    split
    · exact h
    · unfold isr
      simp only
      split
      · exact h
      · exact dispatch_mask i _ h
  case queue => split <;> exact h
  case kick => split
               · intro hx; cases hx
               · exact h
  case discard => exact h
  case pause => split
                · intro hx; cases hx
                · exact h
  case resume => split
                 · intro hx; cases hx
                 · exact h
  case maxRetries => exact h
  case maxBusyRetries => exact h

theorem run_mask (s : Sys) (es : List Ev) (h : MaskInv s.bus) : MaskInv (run s es).1.bus := by
  induction es generalizing s with
  | nil => exact h
  | cons e es ih => exact ih _ (step_mask s e h)

/-! ## The measure -/

/-- Transmissions still to come. -/
def rounds (b : Bus) : Nat :=
  if b.repeatTel ∨ b.waitForAck then 1 + (b.sendRetriesMax - b.sendRetries) +
    (b.sendBusyRetriesMax - b.sendBusyRetries)
  else 2 + b.sendRetriesMax + b.sendBusyRetriesMax

/-- Position within a transmission. -/
def phase (b : Bus) : Nat :=
  match b.st with
  | .init => 50001
  | .idle => 0
  | .initRx => 0
  | .waitStart => 52001
  | .recvBits => 52002
  | .waitAckTx => 52000
  | .wait50 => 50000
  | .sendStart | .sendBit0 =>
    if b.sendAck = 0#8 then 10 + (b.sendTelegramLen - b.nextByteIndex) * 2000 else 51500
  | .sendBits =>
    if b.sendAck = 0#8 then
      11 + (b.sendTelegramLen - b.nextByteIndex) * 2000 + (1024 - b.bitMask)
    else 50002 + (1024 - b.bitMask)
  | .sendEndByte => 0
  | .sendEndTx => if b.sendAck = 0#8 then 5 else 50001
  | .ackWindow => 4
  | .waitAck => 3

/-- Decreases with every timeout. -/
def measure (b : Bus) : Nat :=
  rounds b * 200000 + (if b.waitForAck then 100000 else 0) + phase b

theorem rounds_eq {b c : Bus} (h : txF c = txF b) : rounds c = rounds b := by
  obtain ⟨e1, e2, e3, e4, e5, e6, e7, e8⟩ := txF_eq h
  unfold rounds
  rw [e2, e3, e4, e5, e7, e8]

theorem measure_lt {b c : Bus} (h : txF c = txF b) (hp : phase c < phase b) :
    measure c < measure b := by
  unfold measure
  rw [rounds_eq h, (txF_eq h).2.2.1]
  omega

theorem measure_noAck {b c : Bus} (hw : b.waitForAck = true)
    (h : txF c = txF { b with repeatTel := true, waitForAck := false }) (hp : phase c < 100000) :
    measure c < measure b := by
  obtain ⟨e1, e2, e3, e4, e5, e6, e7, e8⟩ := txF_eq h
  simp only at e1 e2 e3 e4 e5 e6 e7 e8
  have hr : rounds c = rounds b := by
    unfold rounds
    rw [e2, e4, e5, e7, e8, hw]
    simp
  unfold measure
  rw [hr, e3, hw]
  simp only [Bool.false_eq_true, if_false, if_true]
  omega

/-! ## One timeout -/

theorem sendBits_tmo (i : Irq) (b : Bus) (ht : i.tmo = true) :
    sendBits i b = if b.bitMask ≤ 0x200 then
      ({ b with
        bitMask := (nextZero 10 b.currentByte b.bitMask bitTimeUs).1 <<< 1
        mPwm := if 0x200 < (nextZero 10 b.currentByte b.bitMask bitTimeUs).1 <<< 1 then 0xffff
          else (nextZero 10 b.currentByte b.bitMask bitTimeUs).2 - bitPulseUs
        mTime := (nextZero 10 b.currentByte b.bitMask bitTimeUs).2 - 1 }, [])
      else sendEndByte { b with st := .sendEndByte } := by
  unfold sendBits
  rw [if_neg (by rw [ht]; decide)]

theorem sendBits_measure (i : Irq) (b : Bus) (ht : i.tmo = true) (hs : b.st = .sendBits)
    (hm : 1 ≤ b.bitMask) :
    measure (sendBits i b).1 < measure b ∧ (sendBits i b).1.st ≠ .idle := by
  rw [sendBits_tmo i b ht]
  by_cases h2 : b.bitMask ≤ 0x200
  · rw [if_pos h2]
    refine ⟨measure_lt rfl ?_, by simp [hs]⟩
    have := nextZero_ge 10 b.currentByte b.bitMask bitTimeUs
    simp only [phase, hs, Nat.shiftLeft_eq]
    split <;> omega
  · rw [if_neg h2]
    unfold sendEndByte
    by_cases hc : b.nextByteIndex < b.sendTelegramLen ∧ b.sendAck = 0#8
    · rw [if_pos hc]
      refine ⟨measure_lt rfl ?_, by simp⟩
      simp only [phase, hs, if_pos hc.2]
      omega
    · rw [if_neg hc]
      refine ⟨measure_lt rfl ?_, by simp⟩
      simp only [phase, hs]
      split <;> omega

theorem sendBit0_measure (i : Irq) (b : Bus) (ht : i.tmo = true)
    (hs : b.st = .sendStart ∨ b.st = .sendBit0)
    (hlt : b.sendAck = 0#8 → b.nextByteIndex < b.sendTelegramLen) :
    measure (sendBit0 i b).1 < measure b ∧ (sendBit0 i b).1.st ≠ .idle := by
  unfold sendBit0
  simp only
  rw [sendBits_tmo i _ ht, if_pos (by simp)]
  by_cases ha : b.sendAck = 0#8
  · simp only [ha, ne_eq, not_true_eq_false, if_false]
    refine ⟨measure_lt rfl ?_, by simp⟩
    have := hlt ha
    have e : phase b = 10 + (b.sendTelegramLen - b.nextByteIndex) * 2000 := by
      unfold phase
      rcases hs with e | e <;> simp only [e, if_pos ha]
    rw [e]
    simp only [phase, if_true]
    omega
  · simp only [ha, ne_eq, not_false_eq_true, if_true]
    refine ⟨measure_lt rfl ?_, by simp⟩
    have e : phase b = 51500 := by
      unfold phase
      rcases hs with e | e <;> simp only [e, if_neg ha]
    rw [e]
    simp only [phase, if_neg ha]
    omega

/-- A timeout either completes the telegram or makes progress. -/
theorem dispatch_measure {t0 : Buf} {R B : Nat} {log : List Out} {b : Bus} (h : Round t0 R B log b)
    (hi : Inv b) (hn : NoRetryErr b) (hmask : MaskInv b) (hidle : b.st ≠ .idle) (i : Irq)
    (hc : i.cap = false) (ht : i.tmo = true) :
    (∃ ok, (dispatch i b).2 = [.finished ok]) ∨
    (measure (dispatch i b).1 < measure b ∧ (dispatch i b).1.st ≠ .idle) := by
  obtain ⟨t, hcur, _⟩ := h.cur
  unfold dispatch
  cases hs : b.st <;> simp only [hs]
  case init =>
    right
    unfold initSt
    simp only [ht, hc, Bool.not_true, Bool.false_eq_true, if_false]
    exact ⟨measure_lt rfl (by simp [phase, hs]), by simp⟩
  case idle => exact absurd hs hidle
  case initRx => exact absurd hs hi.noInitRx
  case waitStart =>
    have hst := waitStart_end i b hc
    have hph : phase (waitStart i b).1 ≤ 52000 := by
      unfold phase
      rcases hst with e | e <;> rw [e] <;> simp
    have hnid : (waitStart i b).1.st ≠ .idle := by
      rcases hst with e | e <;> rw [e] <;> simp
    have hno : ¬ SendNow b := notSendNow (by rw [hs]; exact id)
    have hstep := waitStart_step i b hi hn hs
    generalize waitStart i b = r at *
    cases hstep with
    | other h1 h2 h3 =>
      refine Or.inr ⟨measure_lt h1 (Nat.lt_of_le_of_lt hph ?_), hnid⟩
      simp [phase, hs]
    | same h0 => exact absurd h0 hno
    | char h0 => exact absurd h0 hno
    | begin t' ht' hx h1 h2 h3 h4 =>
      exfalso
      have := h3.1
      rcases hst with e | e <;> rw [e] at this <;> exact this
    | done h0 => exact absurd h0 hno
    | lost h0 => exact absurd h0 hno
    | noAck h0 h1 h2 h3 => exact Or.inr ⟨measure_noAck h0 h1 (by omega), hnid⟩
    | finish ok h0 h1 h2 => exact Or.inl ⟨ok, h2⟩
  case recvBits =>
    right
    obtain ⟨h1, _, _, _⟩ := recvBits_tx i b (by rw [hs]; exact id)
    have hst : (recvBits i b).1.st = .waitStart := by
      unfold recvBits
      simp only [ht, if_true]
      rfl
    refine ⟨measure_lt h1 ?_, by rw [hst]; simp⟩
    simp [phase, hs, hst]
  case waitAckTx =>
    right
    unfold waitAckTx
    simp only [hc, Bool.false_eq_true, if_false]
    refine ⟨measure_lt rfl ?_, by simp⟩
    simp [phase, hs, hi.ackTx hs]
  case wait50 =>
    have hb := wait50_step i b hi hs
    have ha : b.sendAck = 0#8 := sendAck_zero hi (by rw [hs]; decide) (by rw [hs]; decide)
    unfold wait50
    simp only [hc, Bool.false_eq_true, if_false]
    cases hx : retriesExhausted b
    · right
      simp only [Bool.false_eq_true, if_false, hcur]
      refine ⟨?_, by simp⟩
      have hle := telegramSize_le t
      have h1 : ∀ c : Bus, rounds c = rounds b → c.waitForAck = b.waitForAck → c.st = .sendStart →
          c.sendAck = 0#8 → c.nextByteIndex = 0 → c.sendTelegramLen = telegramSize t + 1 →
          measure c < measure b := by
        intro c e1 e2 e3 e4 e5 e6
        unfold measure
        rw [e1, e2]
        simp only [phase, hs, e3, e4, e5, e6, if_true]
        omega
      exact h1 _ rfl rfl rfl ha rfl rfl
    · left
      simp only [if_true]
      obtain ⟨f1, f2, _⟩ := finish_cases { b with txError := b.txError ||| 128#16 }
        (by rw [hcur]; rfl)
      rw [f1]
      exact ⟨_, f2⟩
  case sendStart =>
    right
    unfold sendStart
    rw [if_neg (by rw [ht]; decide)]
    have := sendBit0_measure i { b with st := .sendBit0, txError := b.txError ||| 32#16 } ht
      (Or.inr rfl) (fun ha => hi.idxStart (Or.inl hs) ha)
    refine ⟨Nat.lt_of_lt_of_eq this.1 ?_, this.2⟩
    unfold measure phase
    simp only [hs]
    rfl
  case sendBit0 =>
    exact Or.inr (sendBit0_measure i b ht (Or.inr hs) (fun ha => hi.idxStart (Or.inr hs) ha))
  case sendBits => exact Or.inr (sendBits_measure i b ht hs (hmask hs))
  case sendEndByte => exact absurd hs hi.noEndByte
  case sendEndTx =>
    right
    have hsb : Sending b.st := by rw [hs]; trivial
    have hw := waitForAck_false hi hsb
    by_cases ha : b.sendAck = 0#8
    · have hstep := sendEndTx_step b hi hs
      have e2 : (sendEndTx b).2 = [.txEnd] := by unfold sendEndTx; rw [if_neg (by simp [ha])]
      have e3 : (sendEndTx b).1.st = .ackWindow := by
        unfold sendEndTx; rw [if_neg (by simp [ha])]
        cases hr : b.repeatTel <;> cases hbw : b.busyWait <;> simp [hr, hbw]
      have e4 : txF (sendEndTx b).1 = txF (counted b) := by
        unfold sendEndTx; rw [if_neg (by simp [ha])]
        cases hr : b.repeatTel <;> cases hbw : b.busyWait <;> simp [txF, counted, hr, hbw]
      refine ⟨?_, by rw [e3]; simp⟩
      obtain ⟨g1, g2, g3, g4, g5, g6, g7, g8⟩ := txF_eq e4
      simp only [counted] at g1 g2 g3 g4 g5 g6 g7 g8
      have hr : rounds (sendEndTx b).1 + 1 ≤ rounds b := by
        unfold rounds
        rw [g2, g3, g4, g5, g7, g8, hw]
        cases hr : b.repeatTel
        · have hz : b.sendRetries = 0 ∧ b.sendBusyRetries = 0 := by
            by_cases hz : count .txEnd log = 0
            · exact (h.zero hz).2.2
            · rcases (h.pos (by omega)).1 with e | e
              · rw [hr] at e; cases e
              · rw [hw] at e; cases e
          simp [hz.1, hz.2]
          omega
        · have := h.now ⟨hsb, ha⟩ hr
          rw [← h.lims.1, ← h.lims.2] at this
          cases b.busyWait <;> simp <;> omega
      unfold measure
      rw [g3, hw]
      simp only [phase, hs, e3, if_true, ha, Bool.false_eq_true, if_false]
      omega
    · unfold sendEndTx
      rw [if_pos ha]
      refine ⟨measure_lt rfl ?_, by simp⟩
      simp [phase, hs, ha]
  case ackWindow =>
    right
    exact ⟨measure_lt rfl (by simp [phase, hs, ackWindow]), by simp [ackWindow]⟩
  case waitAck =>
    right
    unfold waitAck
    simp only [hc, Bool.false_eq_true, if_false]
    exact ⟨measure_noAck (hi.stWait (Or.inr hs)) rfl (by simp [phase]), by simp⟩

theorem isr_timeout (i : Irq) (b : Bus) (hc : i.cap = false) :
    isr i b = dispatch i { b with tSet := none } := by
  unfold isr isSpike
  rw [hc]
  rfl

theorem measure_tSet (b : Bus) (x : Option Nat) : measure { b with tSet := x } = measure b := by
  unfold measure phase
  rfl

/-- On a silent bus every telegram is completed. -/
theorem silent_run {t0 : Buf} {R B : Nat} {log : List Out} {s : Sys} (h : Round t0 R B log s.bus)
    (hi : SysInv s) (hn : NoRetryErr s.bus) (hmask : MaskInv s.bus) (hidle : s.bus.st ≠ .idle)
    (hp : s.paused = false) (g : Nat → Irq) (hg : ∀ n, isTimeout (g n) = true) :
    ∃ n ok, (run s ((List.range n).map fun k => .irq (g k))).2.getLast? = some (.finished ok) := by
  obtain ⟨m, hm⟩ : ∃ m, measure s.bus = m := ⟨_, rfl⟩
  induction m using Nat.strongRecOn generalizing s log g with
  | _ m ih =>
    have hg0 := hg 0
    simp only [isTimeout, Bool.and_eq_true, Bool.not_eq_true'] at hg0
    have e1 : step s (.irq (g 0)) = ({ s with bus := (isr (g 0) s.bus).1 }, (isr (g 0) s.bus).2) := by
      simp only [step, hp, Bool.false_eq_true, if_false]
    rcases round_isr h hi.inv hn (g 0) with hr | ⟨ok, h1, h2⟩
    · have hd := dispatch_measure (b := { s.bus with tSet := none })
        (h.congr rfl rfl rfl rfl) (hi.inv.congr rfl) hn hmask hidle (g 0) hg0.1 hg0.2
      rw [← isr_timeout (g 0) s.bus hg0.1, measure_tSet] at hd
      rcases hd with ⟨ok, hd⟩ | ⟨hd1, hd2⟩
      · refine ⟨1, ok, ?_⟩
        simp [run, e1, hd]
      · have hi' := step_inv hi (.irq (g 0))
        have hn' := step_err s (.irq (g 0)) hn
        have hm' := step_mask s (.irq (g 0)) hmask
        rw [e1] at hi' hn' hm'
        obtain ⟨n, ok, hf⟩ := ih _ (by rw [← hm]; exact hd1) hr hi' hn' hm' hd2 hp
          (fun k => g (k + 1)) (fun k => hg (k + 1)) rfl
        refine ⟨n + 1, ok, ?_⟩
        rw [List.range_succ_eq_map, List.map_cons, List.map_map]
        simp only [run, e1]
        rw [List.getLast?_append]
        rw [show ((fun k => Ev.irq (g k)) ∘ Nat.succ) = fun k => Ev.irq (g (k + 1)) from rfl, hf]
        rfl
    · refine ⟨1, ok, ?_⟩
      simp [run, e1, h1]

/-! ## A queued telegram does not wait in the idle state -/

theorem waitStart_notIdle (i : Irq) (b : Bus) : (waitStart i b).1.st ≠ .idle := by
  cases hc : i.cap
  · rcases waitStart_end i b hc with e | e <;> rw [e] <;> simp
  · unfold waitStart
    rw [hc]
    simp

theorem initRx_notIdle (i : Irq) (b : Bus) : (initRx i b).1.st ≠ .idle := waitStart_notIdle i _

theorem wait50_idle (i : Irq) (b : Bus) :
    (wait50 i b).1.st ≠ .idle ∨ (wait50 i b).1.sendCur = none := by
  unfold wait50
  split
  · exact Or.inl (initRx_notIdle i b)
  · simp only
    split
    · exact Or.inl (by simp)
    · next h => exact Or.inr h

theorem recvBits_notIdle (i : Irq) (b : Bus) (hs : b.st ≠ .idle) :
    (recvBits i b).1.st ≠ .idle := by
  rcases recvBits_cases i b with ⟨_, r2⟩ | ⟨c, p, _, r2⟩
  · rw [r2]; exact hs
  · rw [r2]; simp

theorem sendBits_notIdle (i : Irq) (b : Bus) (hs : b.st = .sendBits) :
    (sendBits i b).1.st ≠ .idle := by
  unfold sendBits
  split
  · split
    · simp [hs]
    · split
      · simp [initState]
      · split
        · exact recvBits_notIdle i _ (by unfold switchToRx; simp)
        · simp [hs]
  · split
    · simp [hs]
    · unfold sendEndByte
      split <;> simp

theorem dispatch_idle (i : Irq) (b : Bus) (h : b.st ≠ .idle) :
    (dispatch i b).1.st ≠ .idle ∨ (dispatch i b).1.sendCur = none := by
  unfold dispatch
  cases hs : b.st <;> simp only [hs]
  case init =>
    unfold initSt
    split
    · simp [hs]
    · simp only
      split
      · exact wait50_idle i _
      · exact Or.inl (by simp)
  case idle => exact absurd hs h
  case initRx => exact Or.inl (initRx_notIdle i b)
  case waitStart => exact Or.inl (waitStart_notIdle i b)
  case recvBits => exact Or.inl (recvBits_notIdle i b h)
  case waitAckTx =>
    unfold waitAckTx
    split
    · exact Or.inl (initRx_notIdle i _)
    · exact Or.inl (by simp)
  case wait50 => exact wait50_idle i b
  case sendStart =>
    left
    unfold sendStart
    split
    · split
      · exact initRx_notIdle i _
      · simp
    · unfold sendBit0
      exact sendBits_notIdle i _ rfl
  case sendBit0 =>
    left
    unfold sendBit0
    exact sendBits_notIdle i _ rfl
  case sendBits => exact Or.inl (sendBits_notIdle i b hs)
  case sendEndByte => left; unfold sendEndByte; split <;> simp
  case sendEndTx =>
    left
    unfold sendEndTx
    split
    · simp
    · simp only; split
      · split <;> simp
      · simp
  case ackWindow => exact Or.inl (by simp [ackWindow])
  case waitAck =>
    left
    unfold waitAck
    split
    · exact initRx_notIdle i b
    · simp

/-- A queued telegram is on its way. -/
def Awake (s : Sys) : Prop := s.bus.sendCur.isSome → s.bus.st ≠ .idle

theorem step_awake (s : Sys) (e : Ev) (hi : SysInv s) (hn : NoRetryErr s.bus)
    (hacc : accepted s [e] = 0) (h : Awake s) : Awake (step s e).1 := by
  unfold Awake at *
  cases e <;> simp only [step]
  case irq i =>
    split
    · exact h
    · intro hsome
      have hb : s.bus.sendCur.isSome := by
        cases hc : s.bus.sendCur with
        | some t => rfl
        | none => rw [(quiet_isr i s.bus hi.inv hn hc).2] at hsome; cases hsome
      have hni := h hb
      revert hsome
      unfold isr
      simp only
      split
      · exact fun _ => hni
      · intro hsome
        rcases dispatch_idle i { s.bus with tSet := none } hni with h | h
        · exact h
        · rw [h] at hsome; cases hsome
  case queue own t len =>
    cases hc : s.bus.sendCur with
    | none => simp [accepted, hc] at hacc
    | some t => exact fun hh => h (by rw [hc]; rfl)
  case kick =>
    split
    · exact fun _ => by simp [startSendingImmediately]
    · exact h
  case discard => exact h
  case pause w =>
    split
    · exact fun _ => by simp
    · exact h
  case resume =>
    split
    · exact fun _ => by simp [initState]
    · exact h
  case maxRetries => exact h
  case maxBusyRetries => exact h

theorem run_awake (s : Sys) (es : List Ev) (hi : SysInv s) (hn : NoRetryErr s.bus)
    (hacc : accepted s es = 0) (h : Awake s) : Awake (run s es).1 := by
  induction es generalizing s with
  | nil => exact h
  | cons e es ih =>
    rw [accepted_cons] at hacc
    exact ih _ (step_inv hi e) (step_err s e hn) (by omega) (step_awake s e hi hn (by omega) h)

theorem kick_awake (s : Sys) : Awake (step s .kick).1 := by
  unfold Awake
  simp only [step]
  split
  · exact fun _ => by simp [startSendingImmediately]
  · next h => exact fun _ => h

end Verif.Bus
