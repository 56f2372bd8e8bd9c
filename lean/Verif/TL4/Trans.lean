import Verif.TL4.Spec

/-!
# Transition table

`exec_trans` splits every successful operation of the model into one of a small number of
transitions. All later proofs go by cases on this table.
-/

namespace Verif.TL4
open Knx Spec
variable {σ : Type}

theorem acquire_some {s s' : State σ} (h : acquire s = some s') :
    s.tx = .free ∧ s' = { s with tx := .acquired } := by
  unfold acquire at h
  split at h
  · rename_i hf; exact ⟨hf, by simpa using h.symm⟩
  · simp at h

/-- Resulting state of sending a control frame. -/
def ctrlState (s : State σ) (cmd : Byte) (addr : Word) (seq : Int) : State σ :=
  { s with tx := .sending, txBuf := conControlFrame s.txBuf cmd addr seq }

def ctrlOut (s : State σ) (cmd : Byte) (addr : Word) (seq : Int) : Out :=
  .sentControl (bytes (conControlFrame s.txBuf cmd addr seq)
    (telegramSize (conControlFrame s.txBuf cmd addr seq)))

theorem sendConControl_eq (s : State σ) (cmd : Byte) (addr : Word) (seq : Int) :
    sendConControl s cmd addr seq =
      if s.tx = .free then some (ctrlState s cmd addr seq, [ctrlOut s cmd addr seq]) else none := by
  unfold sendConControl acquire
  split <;> simp [sendPrepared, ctrlState, ctrlOut]

/-- Resulting state of sending the first response buffer. -/
def dataState (s : State σ) : State σ :=
  { s with tx := .sending, txBuf := memcpy s.txBuf s.conBuf1 (telegramSize s.conBuf1) }

def dataOut (s : State σ) : Out :=
  .sentData (bytes (memcpy s.txBuf s.conBuf1 (telegramSize s.conBuf1))
    (telegramSize (memcpy s.txBuf s.conBuf1 (telegramSize s.conBuf1))))

theorem sendPreparedConnected_eq (s : State σ) :
    sendPreparedConnected s = if s.tx = .free then some (dataState s, [dataOut s]) else none := by
  unfold sendPreparedConnected acquire
  split <;> simp [sendPrepared, dataState, dataOut]

/-- Final state of `a06`. -/
def closedState (s : State σ) : State σ :=
  { s with
    tx := .sending, txBuf := conControlFrame s.txBuf T_DISCONNECT s.connectedAddr 0,
    disconnectCount := s.disconnectCount + 1, phase := .closed, con1 := .free, con2 := .free }

theorem a06_eq (s : State σ) :
    a06 s = if s.tx = .free then
      some (closedState s, [ctrlOut s T_DISCONNECT s.connectedAddr 0]) else none := by
  unfold a06
  rw [sendConControl_eq]
  simp only []
  split <;> simp [ctrlState, ctrlOut, resetConnection, closedState]

/-- Final state of `a09`. -/
def repeatState (s : State σ) : State σ :=
  { dataState s with repCount := s.repCount + 1, sentTime := millis s, connectedTime := millis s }

theorem a09_eq (s : State σ) :
    a09 s = if s.tx = .free then some (repeatState s, [dataOut s]) else none := by
  unfold a09
  rw [sendPreparedConnected_eq]
  split <;> simp [repeatState, dataState, millis]

/-- Final state of `a07` when it sends. -/
def firstSendState (s : State σ) : State σ :=
  { s with
    tx := .sending, txBuf := memcpy s.txBuf s.conBuf1 (telegramSize s.conBuf1),
    phase := .openWait, con1 := .sending, repCount := 0, sentTime := millis s,
    connectedTime := millis s }

theorem a07_eq (s : State σ) (hp : s.phase ≠ .closed) (hc : s.con1 = .acquired) :
    a07 s = if s.tx = .free then some (firstSendState s, [dataOut s]) else none := by
  unfold a07
  simp only [hp, hc, if_false]
  rw [sendPreparedConnected_eq]
  simp only []
  by_cases hf : s.tx = .free <;> simp [hf, dataState, dataOut, firstSendState, millis]

/-- Guards shared by all telegrams the connection state machine looks at. -/
structure ForUs (s : State σ) (tel : Buf) : Prop where
  dest : destinationAddress tel = s.ownAddr
  nonzero : destinationAddress tel ≠ 0#16
  unicast : tel 5 &&& 0x80#8 = 0#8

/-- The transitions. -/
inductive Trans (A : App σ) (s : State σ) : Op → State σ → List Out → Prop where
  | rxIgnored (tel len) (h : destinationAddress tel ≠ 0#16) (hu : tel 5 &&& 0x80#8 = 0#8)
      (hd : destinationAddress tel ≠ s.ownAddr) : Trans A s (.rx tel len) s []
  | rxBroadcast (tel len) (h : destinationAddress tel = 0#16) :
      Trans A s (.rx tel len) { s with app := (A.broadcast s.app tel len).1 } [.broadcastCall tel len]
  | rxBroadcastSend (tel len f) (h : destinationAddress tel = 0#16)
      (hf : (A.broadcast s.app tel len).2 = some f) (htx : s.tx = .free) :
      Trans A s (.rx tel len)
        { s with app := (A.broadcast s.app tel len).1, tx := .sending, txBuf := f s.txBuf }
        [.broadcastCall tel len, .userSent (bytes (f s.txBuf) (telegramSize (f s.txBuf)))]
  | rxGroup (tel len) (h : destinationAddress tel ≠ 0#16) (hg : tel 5 &&& 0x80#8 ≠ 0#8) :
      Trans A s (.rx tel len) { s with app := (A.group s.app tel len).1 } [.groupCall tel len]
  | rxGroupSend (tel len f) (h : destinationAddress tel ≠ 0#16) (hg : tel 5 &&& 0x80#8 ≠ 0#8)
      (hf : (A.group s.app tel len).2 = some f) (htx : s.tx = .free) :
      Trans A s (.rx tel len)
        { s with app := (A.group s.app tel len).1, tx := .sending, txBuf := f s.txBuf }
        [.groupCall tel len, .userSent (bytes (f s.txBuf) (telegramSize (f s.txBuf)))]
  | connect (tel len) (hu : ForUs s tel) (hc : tel 6 &&& 0xc3#8 = T_CONNECT) (hp : s.phase = .closed) :
      Trans A s (.rx tel len) (a01 s (senderAddress tel)) []
  | connectSame (tel len) (hu : ForUs s tel) (hc : tel 6 &&& 0xc3#8 = T_CONNECT)
      (hp : s.phase ≠ .closed) (ha : s.connectedAddr = senderAddress tel) :
      Trans A s (.rx tel len) s []
  | connectOther (tel len) (hu : ForUs s tel) (hc : tel 6 &&& 0xc3#8 = T_CONNECT)
      (hp : s.phase ≠ .closed) (ha : s.connectedAddr ≠ senderAddress tel) (htx : s.tx = .free) :
      Trans A s (.rx tel len)
        { s with tx := .sending, disconnectCount := s.disconnectCount + 1
                 txBuf := conControlFrame s.txBuf T_DISCONNECT (senderAddress tel) 0 }
        [ctrlOut s T_DISCONNECT (senderAddress tel) 0]
  | disconnectIgnored (tel len) (hu : ForUs s tel) (hc : tel 6 &&& 0xc3#8 = T_DISCONNECT)
      (hp : s.phase = .closed ∨ senderAddress tel ≠ s.connectedAddr) : Trans A s (.rx tel len) s []
  | disconnected (tel len) (hu : ForUs s tel) (hc : tel 6 &&& 0xc3#8 = T_DISCONNECT)
      (hp : s.phase ≠ .closed) (ha : senderAddress tel = s.connectedAddr) :
      Trans A s (.rx tel len)
        { s with phase := .closed, con1 := .free, con2 := .free,
                 disconnectCount := s.disconnectCount + 1 } []
  | ackIgnored (tel len) (hu : ForUs s tel) (hc : tel 6 &&& 0x80#8 ≠ 0#8)
      (h1 : tel 6 &&& 0xc3#8 ≠ T_CONNECT) (h2 : tel 6 &&& 0xc3#8 ≠ T_DISCONNECT)
      (hk : tel 6 &&& 0x01#8 = 0#8)
      (hp : s.phase ≠ .openWait ∨ s.connectedAddr ≠ senderAddress tel) : Trans A s (.rx tel len) s []
  | ackWrong (tel len) (hu : ForUs s tel) (hc : tel 6 &&& 0x80#8 ≠ 0#8)
      (h1 : tel 6 &&& 0xc3#8 ≠ T_CONNECT) (h2 : tel 6 &&& 0xc3#8 ≠ T_DISCONNECT)
      (hk : tel 6 &&& 0x01#8 = 0#8) (hp : s.phase = .openWait)
      (ha : s.connectedAddr = senderAddress tel)
      (hs : ((sequenceNumber tel).toNat : Int) ≠ s.seqNoSend) (htx : s.tx = .free) :
      Trans A s (.rx tel len) (closedState s) [ctrlOut s T_DISCONNECT s.connectedAddr 0]
  | ackOk (tel len) (hu : ForUs s tel) (hc : tel 6 &&& 0x80#8 ≠ 0#8)
      (h1 : tel 6 &&& 0xc3#8 ≠ T_CONNECT) (h2 : tel 6 &&& 0xc3#8 ≠ T_DISCONNECT)
      (hk : tel 6 &&& 0x01#8 = 0#8) (hp : s.phase = .openWait)
      (ha : s.connectedAddr = senderAddress tel)
      (hs : ((sequenceNumber tel).toNat : Int) = s.seqNoSend) :
      Trans A s (.rx tel len) { a08 s with phase := .openIdle } []
  | nakIgnored (tel len) (hu : ForUs s tel) (hc : tel 6 &&& 0x80#8 ≠ 0#8)
      (h1 : tel 6 &&& 0xc3#8 ≠ T_CONNECT) (h2 : tel 6 &&& 0xc3#8 ≠ T_DISCONNECT)
      (hk : tel 6 &&& 0x01#8 ≠ 0#8)
      (hp : s.phase = .closed ∨ ((sequenceNumber tel).toNat : Int) ≠ s.seqNoSend ∨
        s.connectedAddr ≠ senderAddress tel) : Trans A s (.rx tel len) s []
  | nakRepeat (tel len) (hu : ForUs s tel) (hc : tel 6 &&& 0x80#8 ≠ 0#8)
      (h1 : tel 6 &&& 0xc3#8 ≠ T_CONNECT) (h2 : tel 6 &&& 0xc3#8 ≠ T_DISCONNECT)
      (hk : tel 6 &&& 0x01#8 ≠ 0#8) (hp : s.phase = .openWait)
      (ha : s.connectedAddr = senderAddress tel)
      (hs : ((sequenceNumber tel).toNat : Int) = s.seqNoSend) (hr : s.repCount < 3)
      (htx : s.tx = .free) :
      Trans A s (.rx tel len) (repeatState s) [dataOut s]
  | nakClose (tel len) (hu : ForUs s tel) (hc : tel 6 &&& 0x80#8 ≠ 0#8)
      (h1 : tel 6 &&& 0xc3#8 ≠ T_CONNECT) (h2 : tel 6 &&& 0xc3#8 ≠ T_DISCONNECT)
      (hk : tel 6 &&& 0x01#8 ≠ 0#8) (hp : s.phase ≠ .closed)
      (ha : s.connectedAddr = senderAddress tel)
      (hs : ((sequenceNumber tel).toNat : Int) = s.seqNoSend)
      (hr : ¬ (s.repCount < 3 ∧ s.phase = .openWait)) (htx : s.tx = .free) :
      Trans A s (.rx tel len) (closedState s) [ctrlOut s T_DISCONNECT s.connectedAddr 0]
  | individual (tel len) (hu : ForUs s tel) (hc : tel 6 &&& 0xfc#8 = 0#8) (htx : s.tx = .free)
      (hr : (A.processApci s.app tel len
        (setDestinationAddress (initLpdu s.txBuf (priority tel) false false) (senderAddress tel))).2.2
          = false) :
      Trans A s (.rx tel len)
        { s with
          app := (A.processApci s.app tel len
            (setDestinationAddress (initLpdu s.txBuf (priority tel) false false) (senderAddress tel))).1
          txBuf := (A.processApci s.app tel len
            (setDestinationAddress (initLpdu s.txBuf (priority tel) false false) (senderAddress tel))).2.1 }
        [.apciIndividual tel len]
  | individualSend (tel len r) (hu : ForUs s tel) (hc : tel 6 &&& 0xfc#8 = 0#8) (htx : s.tx = .free)
      (hr : A.processApci s.app tel len
        (setDestinationAddress (initLpdu s.txBuf (priority tel) false false) (senderAddress tel)) = r)
      (hs : r.2.2 = true) :
      Trans A s (.rx tel len) { s with app := r.1, tx := .sending, txBuf := r.2.1 }
        [.apciIndividual tel len, .sentIndividual (bytes r.2.1 (telegramSize r.2.1))]
  | dataIgnored (tel len) (hu : ForUs s tel) (hc : tel 6 &&& 0x80#8 = 0#8) (hn : tel 6 &&& 0xfc#8 ≠ 0#8)
      (hp : s.connectedAddr ≠ senderAddress tel ∨ s.phase = .closed) : Trans A s (.rx tel len) s []
  | dataAccepted (tel len) (hu : ForUs s tel) (hc : tel 6 &&& 0x80#8 = 0#8) (hn : tel 6 &&& 0xfc#8 ≠ 0#8)
      (ha : s.connectedAddr = senderAddress tel) (hp : s.phase ≠ .closed)
      (hs : ((sequenceNumber tel).toNat : Int) = s.seqNoRcv) (htx : s.tx = .free) :
      Trans A s (.rx tel len)
        (a02Process A (ctrlState s T_ACK s.connectedAddr (sequenceNumber tel).toNat) tel len)
        [ctrlOut s T_ACK s.connectedAddr (sequenceNumber tel).toNat, .apciConnected tel len]
  | dataRepeated (tel len) (hu : ForUs s tel) (hc : tel 6 &&& 0x80#8 = 0#8) (hn : tel 6 &&& 0xfc#8 ≠ 0#8)
      (ha : s.connectedAddr = senderAddress tel) (hp : s.phase ≠ .closed)
      (hs : ((sequenceNumber tel).toNat : Int) ≠ s.seqNoRcv)
      (hs' : ((sequenceNumber tel).toNat : Int) = (s.seqNoRcv - 1) % 16) (htx : s.tx = .free) :
      Trans A s (.rx tel len)
        { ctrlState s T_ACK s.connectedAddr (sequenceNumber tel).toNat with
          repeatedAck := s.repeatedAck + 1, connectedTime := millis s }
        [ctrlOut s T_ACK s.connectedAddr (sequenceNumber tel).toNat]
  | dataNak (tel len) (hu : ForUs s tel) (hc : tel 6 &&& 0x80#8 = 0#8) (hn : tel 6 &&& 0xfc#8 ≠ 0#8)
      (ha : s.connectedAddr = senderAddress tel) (hp : s.phase ≠ .closed)
      (hs : ((sequenceNumber tel).toNat : Int) ≠ s.seqNoRcv)
      (hs' : ((sequenceNumber tel).toNat : Int) ≠ (s.seqNoRcv - 1) % 16) (htx : s.tx = .free) :
      Trans A s (.rx tel len)
        { ctrlState s T_NACK s.connectedAddr (sequenceNumber tel).toNat with connectedTime := millis s }
        [ctrlOut s T_NACK s.connectedAddr (sequenceNumber tel).toNat]
  | loopIdle (h : s.enabled = false ∨ s.tx ≠ .free ∨
        ((s.phase = .closed ∨ (elapsed s s.connectedTime).toNat < 6000) ∧
         ¬ (s.phase = .openIdle ∧ s.con1 = .acquired) ∧
         ¬ (s.phase = .openWait ∧ 3000 ≤ (elapsed s s.sentTime).toNat))) : Trans A s .loop s []
  | loopTimeout (hen : s.enabled = true) (htx : s.tx = .free) (hp : s.phase ≠ .closed)
      (ht : 6000 ≤ (elapsed s s.connectedTime).toNat) :
      Trans A s .loop (closedState s) [ctrlOut s T_DISCONNECT s.connectedAddr 0]
  | loopSend (hen : s.enabled = true) (htx : s.tx = .free) (hp : s.phase = .openIdle)
      (hc : s.con1 = .acquired) (ht : (elapsed s s.connectedTime).toNat < 6000) :
      Trans A s .loop (firstSendState s) [dataOut s]
  | loopRepeat (hen : s.enabled = true) (htx : s.tx = .free) (hp : s.phase = .openWait)
      (ht : (elapsed s s.connectedTime).toNat < 6000) (ht2 : 3000 ≤ (elapsed s s.sentTime).toNat)
      (hr : s.repCount < 3) : Trans A s .loop (repeatState s) [dataOut s]
  | loopGiveUp (hen : s.enabled = true) (htx : s.tx = .free) (hp : s.phase = .openWait)
      (ht : (elapsed s s.connectedTime).toNat < 6000) (ht2 : 3000 ≤ (elapsed s s.sentTime).toNat)
      (hr : ¬ s.repCount < 3) :
      Trans A s .loop (closedState s) [ctrlOut s T_DISCONNECT s.connectedAddr 0]
  | txDoneQuiet (ok) (n : Nat) (htx : s.tx = .sending)
      (hn : (n = 0 ∧ (ok = true ∨ 3 ≤ s.conCtrlRep) ∧ s.txBuf 6 &&& 0x80#8 ≠ 0#8) ∨
        (n = s.conCtrlRep ∧ s.txBuf 6 &&& 0x80#8 = 0#8)) :
      Trans A s (.txDone ok) { s with tx := .free, conCtrlRep := n } []
  | txDoneRetry (htx : s.tx = .sending) (hc : s.conCtrlRep < 3) (hb : s.txBuf 6 &&& 0x80#8 ≠ 0#8) :
      Trans A s (.txDone false) { s with conCtrlRep := s.conCtrlRep + 1 }
        [.resent (bytes s.txBuf (telegramSize s.txBuf))]
  | userSend (f) (htx : s.tx = .free) :
      Trans A s (.userSend f) { s with tx := .sending, txBuf := f s.txBuf }
        [.userSent (bytes (f s.txBuf) (telegramSize (f s.txBuf)))]
  | disconnect (htx : s.tx = .free) :
      Trans A s .disconnect (closedState s) [ctrlOut s T_DISCONNECT s.connectedAddr 0]
  | setOwnAddress (a) : Trans A s (.setOwnAddress a) { s with ownAddr := a } []
  | advance (ms) : Trans A s (.advance ms) { s with clock := s.clock + ms } []

/-! Bit facts used to translate the masks. -/

theorem tpci_bit7 (b : Byte) : ((b &&& 0xc3#8) &&& 0x80#8 = 0#8) ↔ (b &&& 0x80#8 = 0#8) := by
  revert b; decide +kernel

theorem tpci_bit0 (b : Byte) : ((b &&& 0xc3#8) &&& 0x01#8 = 0#8) ↔ (b &&& 0x01#8 = 0#8) := by
  revert b; decide +kernel

theorem tpci_ackmask (b : Byte) (h : b &&& 0x80#8 ≠ 0#8) : (b &&& 0xc3#8) &&& 0xC2#8 ≠ 0#8 := by
  revert b; decide +kernel

theorem fc_zero_bit7 (b : Byte) (h : b &&& 0xfc#8 = 0#8) : b &&& 0x80#8 = 0#8 := by
  revert b; decide +kernel

theorem elapsed_self (s : State σ) : (elapsed s (millis s)).toNat = 0 := by
  simp [elapsed]

theorem trans_callback_aux (s : State σ) (r : σ × Option (Buf → Buf)) (ev : Out) (s' : State σ)
    (o : List Out) (h : callback s r ev = some (s', o)) :
    (r.2 = none ∧ s' = { s with app := r.1 } ∧ o = [ev]) ∨
    ∃ f, r.2 = some f ∧ s.tx = .free ∧
      s' = { s with app := r.1, tx := .sending, txBuf := f s.txBuf } ∧
      o = [ev, .userSent (bytes (f s.txBuf) (telegramSize (f s.txBuf)))] := by
  unfold callback at h
  simp only [] at h
  split at h
  · rename_i hr
    simp at h
    obtain ⟨rfl, rfl⟩ := h; exact Or.inl ⟨hr, rfl, rfl⟩
  · rename_i f hr
    right
    refine ⟨f, hr, ?_⟩
    unfold TL4.userSend acquire at h
    simp only [] at h
    split at h
    · rename_i htx
      simp [sendPrepared] at h
      obtain ⟨rfl, rfl⟩ := h; exact ⟨htx, rfl, rfl⟩
    · simp at h

theorem exec_trans_conControl (A : App σ) (s s' : State σ) (tel : Buf) (len : Nat) (o : List Out)
    (hu : ForUs s tel) (hb : tel 6 &&& 0x80#8 ≠ 0#8)
    (h : conControl s (senderAddress tel) (tel 6 &&& 0xc3#8) tel = some (s', o)) :
    Trans A s (.rx tel len) s' o := by
  unfold conControl at h
  split at h
  · -- connect
    rename_i hc
    unfold conConnect at h
    split at h
    · rename_i hp
      simp at h
      obtain ⟨rfl, rfl⟩ := h
      exact .connect tel len hu hc hp
    · rename_i hp
      split at h
      · rename_i ha
        simp at h
        obtain ⟨rfl, rfl⟩ := h
        exact .connectSame tel len hu hc hp ha
      · rename_i ha
        unfold a10 at h
        rw [sendConControl_eq] at h
        simp only [] at h
        split at h
        · rename_i htx
          simp [ctrlState, ctrlOut] at h
          obtain ⟨rfl, rfl⟩ := h
          exact .connectOther tel len hu hc hp ha htx
        · simp at h
  · rename_i h1
    split at h
    · rename_i hc
      unfold conDisconnect at h
      split at h
      · rename_i hp
        simp at h
        obtain ⟨rfl, rfl⟩ := h
        exact .disconnectIgnored tel len hu hc (Or.inl hp)
      · rename_i hp
        split at h
        · rename_i ha
          simp [a05, resetConnection] at h
          obtain ⟨rfl, rfl⟩ := h
          exact .disconnected tel len hu hc hp ha
        · rename_i ha
          simp at h
          obtain ⟨rfl, rfl⟩ := h
          exact .disconnectIgnored tel len hu hc (Or.inr ha)
    · rename_i h2
      unfold conAck at h
      rw [if_neg (tpci_ackmask _ hb)] at h
      simp only [tpci_bit0] at h
      split at h
      · rename_i hk
        split at h
        · rename_i hp
          simp at h
          obtain ⟨rfl, rfl⟩ := h
          refine .ackIgnored tel len hu hb h1 h2 hk (Or.inl ?_)
          rcases hp with hp | hp <;> simp [hp]
        · rename_i hp
          have hw : s.phase = .openWait := by
            cases hh : s.phase <;> simp_all
          split at h
          · rename_i ha
            simp at h
            obtain ⟨rfl, rfl⟩ := h
            exact .ackIgnored tel len hu hb h1 h2 hk (Or.inr ha)
          · rename_i ha
            have ha : s.connectedAddr = senderAddress tel := by simpa using ha
            split at h
            · rename_i hs
              rw [a06_eq] at h
              split at h
              · rename_i htx
                simp at h
                obtain ⟨rfl, rfl⟩ := h
                exact .ackWrong tel len hu hb h1 h2 hk hw ha hs htx
              · simp at h
            · rename_i hs
              simp at h
              obtain ⟨rfl, rfl⟩ := h
              exact .ackOk tel len hu hb h1 h2 hk hw ha (by simpa using hs)
      · rename_i hk
        split at h
        · rename_i hp
          simp at h
          obtain ⟨rfl, rfl⟩ := h
          exact .nakIgnored tel len hu hb h1 h2 hk hp
        · rename_i hp
          simp only [not_or, Decidable.not_not] at hp
          split at h
          · rename_i hr
            rw [a09_eq] at h
            split at h
            · rename_i htx
              simp at h
              obtain ⟨rfl, rfl⟩ := h
              exact .nakRepeat tel len hu hb h1 h2 hk hr.2 hp.2.2 hp.2.1 hr.1 htx
            · simp at h
          · rename_i hr
            rw [a06_eq] at h
            split at h
            · rename_i htx
              simp at h
              obtain ⟨rfl, rfl⟩ := h
              exact .nakClose tel len hu hb h1 h2 hk hp.1 hp.2.2 hp.2.1 hr htx
            · simp at h

theorem exec_trans_direct (A : App σ) (s s' : State σ) (tel : Buf) (len : Nat) (o : List Out)
    (hu : ForUs s tel) (hb : tel 6 &&& 0x80#8 = 0#8)
    (h : direct A s tel len = some (s', o)) :
    Trans A s (.rx tel len) s' o := by
  unfold direct at h
  simp only [] at h
  split at h
  · rename_i hc
    unfold acquire at h
    split at h
    · rename_i htx
      simp only [Option.map_some, Option.some.injEq] at h
      split at h
      · rename_i hs
        simp only [sendPrepared, List.cons_append, List.nil_append, Prod.mk.injEq] at h
        obtain ⟨rfl, rfl⟩ := h
        exact .individualSend tel len _ hu hc htx rfl hs
      · rename_i hs
        simp only [Prod.mk.injEq] at h
        obtain ⟨rfl, rfl⟩ := h
        have e : s = { s with tx := .free } := by rw [← htx]
        have := Trans.individual (A := A) tel len hu hc htx (by simpa using hs)
        rw [← htx]
        exact this
    · simp at h
  · rename_i hn
    split at h
    · rename_i hp
      simp at h
      obtain ⟨rfl, rfl⟩ := h
      exact .dataIgnored tel len hu hb hn hp
    · rename_i hp
      simp only [not_or, Decidable.not_not] at hp
      split at h
      · rename_i hs
        unfold a02 at h
        rw [sendConControl_eq] at h
        split at h
        · rename_i htx
          simp at h
          obtain ⟨rfl, rfl⟩ := h
          exact .dataAccepted tel len hu hb hn hp.1 hp.2 hs htx
        · simp at h
      · rename_i hs
        split at h
        · rename_i hs'
          unfold a03 at h
          rw [sendConControl_eq] at h
          split at h
          · rename_i htx
            simp at h
            obtain ⟨rfl, rfl⟩ := h
            exact .dataRepeated tel len hu hb hn hp.1 hp.2 hs hs' htx
          · simp at h
        · rename_i hs'
          unfold a04 at h
          rw [sendConControl_eq] at h
          split at h
          · rename_i htx
            simp at h
            obtain ⟨rfl, rfl⟩ := h
            exact .dataNak tel len hu hb hn hp.1 hp.2 hs hs' htx
          · simp at h

theorem exec_trans_loop (A : App σ) (s s' : State σ) (o : List Out)
    (h : loop s = some (s', o)) : Trans A s .loop s' o := by
  unfold loop at h
  split at h
  · rename_i hen
    simp at h
    obtain ⟨rfl, rfl⟩ := h
    exact .loopIdle (Or.inl (by simpa using hen))
  rename_i hen
  have hen : s.enabled = true := by simpa using hen
  split at h
  · rename_i htx
    simp at h
    obtain ⟨rfl, rfl⟩ := h
    exact .loopIdle (Or.inr (Or.inl htx))
  rename_i htx
  have htx : s.tx = .free := by simpa using htx
  unfold TL4.loopTimeout at h
  split at h
  · -- timeout
    rename_i ht
    rw [a06_eq, if_pos htx] at h
    simp [andThen, TL4.loopSend, closedState, TL4.loopRepeat] at h
    obtain ⟨rfl, rfl⟩ := h
    exact .loopTimeout hen htx ht.1 ht.2
  · rename_i ht
    have ht' : s.phase = .closed ∨ (elapsed s s.connectedTime).toNat < 6000 := by
      by_cases hp : s.phase = .closed
      · exact Or.inl hp
      · right; have := not_and.mp ht hp; omega
    unfold TL4.loopSend at h
    simp only [andThen, Option.bind_some] at h
    split at h
    · rename_i hsnd
      have hpc : s.phase ≠ .closed := by rw [hsnd.1]; simp
      rw [a07_eq s hpc hsnd.2, if_pos htx] at h
      have hel : (elapsed (firstSendState s) (firstSendState s).sentTime).toNat = 0 := by
        simp [firstSendState, elapsed, millis]
      simp [TL4.loopRepeat, hel] at h
      obtain ⟨rfl, rfl⟩ := h
      have ht'' : (elapsed s s.connectedTime).toNat < 6000 := by
        rcases ht' with hp | hp
        · exact absurd hp hpc
        · exact hp
      exact .loopSend hen htx hsnd.1 hsnd.2 ht''
    · rename_i hns
      simp only [Option.map_some, List.append_nil, Option.bind_some] at h
      unfold TL4.loopRepeat at h
      split at h
      · rename_i hw
        have ht'' : (elapsed s s.connectedTime).toNat < 6000 := by
          rcases ht' with hp | hp
          · rw [hw.1] at hp; simp at hp
          · exact hp
        split at h
        · rename_i hr
          rw [a09_eq, if_pos htx] at h
          simp at h
          obtain ⟨rfl, rfl⟩ := h
          exact .loopRepeat hen htx hw.1 ht'' hw.2 hr
        · rename_i hr
          rw [a06_eq, if_pos htx] at h
          simp at h
          obtain ⟨rfl, rfl⟩ := h
          exact .loopGiveUp hen htx hw.1 ht'' hw.2 hr
      · rename_i hw
        simp at h
        obtain ⟨rfl, rfl⟩ := h
        exact .loopIdle (Or.inr (Or.inr ⟨ht', hns, hw⟩))

/-- Every successful operation is one of the transitions. -/
theorem exec_trans (A : App σ) (s s' : State σ) (op : Op) (o : List Out)
    (h : exec A s op = some (s', o)) : Trans A s op s' o := by
  cases op with
  | rx tel len =>
    simp only [exec] at h
    unfold processTelegram at h
    simp only [] at h
    split at h
    · rename_i hd
      rcases trans_callback_aux _ _ _ _ _ h with ⟨hr, rfl, rfl⟩ | ⟨f, hr, htx, rfl, rfl⟩
      · exact .rxBroadcast tel len hd
      · exact .rxBroadcastSend tel len f hd hr htx
    · rename_i hd
      split at h
      · rename_i hg
        rcases trans_callback_aux _ _ _ _ _ h with ⟨hr, rfl, rfl⟩ | ⟨f, hr, htx, rfl, rfl⟩
        · exact .rxGroup tel len hd hg
        · exact .rxGroupSend tel len f hd hg hr htx
      · rename_i hg
        have hg : tel 5 &&& 0x80#8 = 0#8 := by simpa using hg
        split at h
        · rename_i hown
          simp at h
          obtain ⟨rfl, rfl⟩ := h
          exact .rxIgnored tel len hd hg hown
        · rename_i hown
          have hu : ForUs s tel := ⟨by simpa using hown, hd, hg⟩
          split at h
          · rename_i hb
            have hb : tel 6 &&& 0x80#8 ≠ 0#8 := by rwa [ne_eq, tpci_bit7] at hb
            exact exec_trans_conControl A s s' tel len o hu hb h
          · rename_i hb
            have hb : tel 6 &&& 0x80#8 = 0#8 := by
              rw [ne_eq, tpci_bit7] at hb; simpa using hb
            exact exec_trans_direct A s s' tel len o hu hb h
  | loop => exact exec_trans_loop A s s' o h
  | txDone ok =>
    simp only [exec] at h
    unfold finishedSending at h
    split at h
    · simp at h
    rename_i htx
    have htx : s.tx = .sending := by simpa using htx
    simp only [ne_eq, tpci_bit7] at h
    split at h
    · rename_i hb
      split at h
      · rename_i hc
        simp at hc
        simp [sendPrepared] at h
        obtain ⟨rfl, rfl⟩ := h; rw [hc.1]
        have := Trans.txDoneRetry (A := A) htx hc.2 hb
        rw [← htx]
        exact this
      · rename_i hc
        simp at h
        obtain ⟨rfl, rfl⟩ := h
        refine .txDoneQuiet ok 0 htx (Or.inl ⟨rfl, ?_, hb⟩)
        cases ok
        · right; simp at hc; exact hc
        · left; rfl
    · rename_i hb
      simp at h
      obtain ⟨rfl, rfl⟩ := h
      exact .txDoneQuiet ok s.conCtrlRep htx (Or.inr ⟨rfl, by simpa using hb⟩)
  | userSend f =>
    simp only [exec] at h
    unfold TL4.userSend acquire at h
    split at h
    · rename_i htx
      simp [sendPrepared] at h
      obtain ⟨rfl, rfl⟩ := h
      exact .userSend f htx
    · simp at h
  | disconnect =>
    simp only [exec] at h
    rw [a06_eq] at h
    split at h
    · rename_i htx
      simp at h
      obtain ⟨rfl, rfl⟩ := h
      exact .disconnect htx
    · simp at h
  | setOwnAddress a =>
    simp [exec] at h
    obtain ⟨rfl, rfl⟩ := h
    exact .setOwnAddress a
  | advance ms =>
    simp [exec] at h
    obtain ⟨rfl, rfl⟩ := h
    exact .advance ms

/-- Scheduler steps: either nothing happens or a transition. -/
theorem step_trans (A : App σ) (s : State σ) (op : Op) :
    (step A s op = (s, []) ∧ exec A s op = none) ∨ Trans A s op (step A s op).1 (step A s op).2 := by
  unfold step
  cases h : exec A s op with
  | none => exact Or.inl ⟨rfl, rfl⟩
  | some r => exact Or.inr (exec_trans A s r.1 op r.2 h)

end Verif.TL4
