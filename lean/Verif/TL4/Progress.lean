import Verif.TL4.PropsDialogue

/-!
# A dialogue can always go on: specification and device steps

`Calm` runs are the ones in which the bus neither loses nor duplicates a telegram and nothing but the
dialogue itself happens. `Settled` states are those in which every request transmitted so far has been
executed, acknowledged and (if it is one that gets an answer) answered, and nothing is on its way.
-/

namespace Verif.TL4
open Knx Spec
variable {σ : Type}

/-- A step of the dialogue in which nothing goes wrong: transmissions succeed, everything arrives. -/
inductive CalmStep (A : App σ) (p : Word) (S : Client σ) : Dialogue σ → Dialogue σ → Prop where
  | clientSend (z) (h : answersBefore S.req S.expects z.sys.current ≤ z.got.length) :
      CalmStep A p S z
        { z with sys := { z.sys with toDevice := z.sys.toDevice ++ [S.req z.sys.current] } }
  | receive (z t rest len) (h : z.sys.toDevice = t :: rest) (hl : S.lens t len) :
      CalmStep A p S z
        ({ z with sys := { z.sys with toDevice := rest } }.device A p (.rx t len))
  | receiveAck (z t rest len) (h : z.acks = t :: rest) :
      CalmStep A p S z ({ z with acks := rest }.device A p (.rx t len))
  | loop (z) : CalmStep A p S z (z.device A p .loop)
  | transmitted (z) : CalmStep A p S z (z.device A p (.txDone true))
  | clientAck (z n rest) (h : z.sys.toClient = n :: rest) :
      CalmStep A p S z
        { z with sys := { z.sys with toClient := rest
                                     current := if n = z.sys.current % 16 then z.sys.current + 1
                                                else z.sys.current } }
  | clientData (z f rest) (h : z.fromDevice = f :: rest) :
      CalmStep A p S z
        { z with fromDevice := rest
                 got := if numberIn f = z.got.length % 16 then z.got ++ [f] else z.got }
  | answerAck (z) (h : z.got ≠ []) :
      CalmStep A p S z { z with acks := z.acks ++ [S.ack (z.got.length - 1)] }

/-- Calm runs. -/
inductive Calm (A : App σ) (p : Word) (S : Client σ) (z0 : Dialogue σ) : Dialogue σ → Prop where
  | start : Calm A p S z0 z0
  | step (z z') : Calm A p S z0 z → CalmStep A p S z z' → Calm A p S z0 z'

/-- Every request transmitted so far has been executed, acknowledged and answered; the connection is
open, the device has nothing to send and nothing is on its way. -/
structure Settled (S : Client σ) (d : Word) (z : Dialogue σ) : Prop where
  idle : z.sys.dev.phase = .openIdle
  con1 : z.sys.dev.con1 = .free
  con2 : z.sys.dev.con2 = .free
  tx : z.sys.dev.tx = .free
  own : z.sys.dev.ownAddr = d
  toDevice : z.sys.toDevice = []
  toClient : z.sys.toClient = []
  fromDevice : z.fromDevice = []
  acks : z.acks = []
  executed : z.executed.length = z.sys.current
  answered : z.got.length = answersBefore S.req S.expects z.sys.current

theorem CalmStep.dstep {A : App σ} {p : Word} {S : Client σ} {z z' : Dialogue σ} (h : CalmStep A p S z z') :
    DStep A p S z z' := by
  cases h with
  | clientSend h => exact .clientSend _ h
  | receive t rest len h hl => exact .receive _ t rest len h hl
  | receiveAck t rest len h => exact .receiveAck _ t rest len h
  | loop => exact .other _ _ (foreignD_quiet _ _ _ _ _ (by simp))
  | transmitted => exact .other _ _ (foreignD_quiet _ _ _ _ _ (by simp))
  | clientAck n rest h => exact .clientAck _ n rest h
  | clientData f rest h => exact .clientData _ f rest h
  | answerAck h => exact .answerAck _ h

theorem Calm.reach {A : App σ} {p : Word} {S : Client σ} {z z' : Dialogue σ} (h : Calm A p S z z') :
    DReach A p S z z' := by
  induction h with
  | start => exact .start
  | step _ _ _ h2 ih => exact .step _ _ ih h2.dstep

theorem Calm.trans {A : App σ} {p : Word} {S : Client σ} {a b c : Dialogue σ} (h : Calm A p S a b)
    (h2 : Calm A p S b c) : Calm A p S a c := by
  induction h2 with
  | start => exact h
  | step _ _ _ h2 ih => exact .step _ _ ih h2

theorem DReach.trans {A : App σ} {p : Word} {S : Client σ} {a b c : Dialogue σ} (h : DReach A p S a b)
    (h2 : DReach A p S b c) : DReach A p S a c := by
  induction h2 with
  | start => exact h
  | step _ _ _ h2 ih => exact .step _ _ ih h2

theorem Calm.one {A : App σ} {p : Word} {S : Client σ} {a b : Dialogue σ} (h : CalmStep A p S a b) :
    Calm A p S a b := .step _ _ .start h

/-! ## What the device does, forwards -/

theorem fwd_txDone (A : App σ) (s : State σ) (h : s.tx = .sending) :
    ∃ n, step A s (.txDone true) = ({ s with tx := .free, conCtrlRep := n }, []) := by
  have h' : ¬ (s.tx ≠ .sending) := by rw [h]; simp
  by_cases hb : (s.txBuf 6 &&& 0xc3#8) &&& 0x80#8 ≠ 0#8
  · refine ⟨0, ?_⟩
    simp [step, exec, finishedSending, h, hb]
  · refine ⟨s.conCtrlRep, ?_⟩
    simp only [step, exec, finishedSending]
    rw [if_neg h', if_neg hb]
    rfl

theorem fwd_unicast (A : App σ) (s : State σ) (t : Buf) (len : Nat) (hu : UnicastTo s.ownAddr t) :
    exec A s (.rx t len) =
      if t 6 &&& 0x80#8 ≠ 0#8 then conControl s (senderAddress t) (t 6 &&& 0xc3#8) t else direct A s t len := by
  have hf := (forUs_iff s t).mpr hu
  simp only [exec, processTelegram]
  rw [if_neg hf.nonzero, if_neg (by rw [hf.unicast]; simp), if_neg (by rw [hf.dest]; simp)]
  simp only [ne_eq, tpci_bit7]

theorem numbered_bits (t : Buf) (h : isNumberedData t = true) :
    t 6 &&& 0x80#8 = 0#8 ∧ t 6 &&& 0xfc#8 ≠ 0#8 := by
  unfold isNumberedData at h
  revert h; generalize t 6 = b; revert b; decide +kernel

/-- A request with the expected number is acknowledged and executed. -/
theorem fwd_accept (A : App σ) (s : State σ) (t : Buf) (len : Nat) (hu : UnicastTo s.ownAddr t)
    (hn : isNumberedData t = true) (ha : s.connectedAddr = src t) (hp : s.phase ≠ .closed)
    (hs : (seqOf (t 6) : Int) = s.seqNoRcv) (htx : s.tx = .free) :
    step A s (.rx t len) =
      (a02Process A (ctrlState s T_ACK s.connectedAddr (seqOf (t 6))) t len,
        [ctrlOut s T_ACK s.connectedAddr (seqOf (t 6)), .apciConnected t len]) := by
  obtain ⟨b1, b2⟩ := numbered_bits t hn
  have hq := seq_eq t (notFF_of_bit7 _ b1)
  unfold step
  rw [fwd_unicast A s t len hu, if_neg (by rw [b1]; simp)]
  unfold direct
  simp only []
  rw [if_neg b2, if_neg (by rw [sender_eq, ha]; simp [hp]), hq, if_pos hs]
  unfold a02
  rw [sendConControl_eq, if_pos htx]
  rfl

/-- A repeated request is acknowledged again. -/
theorem fwd_again (A : App σ) (s : State σ) (t : Buf) (len : Nat) (hu : UnicastTo s.ownAddr t)
    (hn : isNumberedData t = true) (ha : s.connectedAddr = src t) (hp : s.phase ≠ .closed)
    (hs : (seqOf (t 6) : Int) ≠ s.seqNoRcv) (hs' : (seqOf (t 6) : Int) = (s.seqNoRcv - 1) % 16)
    (htx : s.tx = .free) :
    step A s (.rx t len) =
      ({ ctrlState s T_ACK s.connectedAddr (seqOf (t 6)) with
          repeatedAck := s.repeatedAck + 1, connectedTime := millis s },
        [ctrlOut s T_ACK s.connectedAddr (seqOf (t 6))]) := by
  obtain ⟨b1, b2⟩ := numbered_bits t hn
  have hq := seq_eq t (notFF_of_bit7 _ b1)
  unfold step
  rw [fwd_unicast A s t len hu, if_neg (by rw [b1]; simp)]
  unfold direct
  simp only []
  rw [if_neg b2, if_neg (by rw [sender_eq, ha]; simp [hp]), hq, if_neg hs, if_pos hs']
  unfold a03
  rw [sendConControl_eq, if_pos htx]
  rfl

theorem ack_bits (t : Buf) (h : isAck t = true) :
    t 6 &&& 0x80#8 ≠ 0#8 ∧ t 6 &&& 0xc3#8 ≠ T_CONNECT ∧ t 6 &&& 0xc3#8 ≠ T_DISCONNECT ∧
      t 6 &&& 0xc3#8 &&& 0xC2#8 ≠ 0#8 ∧ t 6 &&& 0xc3#8 &&& 0x01#8 = 0#8 ∧ t 6 ≠ 0xFF#8 := by
  unfold isAck at h
  unfold T_CONNECT T_DISCONNECT
  revert h; generalize t 6 = b; revert b; decide +kernel

/-- The awaited acknowledgement. -/
theorem fwd_acked (A : App σ) (s : State σ) (t : Buf) (len : Nat) (hu : UnicastTo s.ownAddr t)
    (hn : isAck t = true) (ha : s.connectedAddr = src t) (hp : s.phase = .openWait)
    (hs : (seqOf (t 6) : Int) = s.seqNoSend) :
    step A s (.rx t len) = ({ a08 s with phase := .openIdle }, []) := by
  obtain ⟨b1, b2, b3, b4, b5, b6⟩ := ack_bits t hn
  have hq := seq_eq t b6
  unfold step
  rw [fwd_unicast A s t len hu, if_pos b1]
  unfold conControl
  rw [if_neg b2, if_neg b3]
  unfold conAck
  rw [if_neg b4]
  simp only []
  rw [if_pos b5, if_neg (by rw [hp]; simp), if_neg (by rw [sender_eq, ha]; simp), hq, if_neg (by rw [hs]; simp)]
  rfl

/-- The main loop transmits a waiting answer. -/
theorem fwd_loopSend (A : App σ) (s : State σ) (hen : s.enabled = true) (htx : s.tx = .free)
    (hp : s.phase = .openIdle) (hc : s.con1 = .acquired) (ht : (elapsed s s.connectedTime).toNat < 6000) :
    step A s .loop = (firstSendState s, [dataOut s]) := by
  have hel : (elapsed (firstSendState s) (firstSendState s).sentTime).toNat = 0 := by
    simp [firstSendState, elapsed, millis]
  have h1 : loopTimeout s = some (s, []) := by
    unfold loopTimeout; rw [if_neg]; omega
  have h2 : TL4.loopSend s = some (firstSendState s, [dataOut s]) := by
    unfold TL4.loopSend
    rw [if_pos ⟨hp, hc⟩, a07_eq s (by rw [hp]; simp) hc, if_pos htx]
  have h3 : TL4.loopRepeat (firstSendState s) = some (firstSendState s, []) := by
    unfold TL4.loopRepeat; rw [if_neg (by rw [hel]; simp)]
  unfold step
  simp only [exec, loop]
  rw [if_neg (by simp [hen]), if_neg (by simp [htx]), h1]
  simp [andThen, h2, h3]

/-- The main loop repeats an answer that has not been acknowledged for three seconds. -/
theorem fwd_loopRepeat (A : App σ) (s : State σ) (hen : s.enabled = true) (htx : s.tx = .free)
    (hp : s.phase = .openWait) (ht : (elapsed s s.connectedTime).toNat < 6000)
    (ht2 : 3000 ≤ (elapsed s s.sentTime).toNat) (hr : s.repCount < 3) :
    step A s .loop = (repeatState s, [dataOut s]) := by
  have h1 : loopTimeout s = some (s, []) := by
    unfold loopTimeout; rw [if_neg]; omega
  have h2 : TL4.loopSend s = some (s, []) := by
    unfold TL4.loopSend; rw [if_neg (by rw [hp]; simp)]
  have h3 : TL4.loopRepeat s = some (repeatState s, [dataOut s]) := by
    unfold TL4.loopRepeat; rw [if_pos ⟨hp, ht2⟩, if_pos hr, a09_eq, if_pos htx]
  unfold step
  simp only [exec, loop]
  rw [if_neg (by simp [hen]), if_neg (by simp [htx]), h1]
  simp [andThen, h2, h3]

/-- The acknowledgement that the device puts on the bus is one for the client. -/
theorem acksIn_ack (p : Word) (s : State σ) (n : Nat) (h : n < 16) (t : Buf) (l : Nat) :
    acksIn p [ctrlOut s T_ACK p n] = [n] ∧ acksIn p [ctrlOut s T_ACK p n, .apciConnected t l] = [n] := by
  have key : ackNumber p (bytes (conControlFrame s.txBuf T_ACK p n)
      (telegramSize (conControlFrame s.txBuf T_ACK p n))) = some n := by
    rw [conControlFrame_bytes]
    have h1 : T_ACK &&& 0x40#8 ≠ 0#8 := by decide
    rw [if_pos h1, ofInt_nat4 n h]
    have k : ∀ n : BitVec 4, seqOf (((T_ACK &&& 0xC3#8) ||| (n.setWidth 8 <<< (2 : Nat))) ||| 0x40#8) = n.toNat ∧
      (((T_ACK &&& 0xC3#8) ||| (n.setWidth 8 <<< (2 : Nat))) ||| 0x40#8).extractLsb' 6 2 = 0b11#2 ∧
      (((T_ACK &&& 0xC3#8) ||| (n.setWidth 8 <<< (2 : Nat))) ||| 0x40#8).extractLsb' 0 2 = 0b10#2 := by
      decide +kernel
    have kk := k (BitVec.ofNat 4 n)
    simp only [ackNumber, List.getElem?_cons_succ, List.getElem?_cons_zero]
    have hw : highByte p ++ lowByte p = (p : BitVec (8 + 8)) := by
      rw [← makeWord_eq_append]; exact makeWord_high_low p
    rw [if_pos ⟨hw, kk.2.1, kk.2.2⟩, kk.1]
    simp [Nat.mod_eq_of_lt h]
  constructor <;> simp [acksIn, ctrlOut, frameOf, key]

theorem dataIn_ans {A : App σ} {p : Word} {q : List (σ × Buf × Nat)} {j : Nat} (s : State σ)
    (h : Ans A p q j (bytes s.conBuf1 (telegramSize s.conBuf1))) :
    dataIn p [dataOut s] = [bytes s.conBuf1 (telegramSize s.conBuf1)] := by
  obtain ⟨e, _, b, hb⟩ := h
  have key : dataFor p (bytes s.conBuf1 (telegramSize s.conBuf1)) = true := by
    have hge := telegramSize_ge s.conBuf1
    have hget : ∀ i, i < telegramSize s.conBuf1 →
        (bytes s.conBuf1 (telegramSize s.conBuf1)).getD i 0#8 = s.conBuf1 i ∧
        (bytes s.conBuf1 (telegramSize s.conBuf1))[i]? = some (s.conBuf1 i) := by
      intro i hi
      simp [bytes, hi]
    have h1 := hb.dest
    have h2 := hb.numbered
    rw [(hget 3 (by omega)).1, (hget 4 (by omega)).1] at h1
    rw [(hget 6 (by omega)).1] at h2
    unfold dataFor
    rw [(hget 3 (by omega)).2, (hget 4 (by omega)).2, (hget 6 (by omega)).2]
    simp only []
    rw [h1, h2]
    simp
  simp only [dataIn, dataOut, frameOf, List.filterMap_cons, List.filterMap_nil]
  rw [pending_memcpy]
  simp [key]

theorem acksIn_data (p : Word) (s : State σ) (h : s.conBuf1 6 &&& 0x80#8 = 0#8) : acksIn p [dataOut s] = [] := by
  have hb : memcpy s.txBuf s.conBuf1 (telegramSize s.conBuf1) 6 &&& 0x80#8 = 0#8 := by rw [memcpy6]; exact h
  simp [acksIn, dataOut, frameOf, ack_not_data p _ hb]

end Verif.TL4
