import Verif.TL4.Trans

namespace Verif.TL4
open Knx Spec
variable {σ : Type}

/-! ## Model accessors versus specification fields -/

theorem makeWord_eq_append (h l : Byte) : makeWord h l = h ++ l := by
  unfold makeWord
  apply BitVec.eq_of_getLsbD_eq
  intro i hi
  simp only [BitVec.getLsbD_or, BitVec.getLsbD_shiftLeft, BitVec.getLsbD_setWidth,
    BitVec.getLsbD_append]
  by_cases h8 : i < 8
  · simp [h8, hi]
  · have := BitVec.getLsbD_of_ge l i (by omega)
    simp [h8, hi, this]; omega

theorem sender_eq (t : Buf) : senderAddress t = src t := makeWord_eq_append _ _
theorem dest_eq (t : Buf) : destinationAddress t = dst t := makeWord_eq_append _ _

theorem group_eq (t : Buf) : (t 5 &&& 0x80#8 = 0#8) ↔ isGroup t = false := by
  unfold isGroup
  generalize t 5 = b
  revert b; decide +kernel

theorem control_eq (t : Buf) : (t 6 &&& 0x80#8 = 0#8) ↔ isControl t = false := by
  unfold isControl
  generalize t 6 = b
  revert b; decide +kernel

theorem connectionless_eq (t : Buf) : (t 6 &&& 0xfc#8 = 0#8) ↔ isConnectionless t = true := by
  unfold isConnectionless
  generalize t 6 = b
  revert b; decide +kernel

theorem connect_eq (t : Buf) : (t 6 &&& 0xc3#8 = T_CONNECT) ↔ isConnect t = true := by
  unfold isConnect T_CONNECT
  generalize t 6 = b
  revert b; decide +kernel

theorem disconnect_eq (t : Buf) : (t 6 &&& 0xc3#8 = T_DISCONNECT) ↔ isDisconnect t = true := by
  unfold isDisconnect T_DISCONNECT
  generalize t 6 = b
  revert b; decide +kernel

theorem seq_eq (t : Buf) (h : t 6 ≠ 0xFF#8) : (sequenceNumber t).toNat = seqOf (t 6) := by
  unfold sequenceNumber seqOf
  rw [if_pos h]
  generalize t 6 = b
  revert b; decide +kernel

theorem seqOf_lt (b : Byte) : seqOf b < 16 := by
  unfold seqOf
  exact (b.extractLsb' 2 4).isLt

theorem notFF_of_bit7 (b : Byte) (h : b &&& 0x80#8 = 0#8) : b ≠ 0xFF#8 := by
  revert b; decide +kernel

theorem notFF_of_bit0 (b : Byte) (h : b &&& 0x01#8 = 0#8) : b ≠ 0xFF#8 := by
  revert b; decide +kernel

theorem forUs_iff (s : State σ) (tel : Buf) : ForUs s tel ↔ UnicastTo s.ownAddr tel := by
  unfold UnicastTo
  constructor
  · rintro ⟨h1, h2, h3⟩
    rw [dest_eq] at h1 h2
    exact ⟨(group_eq tel).mp h3, h1, by rw [← h1]; exact h2⟩
  · rintro ⟨h1, h2, h3⟩
    refine ⟨by rw [dest_eq, h2], by rw [dest_eq, h2]; exact h3, (group_eq tel).mpr h1⟩

/-! ## The control frame -/

theorem conControlFrame_bytes (b : Buf) (cmd : Byte) (addr : Word) (seq : Int) :
    bytes (conControlFrame b cmd addr seq) (telegramSize (conControlFrame b cmd addr seq)) =
      [0xB0#8, b 1, b 2, highByte addr, lowByte addr, 0x60#8,
        if cmd &&& 0x40#8 ≠ 0#8 then
          ((cmd &&& 0xC3#8) ||| (BitVec.ofInt 8 seq <<< (2 : Nat))) ||| 0x40#8 else cmd] := by
  by_cases h : cmd &&& 0x40#8 = 0#8 <;>
  simp [conControlFrame, h, telegramSize, setSequenceNumber, upd, initLpdu, setDestinationAddress,
    setFrameType, setPriority, setRepeated, bytes, List.range_succ]

theorem ctrl_disconnect (s : State σ) (addr : Word) :
    ∃ f, ctrlOut s T_DISCONNECT addr 0 = .sentControl f ∧ IsControlFrame disconnectByte addr f := by
  refine ⟨_, rfl, ?_⟩
  rw [conControlFrame_bytes]
  refine ⟨s.txBuf 1, s.txBuf 2, highByte addr, lowByte addr, ?_, ?_⟩
  · rw [← makeWord_eq_append, makeWord_high_low]
  · rfl

theorem ackbyte_calc : ∀ n : BitVec 4,
    ((T_ACK &&& 0xC3#8) ||| (n.setWidth 8 <<< (2 : Nat))) ||| 0x40#8 = ackByte n.toNat := by
  decide +kernel

theorem nakbyte_calc : ∀ n : BitVec 4,
    ((T_NACK &&& 0xC3#8) ||| (n.setWidth 8 <<< (2 : Nat))) ||| 0x40#8 = nakByte n.toNat := by
  decide +kernel

theorem ofInt_nat4 (n : Nat) (h : n < 16) :
    BitVec.ofInt 8 (n : Int) = (BitVec.ofNat 4 n).setWidth 8 := by
  apply BitVec.eq_of_toNat_eq
  simp
  omega

theorem ctrl_ack (s : State σ) (addr : Word) (n : Nat) (h : n < 16) :
    ∃ f, ctrlOut s T_ACK addr n = .sentControl f ∧ IsControlFrame (ackByte n) addr f := by
  refine ⟨_, rfl, ?_⟩
  rw [conControlFrame_bytes]
  refine ⟨s.txBuf 1, s.txBuf 2, highByte addr, lowByte addr, ?_, ?_⟩
  · rw [← makeWord_eq_append, makeWord_high_low]
  · rw [if_pos (by decide), ofInt_nat4 n h, ackbyte_calc]
    simp [Nat.mod_eq_of_lt h]

theorem ctrl_nak (s : State σ) (addr : Word) (n : Nat) (h : n < 16) :
    ∃ f, ctrlOut s T_NACK addr n = .sentControl f ∧ IsControlFrame (nakByte n) addr f := by
  refine ⟨_, rfl, ?_⟩
  rw [conControlFrame_bytes]
  refine ⟨s.txBuf 1, s.txBuf 2, highByte addr, lowByte addr, ?_, ?_⟩
  · rw [← makeWord_eq_append, makeWord_high_low]
  · rw [if_pos (by decide), ofInt_nat4 n h, nakbyte_calc]
    simp [Nat.mod_eq_of_lt h]

/-! ## The data frame -/

theorem telegramSize_ge (b : Buf) : 7 ≤ telegramSize b := by unfold telegramSize; omega

theorem memcpy_size (d b : Buf) : telegramSize (memcpy d b (telegramSize b)) = telegramSize b := by
  have := telegramSize_ge b
  conv => lhs; unfold telegramSize
  unfold memcpy
  rw [if_pos (by omega)]
  rfl

theorem dataOut_eq (s : State σ) :
    dataOut s = .sentData (bytes s.conBuf1 (telegramSize s.conBuf1)) := by
  unfold dataOut
  rw [memcpy_size]
  congr 1
  unfold bytes
  apply List.map_congr_left
  intro i hi
  simp [memcpy, List.mem_range.mp hi]

/-! ## Invariant -/

/-- The destination and sequence number fields of a response buffer. -/
def BufOk (b : Buf) (addr : Word) (seq : Int) : Prop :=
  dst b = addr ∧ (seqOf (b 6) : Int) = seq

structure Inv (s : State σ) : Prop where
  seqs : s.phase ≠ .closed → 0 ≤ s.seqNoSend ∧ s.seqNoSend < 16 ∧ 0 ≤ s.seqNoRcv ∧ s.seqNoRcv < 16
  wait : s.phase = .openWait ↔ s.con1 = .sending
  c2 : s.con2 ≠ .sending
  order : s.con1 = .free → s.con2 = .free
  closed : s.phase = .closed → s.con1 = .free
  rep : s.repCount ≤ 3
  ctrl : s.conCtrlRep ≤ 3
  tx : s.tx ≠ .acquired
  buf1 : s.con1 ≠ .free → BufOk s.conBuf1 s.connectedAddr s.seqNoSend
  buf2 : s.con2 ≠ .free → BufOk s.conBuf2 s.connectedAddr ((s.seqNoSend + 1) % 16)

theorem inv_init (own : Word) (clock : Nat) (app : σ) : Inv (init own clock app) := by
  constructor <;> simp [init]

theorem bufOk_response (b : Buf) (p : Byte) (addr : Word) (n : Nat) (h : n < 16) :
    BufOk (setSequenceNumber (setDestinationAddress (initLpdu b p false false) addr)
      (BitVec.ofInt 8 (n : Int))) addr n := by
  constructor
  · have h3 : (setSequenceNumber (setDestinationAddress (initLpdu b p false false) addr)
      (BitVec.ofInt 8 (n : Int))) 3 = highByte addr := by
        simp [setSequenceNumber, setDestinationAddress, upd]
    have h4 : (setSequenceNumber (setDestinationAddress (initLpdu b p false false) addr)
      (BitVec.ofInt 8 (n : Int))) 4 = lowByte addr := by
        simp [setSequenceNumber, setDestinationAddress, upd]
    rw [dst, h3, h4, ← makeWord_eq_append, makeWord_high_low]
  · rw [ofInt_nat4 n h]
    have h6 : ∀ c : Buf, (setSequenceNumber c ((BitVec.ofNat 4 n).setWidth 8)) 6 =
        ((c 6 &&& 0xC3#8) ||| ((BitVec.ofNat 4 n).setWidth 8 <<< (2 : Nat))) ||| 0x40#8 := by
      intro c; simp [setSequenceNumber]
    rw [h6]
    generalize (setDestinationAddress (initLpdu b p false false) addr) 6 = x
    have key : ∀ x : Byte, ∀ n : BitVec 4,
        seqOf (((x &&& 0xC3#8) ||| (n.setWidth 8 <<< (2 : Nat))) ||| 0x40#8) = n.toNat := by
      decide +kernel
    rw [key]
    simp [Nat.mod_eq_of_lt h]

theorem bufOk_memcpy (d b : Buf) (addr : Word) (seq : Int) (h : BufOk b addr seq) :
    BufOk (memcpy d b (telegramSize b)) addr seq := by
  have := telegramSize_ge b
  have e : ∀ i < 7, memcpy d b (telegramSize b) i = b i := by
    intro i hi; unfold memcpy; rw [if_pos (by omega)]
  obtain ⟨h1, h2⟩ := h
  constructor
  · rw [dst, e 3 (by omega), e 4 (by omega)]; exact h1
  · rw [e 6 (by omega)]; exact h2

theorem inv_a02Process (A : App σ) (s : State σ) (tel : Buf) (len : Nat) (hi : Inv s)
    (hp : s.phase ≠ .closed) : Inv (a02Process A s tel len) := by
  obtain ⟨h1, h2, h3, h4, h5, h6, h7, h8, h9, h10⟩ := hi
  have hq := h1 hp
  obtain ⟨n, hn⟩ : ∃ n : Nat, s.seqNoSend = n := ⟨s.seqNoSend.toNat, by omega⟩
  have hn16 : n < 16 := by omega
  unfold a02Process
  simp only []
  split
  · rename_i hc
    have hc2 := h4 hc
    split
    · constructor
      all_goals simp only []
      · intro _; omega
      · simp [hc] at h2; simp [h2]
      · exact h3
      · simp
      · intro h; exact absurd h hp
      · exact h6
      · exact h7
      · exact h8
      · intro _; rw [hn]; exact bufOk_response _ _ _ n hn16
      · simp [hc2]
    · constructor
      all_goals simp only []
      · intro _; omega
      · simp [hc] at h2; simp [h2]
      · exact h3
      · intro _; exact hc2
      · simp
      · exact h6
      · exact h7
      · exact h8
      · simp
      · simp [hc2]
  · rename_i hc
    split
    · constructor
      all_goals simp only []
      · intro _; omega
      · exact h2
      · simp
      · intro h; exact absurd h hc
      · intro h; exact absurd h hp
      · exact h6
      · exact h7
      · exact h8
      · exact h9
      · intro _
        have e : (s.seqNoSend + 1) % 16 = (((n + 1) % 16 : Nat) : Int) := by omega
        rw [e]
        exact bufOk_response _ _ _ _ (Nat.mod_lt _ (by omega))
    · constructor
      all_goals simp only []
      · intro _; omega
      · exact h2
      · simp
      · simp
      · intro h; exact absurd h hp
      · exact h6
      · exact h7
      · exact h8
      · exact h9
      · simp

theorem inv_trans (A : App σ) (s s' : State σ) (op : Op) (o : List Out) (hi : Inv s)
    (h : Trans A s op s' o) : Inv s' := by
  have hi' := hi
  obtain ⟨h1, h2, h3, h4, h5, h6, h7, h8, h9, h10⟩ := hi
  cases h with
  | rxIgnored | connectSame | disconnectIgnored | ackIgnored | nakIgnored | dataIgnored
  | loopIdle => exact hi'
  | rxBroadcast | rxGroup | setOwnAddress | advance | individual =>
    exact ⟨h1, h2, h3, h4, h5, h6, h7, h8, h9, h10⟩
  | rxBroadcastSend | rxGroupSend | connectOther | userSend | individualSend
  | dataRepeated | dataNak =>
    exact ⟨h1, h2, h3, h4, h5, h6, h7, by simp [ctrlState], h9, h10⟩
  | connect =>
    constructor <;> simp [a01, resetConnection, h6, h7, h8]
  | disconnected =>
    constructor <;> simp [h6, h7, h8]
  | ackWrong | nakClose | loopTimeout | loopGiveUp | disconnect =>
    constructor <;> simp [closedState, h6, h7]
  | ackOk tel len hu hc hc1 hc2 hk hp ha hs =>
    have hq := h1 (by rw [hp]; simp)
    unfold a08
    simp only []
    split
    · rename_i hf
      constructor
      all_goals simp only []
      · intro _; omega
      · simp [h3]
      · simp
      · intro h; exact absurd h hf
      · simp
      · exact h6
      · exact h7
      · exact h8
      · intro _; exact bufOk_memcpy _ _ _ _ (h10 hf)
      · simp
    · rename_i hf
      constructor
      all_goals simp only []
      · intro _; omega
      · simp
      · exact h3
      · intro _; simpa using hf
      · simp
      · exact h6
      · exact h7
      · exact h8
      · simp
      · intro h; exact absurd h hf
  | nakRepeat tel len hu hc hc1 hc2 hk hp ha hs hr htx =>
    constructor <;> simp only [repeatState, dataState]
    · exact h1
    · exact h2
    · exact h3
    · exact h4
    · exact h5
    · omega
    · exact h7
    · simp
    · exact h9
    · exact h10
  | loopRepeat hen htx hp ht ht2 hr =>
    constructor <;> simp only [repeatState, dataState]
    · exact h1
    · exact h2
    · exact h3
    · exact h4
    · exact h5
    · omega
    · exact h7
    · simp
    · exact h9
    · exact h10
  | loopSend hen htx hp hc ht =>
    have hq := h1 (by rw [hp]; simp)
    constructor
    all_goals simp only [firstSendState]
    · intro _; exact hq
    · exact h3
    · simp
    · simp
    · omega
    · exact h7
    · simp
    · intro _; exact h9 (by rw [hc]; simp)
    · exact h10
  | dataAccepted tel len hu hc hn ha hp hs htx =>
    exact inv_a02Process A _ tel len
      ⟨h1, h2, h3, h4, h5, h6, h7, by simp [ctrlState], h9, h10⟩ hp
  | txDoneQuiet ok n htx hn =>
    refine ⟨h1, h2, h3, h4, h5, h6, ?_, by simp, h9, h10⟩
    rcases hn with hn | hn
    · simp only []; omega
    · simp only []; omega
  | txDoneRetry htx hc hb =>
    refine ⟨h1, h2, h3, h4, h5, h6, ?_, h8, h9, h10⟩
    simp only []; omega

theorem inv_step (A : App σ) (s : State σ) (op : Op) (hi : Inv s) : Inv (step A s op).1 := by
  rcases step_trans A s op with ⟨h, _⟩ | h
  · rw [h]; exact hi
  · exact inv_trans A s _ op _ hi h

theorem inv_run (A : App σ) (s : State σ) (ops : List Op) (hi : Inv s) : Inv (run A s ops).1 := by
  induction ops generalizing s with
  | nil => exact hi
  | cons op ops ih => exact ih _ (inv_step A s op hi)

theorem inv_reachable (A : App σ) (s : State σ) (h : Reachable A s) : Inv s := by
  obtain ⟨own, clock, app, ops, rfl⟩ := h
  exact inv_run A _ ops (inv_init own clock app)

/-! ## Histories -/

theorem run_cons (A : App σ) (s : State σ) (op : Op) (ops : List Op) :
    run A s (op :: ops) =
      ((run A (step A s op).1 ops).1, (step A s op).2 ++ (run A (step A s op).1 ops).2) := rfl

theorem run_append (A : App σ) (s : State σ) (a b : List Op) :
    run A s (a ++ b) =
      ((run A (run A s a).1 b).1, (run A s a).2 ++ (run A (run A s a).1 b).2) := by
  induction a generalizing s with
  | nil => simp [run]
  | cons op a ih => simp [run_cons, ih]

theorem staysOpen_cons (A : App σ) (s : State σ) (op : Op) (ops : List Op)
    (h : StaysOpen A s (op :: ops)) : s.phase ≠ .closed ∧ StaysOpen A (step A s op).1 ops := by
  constructor
  · exact h 0 (by simp)
  · intro n hn
    have := h (n + 1) (by simp; omega)
    simpa [run_cons] using this

theorem delivered_append (a b : List Out) : delivered (a ++ b) = delivered a ++ delivered b := by
  induction a with
  | nil => rfl
  | cons x a ih => cases x <;> simp [delivered, ih]

theorem dataSent_append (a b : List Out) : dataSent (a ++ b) = dataSent a ++ dataSent b := by
  induction a with
  | nil => rfl
  | cons x a ih => cases x <;> simp [dataSent, ih]

@[simp] theorem delivered_ctrlOut (s : State σ) (c a q) (o : List Out) :
    delivered (ctrlOut s c a q :: o) = delivered o := rfl
@[simp] theorem delivered_dataOut (s : State σ) (o : List Out) :
    delivered (dataOut s :: o) = delivered o := rfl
@[simp] theorem dataSent_ctrlOut (s : State σ) (c a q) (o : List Out) :
    dataSent (ctrlOut s c a q :: o) = dataSent o := rfl
theorem dataSent_dataOut (s : State σ) (o : List Out) :
    dataSent (dataOut s :: o) = bytes s.conBuf1 (telegramSize s.conBuf1) :: dataSent o := by
  rw [dataOut_eq]; rfl

/-- Receive side of one step of an open connection that stays open. -/
theorem rcv_step (A : App σ) (s s' : State σ) (op : Op) (o : List Out) (h : Trans A s op s' o)
    (hopen : s.phase ≠ .closed) (hopen' : s'.phase ≠ .closed) :
    s'.connectedAddr = s.connectedAddr ∧
    ((delivered o = [] ∧ s'.seqNoRcv = s.seqNoRcv) ∨
     ∃ tel len, op = .rx tel len ∧ delivered o = [tel] ∧ UnicastTo s.ownAddr tel ∧
       isControl tel = false ∧ isConnectionless tel = false ∧
       src tel = s.connectedAddr ∧ (seqOf (tel 6) : Int) = s.seqNoRcv ∧
       s'.seqNoRcv = (s.seqNoRcv + 1) % 16) := by
  cases h with
  | connect tel len hu hc hp => exact absurd hp hopen
  | disconnected => exact absurd rfl hopen'
  | ackWrong | nakClose | loopTimeout | loopGiveUp | disconnect => exact absurd rfl hopen'
  | dataAccepted tel len hu hc hn ha hp hs htx =>
    have hff := notFF_of_bit7 _ hc
    have hconn : (a02Process A (ctrlState s T_ACK s.connectedAddr (sequenceNumber tel).toNat) tel len).connectedAddr
        = s.connectedAddr := by
      unfold a02Process; simp only []; split <;> split <;> rfl
    have hrcv : (a02Process A (ctrlState s T_ACK s.connectedAddr (sequenceNumber tel).toNat) tel len).seqNoRcv
        = (s.seqNoRcv + 1) % 16 := by
      unfold a02Process; simp only []; split <;> split <;> rfl
    refine ⟨hconn, Or.inr ⟨tel, len, rfl, rfl, (forUs_iff s tel).mp hu, (control_eq tel).mp hc, ?_, ?_, ?_, hrcv⟩⟩
    · have := (not_congr (connectionless_eq tel)).mp hn; simpa using this
    · rw [← sender_eq, ha]
    · rw [← seq_eq tel hff]; exact hs
  | ackOk tel len hu hc h1 h2 hk hp ha hs =>
    refine ⟨?_, Or.inl ⟨rfl, ?_⟩⟩ <;> (unfold a08; simp only []; split <;> rfl)
  | _ => exact ⟨rfl, Or.inl ⟨rfl, rfl⟩⟩

end Verif.TL4
