import Verif.TL4.PropsSend

/-!
# C03: a repeating client, a lossy and duplicating bus and the device, composed

The client numbers its requests mod 16, transmits the current request as often as it likes and goes
on to the next one only after the T_ACK with the current number. The bus may lose and duplicate
telegrams in both directions (it keeps the order, as a KNX line does). The device is the model of the
transport layer with an arbitrary application; anything else (loop calls, time, end of transmissions,
telegrams of others, responses, sends by the rest of the device) may happen to it at any time.
-/

namespace Verif.TL4
open Knx Spec
variable {σ : Type}

/-- Sequence number of a frame that a client with address `p` takes for a T_ACK. -/
def ackNumber (p : Word) (f : List Byte) : Option Nat :=
  match f[3]?, f[4]?, f[6]? with
  | some d1, some d2, some tp =>
    if d1 ++ d2 = p ∧ tp.extractLsb' 6 2 = 0b11#2 ∧ tp.extractLsb' 0 2 = 0b10#2 then some (seqOf tp)
    else none
  | _, _, _ => none

/-- The frame an output puts on the bus, if any. -/
def frameOf : Out → Option (List Byte)
  | .sentControl f | .sentData f | .sentIndividual f | .resent f | .userSent f => some f
  | _ => none

/-- The acknowledgements for client `p` among the outputs of a device step. -/
def acksIn (p : Word) (o : List Out) : List Nat := (o.filterMap frameOf).filterMap (ackNumber p)

/-- The telegrams the application produces are data telegrams: control bit clear. (The library's
`processApci` implementations write the APCI bits only, the transport bits stay zero.) -/
structure AppOk (A : App σ) : Prop where
  apci : ∀ a t l b, (A.processApci a t l b).2.2 = true → (A.processApci a t l b).2.1 6 &&& 0x80#8 = 0#8
  broadcast : ∀ a t l f b, (A.broadcast a t l).2 = some f → f b 6 &&& 0x80#8 = 0#8
  group : ∀ a t l f b, (A.group a t l).2 = some f → f b 6 &&& 0x80#8 = 0#8

/-- Whatever else may happen to the device: no numbered data from the client except through the
channel, no new connection, and no forged control telegrams by the device's own application. -/
def Foreign (p : Word) (s : State σ) : Op → Prop
  | .rx tel _ => UnicastTo s.ownAddr tel →
      (isControl tel = false → isConnectionless tel = false → src tel ≠ p) ∧
      (s.phase = .closed → isConnect tel = false)
  | .userSend fill => ∀ b, fill b 6 &&& 0x80#8 = 0#8
  | _ => True

/-- The composed system. -/
structure Sys (σ : Type) where
  dev : State σ
  /-- index of the client's current request = number of acknowledgements it has accepted -/
  current : Nat
  /-- requests on their way to the device -/
  toDevice : List Buf
  /-- acknowledgements (sequence numbers) on their way to the client -/
  toClient : List Nat
  /-- requests processed by the device's application -/
  log : List Buf

/-- A device step inside the system. -/
def Sys.device (A : App σ) (p : Word) (y : Sys σ) (op : Op) : Sys σ :=
  { y with
    dev := (step A y.dev op).1
    toClient := y.toClient ++ acksIn p (step A y.dev op).2
    log := y.log ++ delivered (step A y.dev op).2 }

/-- Steps of the system. -/
inductive SysStep (A : App σ) (p : Word) (req : Nat → Buf) : Sys σ → Sys σ → Prop where
  /-- the client transmits (or repeats) its current request -/
  | clientSend (y) : SysStep A p req y { y with toDevice := y.toDevice ++ [req y.current] }
  | lose (y a x b) (h : y.toDevice = a ++ x :: b) : SysStep A p req y { y with toDevice := a ++ b }
  | dup (y a x b) (h : y.toDevice = a ++ x :: b) :
      SysStep A p req y { y with toDevice := a ++ x :: x :: b }
  | loseAck (y a x b) (h : y.toClient = a ++ x :: b) : SysStep A p req y { y with toClient := a ++ b }
  | dupAck (y a x b) (h : y.toClient = a ++ x :: b) :
      SysStep A p req y { y with toClient := a ++ x :: x :: b }
  /-- the device receives the next request of the client -/
  | receive (y t rest len) (h : y.toDevice = t :: rest) :
      SysStep A p req y ({ y with toDevice := rest }.device A p (.rx t len))
  /-- anything else happens to the device -/
  | other (y op) (h : Foreign p y.dev op) : SysStep A p req y (y.device A p op)
  /-- the client receives an acknowledgement -/
  | clientAck (y n rest) (h : y.toClient = n :: rest) :
      SysStep A p req y
        { y with toClient := rest
                 current := if n = y.current % 16 then y.current + 1 else y.current }

/-- Reachable system states. -/
inductive SysReach (A : App σ) (p : Word) (req : Nat → Buf) (y0 : Sys σ) : Sys σ → Prop where
  | start : SysReach A p req y0 y0
  | step (y y') : SysReach A p req y0 y → SysStep A p req y y' → SysReach A p req y0 y'

/-- The requests: numbered data telegrams from `p` to `d`, number i mod 16. -/
structure Requests (p d : Word) (req : Nat → Buf) : Prop where
  dest : d ≠ 0#16
  unicast : ∀ i, isGroup (req i) = false
  dst : ∀ i, dst (req i) = d
  src : ∀ i, src (req i) = p
  numbered : ∀ i, isNumberedData (req i) = true
  seq : ∀ i, seqOf (req i 6) = i % 16

/-! ## Proof -/

theorem ack_not_of_bit7 (p : Word) (f : List Byte) (h : ∀ tp, f[6]? = some tp → tp &&& 0x80#8 = 0#8) :
    ackNumber p f = none := by
  unfold ackNumber
  split
  · rename_i d1 d2 tp _ _ h6
    rw [if_neg]
    intro hh
    have := h tp h6
    have k : ∀ b : Byte, b &&& 0x80#8 = 0#8 → b.extractLsb' 6 2 = 0b11#2 → False := by decide +kernel
    exact k tp this hh.2.1
  · rfl

theorem bytes_get6 (b : Buf) (n : Nat) (h : 7 ≤ n) : (bytes b n)[6]? = some (b 6) := by
  have : 6 < n := by omega
  simp [bytes, this]

theorem ack_not_data (p : Word) (b : Buf) (h : b 6 &&& 0x80#8 = 0#8) :
    ackNumber p (bytes b (telegramSize b)) = none := by
  apply ack_not_of_bit7
  intro tp ht
  rw [bytes_get6 _ _ (telegramSize_ge b)] at ht
  simp at ht; rw [← ht]; exact h

theorem ack_not_disconnect (p a : Word) (b : Buf) (q : Int) :
    ackNumber p (bytes (conControlFrame b T_DISCONNECT a q) (telegramSize (conControlFrame b T_DISCONNECT a q)))
      = none := by
  rw [conControlFrame_bytes]
  have h1 : ¬ (T_DISCONNECT &&& 0x40#8 ≠ 0#8) := by decide
  rw [if_neg h1]
  simp [ackNumber, T_DISCONNECT]

theorem ack_not_nak (p a : Word) (b : Buf) (n : Nat) (h : n < 16) :
    ackNumber p (bytes (conControlFrame b T_NACK a n) (telegramSize (conControlFrame b T_NACK a n)))
      = none := by
  rw [conControlFrame_bytes]
  have h1 : T_NACK &&& 0x40#8 ≠ 0#8 := by decide
  rw [if_pos h1, ofInt_nat4 n h]
  have k : ∀ n : BitVec 4, (((T_NACK &&& 0xC3#8) ||| (n.setWidth 8 <<< (2 : Nat))) ||| 0x40#8).extractLsb' 0 2 = 0b11#2 := by
    decide +kernel
  simp only [ackNumber, List.getElem?_cons_succ, List.getElem?_cons_zero]
  rw [if_neg]
  intro hh
  rw [k] at hh
  exact absurd hh.2.2 (by decide)

theorem ack_ack (p a : Word) (b : Buf) (n m : Nat) (h : n < 16)
    (hm : ackNumber p (bytes (conControlFrame b T_ACK a n) (telegramSize (conControlFrame b T_ACK a n)))
      = some m) : m = n := by
  rw [conControlFrame_bytes] at hm
  have h1 : T_ACK &&& 0x40#8 ≠ 0#8 := by decide
  rw [if_pos h1, ofInt_nat4 n h] at hm
  have k : ∀ n : BitVec 4, seqOf (((T_ACK &&& 0xC3#8) ||| (n.setWidth 8 <<< (2 : Nat))) ||| 0x40#8) = n.toNat := by
    decide +kernel
  simp only [ackNumber, List.getElem?_cons_succ, List.getElem?_cons_zero] at hm
  split at hm
  · simp only [Option.some.injEq] at hm
    rw [← hm, k]
    simp [Nat.mod_eq_of_lt h]
  · cases hm

/-- Device part of the invariant: `r` requests processed. -/
structure DevOk (p : Word) (s : State σ) (r : Nat) : Prop where
  rcv : s.phase ≠ .closed → s.connectedAddr = p ∧ s.seqNoRcv = ((r % 16 : Nat) : Int)
  buf1 : s.con1 ≠ .free → s.conBuf1 6 &&& 0x80#8 = 0#8
  buf2 : s.con2 ≠ .free → s.conBuf2 6 &&& 0x80#8 = 0#8
  tx : s.tx = .sending → ∀ n, ackNumber p (bytes s.txBuf (telegramSize s.txBuf)) = some n →
    1 ≤ r ∧ n = (r - 1) % 16
  wait : s.phase = .openWait → s.con1 ≠ .free

theorem setSeq_bit7 (b : Buf) (n : Byte) (h : b 6 &&& 0x80#8 = 0#8) (hn : n < 16#8) :
    setSequenceNumber b n 6 &&& 0x80#8 = 0#8 := by
  simp only [setSequenceNumber, upd_same]
  generalize b 6 = x at h
  have k : ∀ x : Byte, ∀ m : BitVec 4, x &&& 0x80#8 = 0#8 →
      (((x &&& 0xC3#8) ||| (m.setWidth 8 <<< (2 : Nat))) ||| 0x40#8) &&& 0x80#8 = 0#8 := by
    decide +kernel
  have hm : n = (BitVec.ofNat 4 n.toNat).setWidth 8 := by
    apply BitVec.eq_of_toNat_eq
    have : n.toNat < 16 := by simpa [BitVec.lt_def] using hn
    simp; omega
  rw [hm]
  exact k x _ h

theorem frame6 (b : Buf) (pr : Byte) (a : Word) :
    setDestinationAddress (initLpdu b pr false false) a 6 = b 6 := by
  simp [setDestinationAddress, initLpdu, setFrameType, setPriority, setRepeated, upd]

theorem ofInt_lt16 (q : Int) (h0 : 0 ≤ q) (h : q < 16) : BitVec.ofInt 8 q < 16#8 := by
  obtain ⟨n, rfl⟩ : ∃ n : Nat, q = n := ⟨q.toNat, by omega⟩
  have hn : n < 16 := by omega
  simp [BitVec.lt_def]; omega

theorem devOk_a02 (A : App σ) (hA : AppOk A) (p : Word) (s : State σ) (r : Nat) (tel : Buf) (len : Nat)
    (hq : 0 ≤ s.seqNoSend ∧ s.seqNoSend < 16) (hp : s.phase ≠ .closed)
    (hr : s.connectedAddr = p ∧ s.seqNoRcv = ((r % 16 : Nat) : Int))
    (h2 : s.con1 ≠ .free → s.conBuf1 6 &&& 0x80#8 = 0#8)
    (h3 : s.con2 ≠ .free → s.conBuf2 6 &&& 0x80#8 = 0#8)
    (h5 : s.phase = .openWait → s.con1 ≠ .free)
    (htx : s.tx = .sending → ∀ n, ackNumber p (bytes s.txBuf (telegramSize s.txBuf)) = some n →
      n = r % 16) :
    DevOk p (a02Process A s tel len) (r + 1) := by
  have e2 : ((s.seqNoSend + 1) % 16) < 16 := by omega
  have e3 : 0 ≤ ((s.seqNoSend + 1) % 16) := by omega
  have hrcv : (s.seqNoRcv + 1) % 16 = (((r + 1) % 16 : Nat) : Int) := by rw [hr.2]; omega
  have hw1 : s.con1 = .free → s.phase ≠ .openWait := fun h h' => h5 h' h
  unfold a02Process
  simp only []
  split
  · rename_i hc
    split
    · rename_i ha
      refine ⟨fun _ => ⟨hr.1, hrcv⟩, fun _ => ?_, h3, fun ht n hn => ⟨by omega, ?_⟩, fun _ => by simp⟩
      · exact setSeq_bit7 _ _ (by rw [frame6]; exact hA.apci _ _ _ _ ha) (ofInt_lt16 _ hq.1 hq.2)
      · simpa using htx ht n hn
    · refine ⟨fun _ => ⟨hr.1, hrcv⟩, fun h => absurd rfl h, h3, fun ht n hn => ⟨by omega, ?_⟩,
        fun h => absurd h (hw1 hc)⟩
      simpa using htx ht n hn
  · split
    · rename_i ha
      refine ⟨fun _ => ⟨hr.1, hrcv⟩, h2, fun _ => ?_, fun ht n hn => ⟨by omega, ?_⟩, h5⟩
      · exact setSeq_bit7 _ _ (by rw [frame6]; exact hA.apci _ _ _ _ ha) (ofInt_lt16 _ e3 e2)
      · simpa using htx ht n hn
    · refine ⟨fun _ => ⟨hr.1, hrcv⟩, h2, fun h => absurd rfl h, fun ht n hn => ⟨by omega, ?_⟩, h5⟩
      simpa using htx ht n hn

theorem memcpy6 (d b : Buf) : memcpy d b (telegramSize b) 6 = b 6 := by
  have := telegramSize_ge b
  unfold memcpy; rw [if_pos (by omega)]

theorem mem_acksIn_single (p : Word) (x : Out) (f : List Byte) (hx : frameOf x = some f) (n : Nat)
    (h : n ∈ acksIn p [x]) : ackNumber p f = some n := by
  simp only [acksIn, List.filterMap_cons, hx, List.filterMap_nil] at h
  split at h
  · simp at h
  · rename_i m hm
    simp at h; rw [h]; exact hm

/-- A device step other than accepting a request. -/
theorem dev_other (A : App σ) (hA : AppOk A) (p : Word) (s s' : State σ) (op : Op) (o : List Out)
    (r : Nat) (hi : Inv s) (h : DevOk p s r) (ht : Trans A s op s' o)
    (hns : ∀ f, op = .userSend f → ∀ b, f b 6 &&& 0x80#8 = 0#8)
    (hnc : ∀ tel len, op = .rx tel len → ForUs s tel → s.phase = .closed → isConnect tel = false)
    (hd : delivered o = [])
    (hrep : ∀ tel len, op = .rx tel len → s.phase ≠ .closed →
      ((sequenceNumber tel).toNat : Int) = (s.seqNoRcv - 1) % 16 → isControl tel = false →
      isConnectionless tel = false → UnicastTo s.ownAddr tel → src tel = s.connectedAddr → 1 ≤ r) :
    DevOk p s' r ∧ ∀ n ∈ acksIn p o, 1 ≤ r ∧ n = (r - 1) % 16 := by
  have h0 := h
  obtain ⟨h1, h2, h3, h4, h5⟩ := h
  have kill : ∀ f, ackNumber p f = none → ∀ n, ackNumber p f = some n → 1 ≤ r ∧ n = (r - 1) % 16 := by
    intro f hf n hn; rw [hf] at hn; cases hn
  have bad : ∀ {P : Prop}, Phase.closed = Phase.openWait → P := fun h => by cases h
  have bad2 : ∀ {P : Prop}, Phase.openIdle = Phase.openWait → P := fun h => by cases h
  have none1 : ∀ (x : Out) (f : List Byte), frameOf x = some f → ackNumber p f = none →
      ∀ n ∈ acksIn p [x], 1 ≤ r ∧ n = (r - 1) % 16 := by
    intro x f hx hf n hn
    rw [mem_acksIn_single p x f hx n hn] at hf; cases hf
  have none2 : ∀ (x y : Out) (f : List Byte), frameOf x = none → frameOf y = some f →
      ackNumber p f = none → ∀ n ∈ acksIn p [x, y], 1 ≤ r ∧ n = (r - 1) % 16 := by
    intro x y f hx hy hf n hn
    apply none1 y f hy hf n
    simpa [acksIn, hx] using hn
  cases ht with
  | rxIgnored | connectSame | disconnectIgnored | ackIgnored | nakIgnored | dataIgnored | loopIdle =>
    exact ⟨h0, by simp [acksIn]⟩
  | individual tel len hu hc htx =>
    exact ⟨⟨h1, h2, h3, fun h => by (have h' : s.tx = .sending := h); simp [htx] at h', h5⟩,
      by simp [acksIn, frameOf]⟩
  | rxBroadcast | rxGroup | setOwnAddress | advance =>
    exact ⟨⟨h1, h2, h3, h4, h5⟩, by simp [acksIn, frameOf]⟩
  | rxBroadcastSend tel len f hd2 hf =>
    have hb := hA.broadcast _ _ _ f s.txBuf hf
    exact ⟨⟨h1, h2, h3, fun _ => kill _ (ack_not_data p _ hb), h5⟩,
      none2 _ _ _ rfl rfl (ack_not_data p _ hb)⟩
  | rxGroupSend tel len f hd2 hg hf =>
    have hb := hA.group _ _ _ f s.txBuf hf
    exact ⟨⟨h1, h2, h3, fun _ => kill _ (ack_not_data p _ hb), h5⟩,
      none2 _ _ _ rfl rfl (ack_not_data p _ hb)⟩
  | userSend f =>
    have hb := hns f rfl s.txBuf
    exact ⟨⟨h1, h2, h3, fun _ => kill _ (ack_not_data p _ hb), h5⟩,
      none1 _ _ rfl (ack_not_data p _ hb)⟩
  | individualSend tel len res hu hc htx hr hs =>
    have hb : res.2.1 6 &&& 0x80#8 = 0#8 := by rw [← hr] at hs ⊢; exact hA.apci _ _ _ _ hs
    exact ⟨⟨h1, h2, h3, fun _ => kill _ (ack_not_data p _ hb), h5⟩,
      none2 _ _ _ rfl rfl (ack_not_data p _ hb)⟩
  | connect tel len hu hc hp =>
    have := hnc tel len rfl hu hp
    rw [(connect_eq tel).mp hc] at this; cases this
  | connectOther tel =>
    exact ⟨⟨h1, h2, h3, fun _ => kill _ (ack_not_disconnect p (senderAddress tel) s.txBuf 0), h5⟩,
      none1 _ _ rfl (ack_not_disconnect p _ _ _)⟩
  | disconnected =>
    exact ⟨⟨fun h => absurd rfl h, fun h => absurd rfl h, fun h => absurd rfl h, h4, bad⟩,
      by simp [acksIn]⟩
  | ackWrong | nakClose | loopTimeout | loopGiveUp | disconnect =>
    exact ⟨⟨fun h => absurd rfl h, fun h => absurd rfl h, fun h => absurd rfl h,
      fun _ => kill _ (ack_not_disconnect p s.connectedAddr s.txBuf 0), bad⟩,
      none1 _ _ rfl (ack_not_disconnect p _ _ _)⟩
  | ackOk tel len hu hc h1' h2' hk hp ha hs =>
    have hr := h1 (by rw [hp]; simp)
    refine ⟨?_, by simp [acksIn]⟩
    unfold a08
    simp only []
    split
    · rename_i hc2
      exact ⟨fun _ => hr, fun _ => (congrArg (· &&& 0x80#8) (memcpy6 s.conBuf1 s.conBuf2)).trans (h3 hc2), fun h => absurd rfl h, h4, bad2⟩
    · exact ⟨fun _ => hr, fun h => absurd rfl h, h3, h4, bad2⟩
  | nakRepeat tel len hu hc h1' h2' hk hp =>
    have hb := h2 (h5 hp)
    have hb' : memcpy s.txBuf s.conBuf1 (telegramSize s.conBuf1) 6 &&& 0x80#8 = 0#8 := by
      rw [memcpy6]; exact hb
    exact ⟨⟨h1, h2, h3, fun _ => kill _ (ack_not_data p _ hb'), h5⟩,
      none1 _ _ rfl (ack_not_data p _ hb')⟩
  | loopRepeat hen htx hp =>
    have hb := h2 (h5 hp)
    have hb' : memcpy s.txBuf s.conBuf1 (telegramSize s.conBuf1) 6 &&& 0x80#8 = 0#8 := by
      rw [memcpy6]; exact hb
    exact ⟨⟨h1, h2, h3, fun _ => kill _ (ack_not_data p _ hb'), h5⟩,
      none1 _ _ rfl (ack_not_data p _ hb')⟩
  | loopSend hen htx hp hc =>
    have hb := h2 (by rw [hc]; simp)
    have hb' : memcpy s.txBuf s.conBuf1 (telegramSize s.conBuf1) 6 &&& 0x80#8 = 0#8 := by
      rw [memcpy6]; exact hb
    have hr := h1 (by rw [hp]; simp)
    refine ⟨⟨fun _ => hr, fun _ => hb, h3, fun _ => kill _ (ack_not_data p _ hb'), fun _ => by simp [firstSendState]⟩,
      none1 _ _ rfl (ack_not_data p _ hb')⟩
  | dataAccepted => simp [delivered] at hd
  | dataRepeated tel len hu hc hn ha hp hs hs' htx =>
    have hr := h1 hp
    have hlt : (sequenceNumber tel).toNat < 16 := by
      rw [seq_eq tel (notFF_of_bit7 _ hc)]; exact seqOf_lt _
    have h1r : 1 ≤ r := hrep tel len rfl hp hs' ((control_eq tel).mp hc)
      (by simpa using (not_congr (connectionless_eq tel)).mp hn) ((forUs_iff s tel).mp hu)
      (by rw [← sender_eq]; exact ha.symm)
    have hval : (sequenceNumber tel).toNat = (r - 1) % 16 := by
      have := hr.2; omega
    refine ⟨⟨fun _ => hr, h2, h3, fun _ n hn => ⟨h1r, ?_⟩, h5⟩, fun n hn => ⟨h1r, ?_⟩⟩
    · rw [← hval]; exact ack_ack p _ s.txBuf _ n hlt hn
    · rw [← hval]; exact ack_ack p _ s.txBuf _ n hlt (mem_acksIn_single p _ _ rfl n hn)
  | dataNak tel len hu hc hn ha hp hs hs' htx =>
    have hlt : (sequenceNumber tel).toNat < 16 := by
      rw [seq_eq tel (notFF_of_bit7 _ hc)]; exact seqOf_lt _
    exact ⟨⟨h1, h2, h3, fun _ => kill _ (ack_not_nak p _ _ _ hlt), h5⟩,
      none1 _ _ rfl (ack_not_nak p _ _ _ hlt)⟩
  | txDoneQuiet ok n htx =>
    exact ⟨⟨h1, h2, h3, fun h => absurd h (by simp), h5⟩, by simp [acksIn]⟩
  | txDoneRetry htx hc hb =>
    refine ⟨⟨h1, h2, h3, h4, h5⟩, fun n hn => h4 htx n ?_⟩
    exact mem_acksIn_single p _ _ rfl n hn

/-- Invariant of the composed system. -/
structure SysOk (p : Word) (req : Nat → Buf) (y : Sys σ) (r : Nat) (is as : List Nat) : Prop where
  inv : Inv y.dev
  dev : DevOk p y.dev r
  log : y.log = (List.range r).map req
  toDevice : y.toDevice = is.map req
  sortedI : is.Pairwise (· ≤ ·)
  boundI : ∀ i ∈ is, r ≤ i + 1 ∧ i ≤ y.current
  toClient : y.toClient = as.map (· % 16)
  sortedA : as.Pairwise (· ≤ ·)
  boundA : ∀ a ∈ as, y.current ≤ a + 1 ∧ a + 1 ≤ r
  low : y.current ≤ r
  high : r ≤ y.current + 1

theorem map_split {α β : Type} (f : α → β) (l : List α) (a : List β) (x : β) (b : List β)
    (h : l.map f = a ++ x :: b) : ∃ a' x' b', l = a' ++ x' :: b' ∧ a = a'.map f ∧ x = f x' ∧ b = b'.map f := by
  obtain ⟨a', c', rfl, h1, h2⟩ := List.map_eq_append_iff.mp h
  obtain ⟨x', b', rfl, h3, h4⟩ := List.map_eq_cons_iff.mp h2
  exact ⟨a', x', b', rfl, h1.symm, h3.symm, h4.symm⟩

theorem pairwise_dup (a : List Nat) (x : Nat) (b : List Nat) (h : (a ++ x :: b).Pairwise (· ≤ ·)) :
    (a ++ x :: x :: b).Pairwise (· ≤ ·) := by
  rw [List.pairwise_append] at h ⊢
  obtain ⟨h1, h2, h3⟩ := h
  refine ⟨h1, ?_, ?_⟩
  · rw [List.pairwise_cons]
    refine ⟨?_, h2⟩
    intro z hz
    rcases List.mem_cons.mp hz with rfl | hz
    · exact Nat.le_refl _
    · exact (List.pairwise_cons.mp h2).1 z hz
  · intro u hu z hz
    apply h3 u hu
    rcases List.mem_cons.mp hz with rfl | hz
    · simp
    · exact hz

theorem pairwise_lose (a : List Nat) (x : Nat) (b : List Nat) (h : (a ++ x :: b).Pairwise (· ≤ ·)) :
    (a ++ b).Pairwise (· ≤ ·) := by
  apply List.Pairwise.sublist _ h
  exact List.Sublist.append (List.Sublist.refl a) (List.sublist_cons_self x b)

theorem pairwise_snoc (l : List Nat) (h : l.Pairwise (· ≤ ·)) (m : List Nat) (x : Nat)
    (hm : ∀ y ∈ m, y = x) (hx : ∀ y ∈ l, y ≤ x) : (l ++ m).Pairwise (· ≤ ·) := by
  rw [List.pairwise_append]
  refine ⟨h, ?_, fun u hu z hz => by rw [hm z hz]; exact hx u hu⟩
  clear hx h
  induction m with
  | nil => exact List.Pairwise.nil
  | cons z m ih =>
    rw [List.pairwise_cons]
    refine ⟨fun w hw => ?_, ih fun y hy => hm y (by simp [hy])⟩
    rw [hm z (by simp), hm w (by simp [hw])]
    exact Nat.le_refl _

theorem map_const_of (l : List Nat) (v : Nat) (h : ∀ n ∈ l, n = v % 16) :
    l = (l.map fun _ => v).map (· % 16) := by
  induction l with
  | nil => rfl
  | cons x l ih =>
    simp only [List.map_cons]
    rw [← ih fun n hn => h n (by simp [hn])]
    rw [h x (by simp)]

theorem sysOk_other (A : App σ) (p : Word) (req : Nat → Buf) (y : Sys σ) (r : Nat) (is as : List Nat)
    (h : SysOk p req y r is as) (op : Op)
    (hd : delivered (step A y.dev op).2 = [])
    (hk : DevOk p (step A y.dev op).1 r ∧ ∀ n ∈ acksIn p (step A y.dev op).2, 1 ≤ r ∧ n = (r - 1) % 16) :
    ∃ as', SysOk p req (y.device A p op) r is as' := by
  obtain ⟨a1, a2, a3, a4, a5, a6, a7, a8, a9, a10, a11⟩ := h
  obtain ⟨k1, k2⟩ := hk
  refine ⟨as ++ (acksIn p (step A y.dev op).2).map fun _ => r - 1, ?_⟩
  constructor
  · exact inv_step A y.dev op a1
  · exact k1
  · simp [Sys.device, hd, a3]
  · exact a4
  · exact a5
  · exact a6
  · simp only [Sys.device, List.map_append, a7]
    congr 1
    exact map_const_of _ _ fun n hn => (k2 n hn).2
  · apply pairwise_snoc as a8 _ (r - 1)
    · intro z hz; obtain ⟨_, _, rfl⟩ := List.mem_map.mp hz; rfl
    · intro z hz; have := a9 z hz; omega
  · intro a ha
    show y.current ≤ a + 1 ∧ a + 1 ≤ r
    rcases List.mem_append.mp ha with ha | ha
    · exact a9 a ha
    · obtain ⟨n, hn, rfl⟩ := List.mem_map.mp ha
      have := (k2 n hn).1
      omega
  · exact a10
  · exact a11

theorem sysOk_step (A : App σ) (hA : AppOk A) (p d : Word) (req : Nat → Buf) (hreq : Requests p d req)
    (y y' : Sys σ) (r : Nat) (is as : List Nat) (h : SysOk p req y r is as)
    (hst : SysStep A p req y y') : ∃ r' is' as', SysOk p req y' r' is' as' := by
  have hreq1 : ∀ i, isControl (req i) = false := by
    intro i
    have := hreq.numbered i
    unfold isNumberedData at this; unfold isControl
    revert this; generalize req i 6 = b; revert b; decide +kernel
  have hreq2 : ∀ i, isConnectionless (req i) = false := by
    intro i
    have := hreq.numbered i
    unfold isNumberedData at this; unfold isConnectionless
    revert this; generalize req i 6 = b; revert b; decide +kernel
  have h0 := h
  obtain ⟨a1, a2, a3, a4, a5, a6, a7, a8, a9, a10, a11⟩ := h
  cases hst with
  | clientSend =>
    refine ⟨r, is ++ [y.current], as, a1, a2, a3, by simp [a4], ?_, ?_, a7, a8, a9, a10, a11⟩
    · exact pairwise_snoc is a5 _ y.current (by simp) fun z hz => (a6 z hz).2
    · intro i hi
      rcases List.mem_append.mp hi with hi | hi
      · exact a6 i hi
      · simp at hi; subst hi; exact ⟨a11, Nat.le_refl _⟩
  | lose a x b hh =>
    rw [a4] at hh
    obtain ⟨a', x', b', rfl, rfl, rfl, rfl⟩ := map_split _ _ _ _ _ hh
    exact ⟨r, a' ++ b', as, a1, a2, a3, by simp, pairwise_lose _ _ _ a5,
      fun i hi => a6 i (by simp at hi ⊢; rcases hi with hi | hi <;> simp [hi]), a7, a8, a9, a10, a11⟩
  | dup a x b hh =>
    rw [a4] at hh
    obtain ⟨a', x', b', rfl, rfl, rfl, rfl⟩ := map_split _ _ _ _ _ hh
    exact ⟨r, a' ++ x' :: x' :: b', as, a1, a2, a3, by simp, pairwise_dup _ _ _ a5,
      fun i hi => a6 i (by simp at hi ⊢; exact hi), a7, a8, a9, a10, a11⟩
  | loseAck a x b hh =>
    rw [a7] at hh
    obtain ⟨a', x', b', rfl, rfl, rfl, rfl⟩ := map_split _ _ _ _ _ hh
    exact ⟨r, is, a' ++ b', a1, a2, a3, a4, a5, a6, by simp, pairwise_lose _ _ _ a8,
      fun i hi => a9 i (by simp at hi ⊢; rcases hi with hi | hi <;> simp [hi]), a10, a11⟩
  | dupAck a x b hh =>
    rw [a7] at hh
    obtain ⟨a', x', b', rfl, rfl, rfl, rfl⟩ := map_split _ _ _ _ _ hh
    exact ⟨r, is, a' ++ x' :: x' :: b', a1, a2, a3, a4, a5, a6, by simp, pairwise_dup _ _ _ a8,
      fun i hi => a9 i (by simp at hi ⊢; exact hi), a10, a11⟩
  | clientAck n rest hh =>
    rw [a7] at hh
    obtain ⟨a, as', rfl, h1, h2⟩ := List.map_eq_cons_iff.mp hh
    have ha := a9 a (by simp)
    have hrest : ∀ z ∈ as', a ≤ z := (List.pairwise_cons.mp a8).1
    have a8' := (List.pairwise_cons.mp a8).2
    by_cases hn : n = y.current % 16
    · have hac : a = y.current := by
        have : a % 16 = y.current % 16 := by rw [← hn, ← h1]
        omega
      refine ⟨r, is, as', a1, a2, a3, a4, a5, ?_, h2.symm, a8', ?_, ?_, ?_⟩
      · intro i hi; have := a6 i hi
        simp only [hn, if_true]; omega
      · intro z hz
        have := a9 z (by simp [hz]); have := hrest z hz
        simp only [hn, if_true]; omega
      · simp only [hn, if_true]; omega
      · simp only [hn, if_true]; omega
    · refine ⟨r, is, as', a1, a2, a3, a4, a5, ?_, h2.symm, a8', ?_, ?_, ?_⟩
      · simpa only [hn, if_false] using a6
      · intro z hz; simpa only [hn, if_false] using a9 z (by simp [hz])
      · simpa only [hn, if_false] using a10
      · simpa only [hn, if_false] using a11
  | other op hf =>
    have key : delivered (step A y.dev op).2 = [] ∧ (DevOk p (step A y.dev op).1 r ∧
        ∀ n ∈ acksIn p (step A y.dev op).2, 1 ≤ r ∧ n = (r - 1) % 16) := by
      rcases step_trans A y.dev op with ⟨e, _⟩ | ht
      · rw [e]; exact ⟨rfl, a2, by simp [acksIn]⟩
      · revert ht
        generalize (step A y.dev op).1 = s'
        generalize (step A y.dev op).2 = o
        intro ht
        have hd : delivered o = [] := by
          cases ht with
          | dataAccepted tel len hu hc hn ha hp hs htx =>
            exfalso
            have hu' := (forUs_iff _ tel).mp hu
            have := (hf hu').1 ((control_eq tel).mp hc)
              (by simpa using (not_congr (connectionless_eq tel)).mp hn)
            rw [← sender_eq, ← ha] at this
            exact this (a2.rcv hp).1
          | _ => rfl
        refine ⟨hd, dev_other A hA p y.dev s' op o r a1 a2 ht ?_ ?_ hd ?_⟩
        · intro f hop b; subst hop; exact hf b
        · intro tel len hop hu hp; subst hop
          exact (hf ((forUs_iff _ tel).mp hu)).2 hp
        · intro tel len hop hp hs hc hn hu hsrc
          subst hop
          have := (hf hu).1 hc hn
          rw [hsrc, (a2.rcv hp).1] at this
          exact absurd rfl this
    obtain ⟨as', hh⟩ := sysOk_other A p req y r is as h0 op key.1 key.2
    exact ⟨r, is, as', hh⟩
  | receive t rest len hh =>
    rw [a4] at hh
    obtain ⟨j, is', rfl, rfl, rfl⟩ := List.map_eq_cons_iff.mp hh
    have hj := a6 j (by simp)
    have hrest : ∀ z ∈ is', j ≤ z := (List.pairwise_cons.mp a5).1
    have a5' := (List.pairwise_cons.mp a5).2
    have hy1 : SysOk p req { y with toDevice := is'.map req } r is' as :=
      ⟨a1, a2, a3, rfl, a5', fun i hi => a6 i (by simp [hi]), a7, a8, a9, a10, a11⟩
    by_cases hd : delivered (step A y.dev (.rx (req j) len)).2 = []
    · have key : DevOk p (step A y.dev (.rx (req j) len)).1 r ∧
          ∀ n ∈ acksIn p (step A y.dev (.rx (req j) len)).2, 1 ≤ r ∧ n = (r - 1) % 16 := by
        rcases step_trans A y.dev (.rx (req j) len) with ⟨e, _⟩ | ht
        · rw [e]; exact ⟨a2, by simp [acksIn]⟩
        · refine dev_other A hA p y.dev _ _ _ r a1 a2 ht (fun f hop => by cases hop) ?_ hd ?_
          · intro tel l hop hu hp
            cases hop
            have : ∀ b : Buf, isControl b = false → isConnect b = false := by
              intro b; unfold isControl isConnect
              generalize b 6 = x; revert x; decide +kernel
            exact this _ (hreq1 j)
          · intro tel l hop hp hs _ _ _ _
            cases hop
            have hff : req j 6 ≠ 0xFF#8 := notFF_of_bit7 _ ((control_eq _).mpr (hreq1 j))
            rw [seq_eq _ hff, hreq.seq j, (a2.rcv hp).2] at hs
            have h2 := hj.2
            have h3 := a10
            omega
      obtain ⟨as', hh2⟩ := sysOk_other A p req { y with toDevice := is'.map req } r is' as hy1
        (.rx (req j) len) hd key
      exact ⟨r, is', as', hh2⟩
    · -- the request is accepted
      have hy : ∃ s' o, step A y.dev (.rx (req j) len) = (s', o) ∧ Inv s' ∧ DevOk p s' (r + 1) ∧
          delivered o = [req j] ∧ j = r ∧ ∀ n ∈ acksIn p o, n = r % 16 := by
        rcases step_trans A y.dev (.rx (req j) len) with ⟨e, _⟩ | ht
        · rw [e] at hd; exact absurd rfl hd
        · have hinv := inv_step A y.dev (.rx (req j) len) a1
          revert hd ht hinv
          generalize hse : step A y.dev (.rx (req j) len) = so
          obtain ⟨s', o⟩ := so
          simp only []
          intro hd ht hinv
          refine ⟨s', o, rfl, hinv, ?_⟩
          cases ht with
          | dataAccepted _ _ hu hc hn ha hp hs htx =>
            have hff : req j 6 ≠ 0xFF#8 := notFF_of_bit7 _ hc
            have hq := seq_eq _ hff
            rw [hreq.seq j] at hq
            have hr := (a2.rcv hp).2
            have hjr : j = r := by omega
            have hlt : (sequenceNumber (req j)).toNat < 16 := by omega
            refine ⟨?_, rfl, hjr, ?_⟩
            · have hsq := a1.seqs hp
              refine devOk_a02 A hA p _ r _ _ ⟨hsq.1, hsq.2.1⟩ hp (a2.rcv hp) a2.buf1 a2.buf2 a2.wait ?_
              intro _ n hn'
              have := ack_ack p _ y.dev.txBuf _ n hlt hn'
              omega
            · intro n hn'
              have hn' : n ∈ acksIn p [ctrlOut y.dev T_ACK y.dev.connectedAddr (sequenceNumber (req j)).toNat] := by
                simpa [acksIn, frameOf] using hn'
              have := ack_ack p _ y.dev.txBuf _ n hlt (mem_acksIn_single p _ _ rfl n hn')
              omega
          | _ => exact absurd rfl hd
      obtain ⟨s', o, e, i1, i2, i3, rfl, i5⟩ := hy
      refine ⟨j + 1, is', as ++ (acksIn p o).map fun _ => j, ?_⟩
      constructor
      · simp only [Sys.device, e]; exact i1
      · simp only [Sys.device, e]; exact i2
      · simp [Sys.device, e, i3, a3, List.range_succ]
      · rfl
      · exact a5'
      · intro i hi
        have := hrest i hi; have := (a6 i (by simp [hi])).2
        simp only [Sys.device]; omega
      · simp only [Sys.device, e, List.map_append, a7]
        congr 1
        exact map_const_of _ _ i5
      · apply pairwise_snoc as a8 _ j
        · intro z hz; obtain ⟨_, _, rfl⟩ := List.mem_map.mp hz; rfl
        · intro z hz; have := a9 z hz; omega
      · intro a ha
        simp only [Sys.device]
        rcases List.mem_append.mp ha with ha | ha
        · have := a9 a ha; omega
        · obtain ⟨n, hn, rfl⟩ := List.mem_map.mp ha
          omega
      · simp only [Sys.device]; omega
      · simp only [Sys.device]; omega

/-- C03: over a bus that loses and duplicates telegrams in any way, in every reachable state of the
composed system the requests processed by the application are exactly the first `r` requests of the
client, in order and each once; they include every request whose acknowledgement the client has
accepted, and at most one more. -/
theorem C03_exactly_once (A : App σ) (hA : AppOk A) (p d : Word) (req : Nat → Buf)
    (hreq : Requests p d req) (s : State σ) (hs : Reachable A s) (hcl : s.phase = .closed)
    (hfree : s.tx = .free) (c : Buf) (len : Nat) (hu : UnicastTo s.ownAddr c)
    (hc : isConnect c = true) (hsrc : src c = p) (y : Sys σ)
    (hy : SysReach A p req
      { dev := (step A s (.rx c len)).1, current := 0, toDevice := [], toClient := [], log := [] } y) :
    ∃ r, y.log = (List.range r).map req ∧ y.current ≤ r ∧ r ≤ y.current + 1 := by
  have main : ∃ r is as, SysOk p req y r is as := by
    induction hy with
    | start =>
      refine ⟨0, [], [], ?_⟩
      rw [connect_step A s c len hcl hu hc]
      constructor
      · have := inv_step A s (.rx c len) (inv_reachable A s hs)
        rw [connect_step A s c len hcl hu hc] at this; exact this
      · refine ⟨fun _ => ⟨hsrc, rfl⟩, fun h => absurd rfl h, fun h => absurd rfl h, fun h => ?_, fun h => by cases h⟩
        have : s.tx = .sending := h
        rw [hfree] at this; cases this
      all_goals simp
    | step y y' _ hst ih =>
      obtain ⟨r, is, as, h⟩ := ih
      exact sysOk_step A hA p d req hreq y y' r is as h hst
  obtain ⟨r, is, as, h⟩ := main
  exact ⟨r, h.log, h.low, h.high⟩

/-! Non-vacuity: a device, a client and a run with a lost request, a duplicated request and a
duplicated acknowledgement. -/

def dataApp : App Nat where
  processApci n _ _ b := (n + 1, upd b 6 0x00#8, true)
  broadcast n _ _ := (n, none)
  group n _ _ := (n, none)

theorem dataApp_ok : AppOk dataApp :=
  ⟨fun _ _ _ _ _ => by simp [dataApp], fun _ _ _ _ _ h => by simp [dataApp] at h,
   fun _ _ _ _ _ h => by simp [dataApp] at h⟩

def demoReq (i : Nat) : Buf :=
  demoTel 0x11FE#16 0x1105#16 (0x40#8 ||| ((BitVec.ofNat 4 i).setWidth 8 <<< (2 : Nat)))

theorem demoReq_ok : Requests 0x11FE#16 0x1105#16 demoReq := by
  have num : ∀ n : BitVec 4, (0x40#8 ||| (n.setWidth 8 <<< (2 : Nat))).extractLsb' 6 2 = 0b01#2 := by
    decide +kernel
  have sq : ∀ n : BitVec 4, seqOf (0x40#8 ||| (n.setWidth 8 <<< (2 : Nat))) = n.toNat := by
    decide +kernel
  refine ⟨by decide, fun i => ?_, fun i => ?_, fun i => ?_, fun i => ?_, fun i => ?_⟩
  · show (0x61#8).getLsbD 7 = false
    decide
  · show highByte 0x1105#16 ++ lowByte 0x1105#16 = (0x1105#16 : BitVec (8 + 8))
    decide
  · show highByte 0x11FE#16 ++ lowByte 0x11FE#16 = (0x11FE#16 : BitVec (8 + 8))
    decide
  · simp only [isNumberedData, demoReq, demoTel, List.getD_cons_succ, List.getD_cons_zero]
    rw [num]; rfl
  · simp only [demoReq, demoTel, List.getD_cons_succ, List.getD_cons_zero]
    rw [sq]; simp

def demoSys : Sys Nat :=
  { dev := (step dataApp demoInit (.rx (demoTel 0x11FE#16 0x1105#16 0x80#8) 7)).1
    current := 0, toDevice := [], toClient := [], log := [] }

example : ∃ y, SysReach dataApp 0x11FE#16 demoReq demoSys y ∧ y.current = 1 ∧
    y.log.map (fun t => (List.range 8).map t) = [(List.range 8).map (demoReq 0)] := by
  let y1 := { demoSys with toDevice := demoSys.toDevice ++ [demoReq 0] }
  let y2 : Sys Nat := { y1 with toDevice := [] }                       -- lost
  let y3 : Sys Nat := { y2 with toDevice := y2.toDevice ++ [demoReq 0] } -- repeated
  let y4 : Sys Nat := { y3 with toDevice := [demoReq 0, demoReq 0] }     -- duplicated
  let y5 := { y4 with toDevice := [demoReq 0] }.device dataApp 0x11FE#16 (.rx (demoReq 0) 8)
  let y6 := y5.device dataApp 0x11FE#16 (.txDone true)
  let y7 := { y6 with toDevice := [] }.device dataApp 0x11FE#16 (.rx (demoReq 0) 8)
  have r1 : SysReach dataApp 0x11FE#16 demoReq demoSys y1 := .step _ _ .start (.clientSend _)
  have r2 : SysReach dataApp 0x11FE#16 demoReq demoSys y2 := .step _ _ r1 (.lose y1 [] (demoReq 0) [] rfl)
  have r3 : SysReach dataApp 0x11FE#16 demoReq demoSys y3 := .step _ _ r2 (.clientSend y2)
  have r4 : SysReach dataApp 0x11FE#16 demoReq demoSys y4 := .step _ _ r3 (.dup y3 [] (demoReq 0) [] rfl)
  have r5 : SysReach dataApp 0x11FE#16 demoReq demoSys y5 := .step _ _ r4 (.receive y4 _ _ 8 rfl)
  have r6 : SysReach dataApp 0x11FE#16 demoReq demoSys y6 := .step _ _ r5 (.other y5 _ trivial)
  have r7 : SysReach dataApp 0x11FE#16 demoReq demoSys y7 := .step _ _ r6 (.receive y6 _ _ 8 rfl)
  have ht : y7.toClient = [0, 0] := by decide +kernel
  have r8 := SysReach.step _ _ r7 (.clientAck y7 0 [0] ht)
  have r9 := SysReach.step _ _ r8 (.clientAck _ 0 [] rfl)
  refine ⟨_, r9, by decide +kernel, by decide +kernel⟩

end Verif.TL4
