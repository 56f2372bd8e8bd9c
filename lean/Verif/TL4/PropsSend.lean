import Verif.TL4.Props

/-!
# Transport layer: send side, time-outs, closed state, invariants (C04 – C08, C51, C52)
-/

namespace Verif.TL4
open Knx Spec
variable {σ : Type}

/-! ## C04 -/

/-- A control telegram the layer takes for a positive acknowledgement: control bit set, bit 0
clear, not T_CONNECT. (The standard only allows bits 7,6,1,0 = 1110...; see `C04_undefined_ack`.) -/
def ackLike (t : Buf) : Bool := isControl t && !(t 6).getLsbD 0 && !isConnect t

/-- No positive acknowledgement of `partner` is received in `ops`. -/
def NoAckFrom (partner : Word) (ops : List Op) : Prop :=
  ∀ tel len, Op.rx tel len ∈ ops → src tel = partner → ackLike tel = false

theorem bit0_eq (b : Byte) : (b &&& 0x01#8 = 0#8) ↔ b.getLsbD 0 = false := by
  revert b; decide +kernel

theorem ackLike_of (t : Buf) (hc : t 6 &&& 0x80#8 ≠ 0#8) (h1 : t 6 &&& 0xc3#8 ≠ T_CONNECT)
    (hk : t 6 &&& 0x01#8 = 0#8) : ackLike t = true := by
  have a := (not_congr (control_eq t)).mp hc
  have b := (not_congr (connect_eq t)).mp h1
  have c := (bit0_eq (t 6)).mp hk
  unfold ackLike
  simp at a b
  rw [a, b, c]; rfl

/-- Transmissions a pending response may still cause. -/
def budget (s : State σ) : Nat := if s.phase = .openWait then 3 - s.repCount else 4

/-- Send side of one step that keeps the connection open and receives no acknowledgement. -/
theorem snd_step (A : App σ) (s s' : State σ) (op : Op) (o : List Out) (h : Trans A s op s' o)
    (hopen : s.phase ≠ .closed) (hopen' : s'.phase ≠ .closed)
    (hna : ∀ tel len, op = .rx tel len → src tel = s.connectedAddr → ackLike tel = false) :
    s'.seqNoSend = s.seqNoSend ∧
    (s.phase = .openWait → s'.phase = .openWait ∧
      (s.con1 = .sending → s'.con1 = .sending ∧ s'.conBuf1 = s.conBuf1)) ∧
    (dataSent o).length + budget s' ≤ budget s ∧
    ((dataSent o ≠ [] ∨ s.phase = .openWait) → s'.phase = .openWait) ∧
    ∀ f ∈ dataSent o, s'.phase = .openWait ∧ f = bytes s'.conBuf1 (telegramSize s'.conBuf1) := by
  cases h with
  | connect tel len hu hc hp => exact absurd hp hopen
  | disconnected => exact absurd rfl hopen'
  | ackWrong | nakClose | loopTimeout | loopGiveUp | disconnect => exact absurd rfl hopen'
  | ackOk tel len hu hc h1 h2 hk hp ha hs =>
    have := hna tel len rfl (by rw [← sender_eq]; exact ha.symm)
    rw [ackLike_of tel hc h1 hk] at this
    cases this
  | nakRepeat tel len hu hc h1 h2 hk hp ha hs hr htx =>
    simp only [dataSent_dataOut, repeatState, dataState, dataSent, budget, hp]
    simp; omega
  | loopRepeat hen htx hp ht ht2 hr =>
    simp only [dataSent_dataOut, repeatState, dataState, dataSent, budget, hp]
    simp; omega
  | loopSend hen htx hp hc ht =>
    simp only [dataSent_dataOut, firstSendState, dataSent, budget, hp]
    simp
  | dataAccepted tel len hu hc hn ha hp hs htx =>
    have e1 : (a02Process A (ctrlState s T_ACK s.connectedAddr (sequenceNumber tel).toNat) tel len).seqNoSend
        = s.seqNoSend := by
      unfold a02Process; simp only []; split <;> split <;> rfl
    have e2 : (a02Process A (ctrlState s T_ACK s.connectedAddr (sequenceNumber tel).toNat) tel len).phase
        = s.phase := by
      unfold a02Process; simp only []; split <;> split <;> rfl
    have e3 : (a02Process A (ctrlState s T_ACK s.connectedAddr (sequenceNumber tel).toNat) tel len).repCount
        = s.repCount := by
      unfold a02Process; simp only []; split <;> split <;> rfl
    refine ⟨e1, fun hw => ⟨by rw [e2]; exact hw, fun hsend => ?_⟩, ?_, ?_, ?_⟩
    · unfold a02Process
      have : (ctrlState s T_ACK s.connectedAddr (sequenceNumber tel).toNat).con1 = .sending := hsend
      simp only [this]
      simp only [reduceCtorEq, if_false]
      split <;> exact ⟨rfl, rfl⟩
    · simp [budget, e2, e3, dataSent]
    · rw [e2]; simp [dataSent]
    · simp [dataSent]
  | dataRepeated | dataNak =>
    exact ⟨rfl, fun hw => ⟨hw, fun h => ⟨h, rfl⟩⟩, Nat.le_of_eq (Nat.zero_add _),
      fun h => h.resolve_left (by simp [dataSent]), by simp [dataSent]⟩
  | _ => simp [dataSent, budget]

/-- C04: while the connection stays open and no acknowledgement of the partner arrives, at most four
data telegrams (one plus three repetitions) are transmitted, and they are all identical. -/
theorem C04_at_most_four (A : App σ) (s : State σ) (hreach : Reachable A s) (ops : List Op)
    (hopen : StaysOpen A s ops) (hna : NoAckFrom s.connectedAddr ops) :
    (dataSent (run A s ops).2).length ≤ 4 ∧
    ∃ f, ∀ g ∈ dataSent (run A s ops).2, g = f := by
  have main : ∀ (ops : List Op) (s : State σ), Inv s → StaysOpen A s ops →
      NoAckFrom s.connectedAddr ops →
      (dataSent (run A s ops).2).length ≤ budget s ∧
      (∃ f, (s.phase = .openWait → f = bytes s.conBuf1 (telegramSize s.conBuf1)) ∧
        ∀ g ∈ dataSent (run A s ops).2, g = f) := by
    intro ops
    induction ops with
    | nil => intro s _ _ _; exact ⟨by simp [run, dataSent], _, fun _ => rfl, by simp [run, dataSent]⟩
    | cons op ops ih =>
      intro s hi hso hna
      obtain ⟨h0, hs⟩ := staysOpen_cons A s op ops hso
      have h1 : (step A s op).1.phase ≠ .closed := hs 0 (by simp)
      have hi' := inv_step A s op hi
      rw [run_cons]
      simp only [dataSent_append]
      rcases step_trans A s op with ⟨hw, _⟩ | ht
      · have ih' := ih s hi (by rw [hw] at hs; exact hs)
          (fun t l hm => hna t l (by simp [hm]))
        rw [hw]; simpa [dataSent] using ih'
      · obtain ⟨k1, k2, k3, k4, k5⟩ := snd_step A s _ op _ ht h0 h1
          (fun tel len he => hna tel len (by simp [he]))
        have hconn := (rcv_step A s _ op _ ht h0 h1).1
        obtain ⟨j1, f, j2, j3⟩ := ih (step A s op).1 hi' hs
          (fun t l hm => by rw [hconn]; exact hna t l (by simp [hm]))
        refine ⟨by simp; omega, ?_⟩
        by_cases hw' : (step A s op).1.phase = .openWait
        · refine ⟨f, fun hw => ?_, ?_⟩
          · rw [j2 hw', ((k2 hw).2 (hi.wait.mp hw)).2]
          · intro g hg
            rcases List.mem_append.mp hg with hg | hg
            · rw [(k5 g hg).2, ← j2 hw']
            · exact j3 g hg
        · refine ⟨f, fun hw => absurd (k2 hw).1 hw', ?_⟩
          intro g hg
          rcases List.mem_append.mp hg with hg | hg
          · exact absurd (k5 g hg).1 hw'
          · exact j3 g hg
  obtain ⟨h1, f, _, h2⟩ := main ops s (inv_reachable A s hreach) hopen hna
  refine ⟨Nat.le_trans h1 ?_, f, h2⟩
  unfold budget; split <;> omega

/-- Request, loop, four time-outs: the response is transmitted four times. -/
def demoRepeat : List Op :=
  [.rx (demoTel 0x11FE#16 0x1105#16 0x40#8) 8, .txDone true, .loop, .txDone true,
   .advance 3000, .loop, .txDone true, .advance 3000, .loop, .txDone true,
   .advance 3000, .loop, .txDone true]

theorem demoOpen_reachable : Reachable demoApp demoOpen :=
  ⟨0x1105#16, 0, 0, [.rx (demoTel 0x11FE#16 0x1105#16 0x80#8) 7], rfl⟩

example : Reachable demoApp demoOpen ∧ StaysOpen demoApp demoOpen demoRepeat ∧
    NoAckFrom demoOpen.connectedAddr demoRepeat ∧
    (dataSent (run demoApp demoOpen demoRepeat).2).length = 4 := by
  refine ⟨demoOpen_reachable, ?_, ?_, by decide +kernel⟩
  · have : ∀ n ≤ 13, (run demoApp demoOpen (demoRepeat.take n)).1.phase ≠ .closed := by decide +kernel
    exact this
  · intro tel len hm _
    simp [demoRepeat] at hm
    rw [hm.1]; decide

/-- C04: every data telegram transmitted carries the current send sequence number (which is in
0..15) and is addressed to the partner. -/
theorem C04_frame_fields (A : App σ) (s : State σ) (hreach : Reachable A s) (op : Op)
    (f : List Byte) (hf : f ∈ dataSent (step A s op).2) :
    ∃ b0 b1 b2 d1 d2 b5 tpci rest, f = b0 :: b1 :: b2 :: d1 :: d2 :: b5 :: tpci :: rest ∧
      d1 ++ d2 = s.connectedAddr ∧ (seqOf tpci : Int) = s.seqNoSend := by
  have hi := inv_reachable A s hreach
  have key : s.con1 ≠ .free → ∃ b0 b1 b2 d1 d2 b5 tpci rest,
      bytes s.conBuf1 (telegramSize s.conBuf1) = b0 :: b1 :: b2 :: d1 :: d2 :: b5 :: tpci :: rest ∧
      d1 ++ d2 = s.connectedAddr ∧ (seqOf tpci : Int) = s.seqNoSend := by
    intro hc
    obtain ⟨h1, h2⟩ := hi.buf1 hc
    have h7 := telegramSize_ge s.conBuf1
    obtain ⟨n, hn⟩ : ∃ n, telegramSize s.conBuf1 = 7 + n := ⟨telegramSize s.conBuf1 - 7, by omega⟩
    refine ⟨s.conBuf1 0, s.conBuf1 1, s.conBuf1 2, s.conBuf1 3, s.conBuf1 4, s.conBuf1 5,
      s.conBuf1 6, (List.range n).map fun i => s.conBuf1 (7 + i), ?_, h1, h2⟩
    rw [hn, bytes, List.range_add, List.map_append]
    simp [List.range_succ, Function.comp_def]
  rcases step_trans A s op with ⟨h, _⟩ | h
  · rw [h] at hf; simp [dataSent] at hf
  · revert h hf
    generalize (step A s op).1 = s'
    generalize (step A s op).2 = o
    intro hf h
    cases h with
    | nakRepeat _ _ _ _ _ _ _ hp =>
      simp [dataSent_dataOut, dataSent] at hf
      rw [hf]; exact key (by rw [hi.wait.mp hp]; simp)
    | loopRepeat _ _ hp =>
      simp [dataSent_dataOut, dataSent] at hf
      rw [hf]; exact key (by rw [hi.wait.mp hp]; simp)
    | loopSend _ _ _ hc =>
      simp [dataSent_dataOut, dataSent] at hf
      rw [hf]; exact key (by rw [hc]; simp)
    | _ => simp [dataSent] at hf

/-- The matching acknowledgement the open connection is waiting for. -/
def MatchingAck (s : State σ) (op : Op) : Prop :=
  s.phase = .openWait ∧ ∃ tel len, op = .rx tel len ∧ UnicastTo s.ownAddr tel ∧
    src tel = s.connectedAddr ∧ ackLike tel = true ∧ (seqOf (tel 6) : Int) = s.seqNoSend

/-- C04: the send sequence number of a connection that stays open advances (mod 16) exactly when the
partner's matching acknowledgement is received, and is unchanged otherwise. -/
theorem C04_advance_exact (A : App σ) (s : State σ) (hreach : Reachable A s) (op : Op)
    (hopen : s.phase ≠ .closed) (hopen' : (step A s op).1.phase ≠ .closed) :
    (MatchingAck s op → (step A s op).1.seqNoSend = (s.seqNoSend + 1) % 16 ∧
      (step A s op).1.phase = .openIdle) ∧
    (¬ MatchingAck s op → (step A s op).1.seqNoSend = s.seqNoSend) := by
  have hi := inv_reachable A s hreach
  have hq := hi.seqs hopen
  constructor
  · rintro ⟨hw, tel, len, rfl, hu, hsrc, hack, hseq⟩
    have hf := (forUs_iff s tel).mpr hu
    simp only [ackLike, Bool.and_eq_true, Bool.not_eq_true'] at hack
    obtain ⟨⟨hc, h0⟩, h1⟩ := hack
    have hb : ¬ (tel 6 &&& 0x80#8 = 0#8) := by
      intro h; rw [(control_eq tel).mp h] at hc; cases hc
    have hk := (bit0_eq (tel 6)).mpr h0
    have hnc : ¬ (tel 6 &&& 0xc3#8 = T_CONNECT) := by
      intro h; rw [(connect_eq tel).mp h] at h1; cases h1
    have hnd : ¬ (tel 6 &&& 0xc3#8 = T_DISCONNECT) := by
      intro h
      have : ∀ b : Byte, b &&& 0xc3#8 = T_DISCONNECT → b &&& 0x01#8 = 0#8 → False := by decide +kernel
      exact this _ h hk
    have hs := seq_eq tel (notFF_of_bit0 _ hk)
    have e : exec A s (.rx tel len) = some ({ a08 s with phase := .openIdle }, []) := by
      simp [exec, processTelegram, hf.unicast, hf.dest, tpci_bit7, hb]
      rw [if_neg (by intro h; exact hf.nonzero (hf.dest.trans h))]
      unfold conControl
      rw [if_neg hnc, if_neg hnd]
      unfold conAck
      rw [if_neg (tpci_ackmask _ hb), if_pos ((tpci_bit0 _).mpr hk)]
      simp [hw, sender_eq, hsrc, hs, hseq]
    have e2 : step A s (.rx tel len) = ({ a08 s with phase := .openIdle }, []) := by
      simp [step, e]
    rw [e2]
    refine ⟨?_, rfl⟩
    simp only [a08]; split <;> rfl
  · intro hm
    rcases step_trans A s op with ⟨h, _⟩ | h
    · rw [h]
    · revert h hopen'
      generalize (step A s op).1 = s'
      generalize (step A s op).2 = o
      intro hopen' h
      have h' := h
      cases h with
      | connect tel len hu hc hp => exact absurd hp hopen
      | ackOk tel len hu hc h1 h2 hk hp ha hs =>
        exfalso
        apply hm
        refine ⟨hp, tel, len, rfl, (forUs_iff s tel).mp hu, by rw [← sender_eq]; exact ha.symm,
          ackLike_of tel hc h1 hk, ?_⟩
        rw [← seq_eq tel (notFF_of_bit0 _ hk)]; exact hs
      | dataAccepted tel len hu hc hn ha hp hs htx =>
        unfold a02Process; simp only []; split <;> split <;> rfl
      | _ => rfl

/-- The demo device waiting for the acknowledgement of its first response. -/
def demoWait : State Nat := (run demoApp demoOpen (demoRepeat.take 4)).1

example : MatchingAck demoWait (.rx (demoTel 0x11FE#16 0x1105#16 0xC2#8) 7) ∧
    (step demoApp demoWait (.rx (demoTel 0x11FE#16 0x1105#16 0xC2#8) 7)).1.phase ≠ .closed := by
  refine ⟨⟨by decide +kernel, _, _, rfl, ⟨by decide +kernel, by decide +kernel, by decide +kernel⟩,
    by decide +kernel, by decide +kernel, by decide +kernel⟩, by decide +kernel⟩

/-- One round of the acknowledge time-out: the bus finishes the transmission, `d` milliseconds pass,
the transport loop runs. -/
def timeoutRound (d : Nat) : List Op := [.txDone true, .advance d, .loop]

theorem elapsed_after (s : State σ) (d : Nat) (hd : d < 6000) (t : U32) (h : t = millis s) :
    (elapsed { s with clock := s.clock + d } t).toNat = d := by
  subst h
  simp [elapsed, millis]
  omega

theorem timeout_round (A : App σ) (s : State σ) (d : Nat) (hd : 3000 ≤ d) (hd' : d < 6000)
    (hw : s.phase = .openWait) (hen : s.enabled = true) (htx : s.tx = .sending)
    (hbit : s.txBuf 6 &&& 0x80#8 = 0#8)
    (ht1 : s.connectedTime = millis s) (ht2 : s.sentTime = millis s) :
    let s1 : State σ := { s with tx := .free, clock := s.clock + d }
    run A s (timeoutRound d) =
      if s.repCount < 3 then (repeatState s1, [dataOut s1])
      else (closedState s1, [ctrlOut s1 T_DISCONNECT s.connectedAddr 0]) := by
  intro s1
  have e1 : step A s (.txDone true) = ({ s with tx := .free }, []) := by
    simp [step, exec, finishedSending, htx, tpci_bit7, hbit]
  have e2 : step A { s with tx := .free } (.advance d) = (s1, []) := rfl
  have l1 : (elapsed s1 s1.connectedTime).toNat = d :=
    elapsed_after { s with tx := .free } d hd' _ ht1
  have l2 : (elapsed s1 s1.sentTime).toNat = d :=
    elapsed_after { s with tx := .free } d hd' _ ht2
  have e3 : step A s1 .loop =
      if s.repCount < 3 then (repeatState s1, [dataOut s1])
      else (closedState s1, [ctrlOut s1 T_DISCONNECT s.connectedAddr 0]) := by
    have f1 : TL4.loopTimeout s1 = some (s1, []) := by
      unfold TL4.loopTimeout; rw [if_neg]; rw [l1]; omega
    have f2 : TL4.loopSend s1 = some (s1, []) := by
      unfold TL4.loopSend; rw [if_neg]
      intro h; have : s.phase = .openIdle := h.1
      rw [hw] at this; cases this
    have f3 : TL4.loopRepeat s1 = if s.repCount < 3 then a09 s1 else a06 s1 := by
      unfold TL4.loopRepeat; rw [if_pos]
      exact ⟨hw, by rw [l2]; exact hd⟩
    have hen1 : s1.enabled = true := hen
    have hf1 : s1.tx = .free := rfl
    simp only [step, exec, TL4.loop, hen1, hf1]
    simp only [Bool.not_true, Bool.false_eq_true, if_false, ne_eq, not_true_eq_false]
    simp only [f1, andThen, Option.bind_some, f2, Option.map_some, f3]
    rw [a09_eq, a06_eq, if_pos hf1, if_pos hf1]
    by_cases hr : s.repCount < 3
    · simp [hr]
    · simp only [hr, if_false]; rfl
  simp only [timeoutRound, run_cons, e1, e2, e3, run]
  split <;> simp

/-- Waiting for the acknowledgement of `frame`, sent `n + 1` times, the last time just now. -/
structure Waiting (s : State σ) (n : Nat) (frame : List Byte) (partner : Word) : Prop where
  phase : s.phase = .openWait
  enabled : s.enabled = true
  tx : s.tx = .sending
  rep : s.repCount = n
  data : s.conBuf1 6 &&& 0x80#8 = 0#8
  wire : s.txBuf 6 = s.conBuf1 6
  t1 : s.connectedTime = millis s
  t2 : s.sentTime = millis s
  frame : bytes s.conBuf1 (telegramSize s.conBuf1) = frame
  partner : s.connectedAddr = partner

theorem round_repeat (A : App σ) (s : State σ) (n d : Nat) (frame : List Byte) (p : Word)
    (h : Waiting s n frame p) (hn : n < 3) (hd : 3000 ≤ d ∧ d < 6000) :
    ∃ s', run A s (timeoutRound d) = (s', [.sentData frame]) ∧ Waiting s' (n + 1) frame p := by
  have r := timeout_round A s d hd.1 hd.2 h.phase h.enabled h.tx (by rw [h.wire]; exact h.data) h.t1 h.t2
  simp only [] at r
  rw [if_pos (by rw [h.rep]; exact hn), dataOut_eq] at r
  refine ⟨repeatState { s with tx := .free, clock := s.clock + d }, ?_, ?_⟩
  · rw [r, ← h.frame]
  · constructor
    · exact h.phase
    · exact h.enabled
    · rfl
    · simp [repeatState, h.rep]
    · exact h.data
    · have := telegramSize_ge s.conBuf1
      simp only [repeatState, dataState, memcpy]
      rw [if_pos (by omega)]
    · rfl
    · rfl
    · exact h.frame
    · exact h.partner

/-- C04: a response that is never acknowledged. From the state right after its first transmission,
for acknowledge time-outs of any length between 3000 and 5999 ms: three identical repetitions are
transmitted, then the connection is closed with a T_DISCONNECT to the partner. -/
theorem C04_give_up (A : App σ) (s : State σ) (d1 d2 d3 d4 : Nat) (frame : List Byte) (p : Word)
    (h1 : 3000 ≤ d1 ∧ d1 < 6000) (h2 : 3000 ≤ d2 ∧ d2 < 6000) (h3 : 3000 ≤ d3 ∧ d3 < 6000)
    (h4 : 3000 ≤ d4 ∧ d4 < 6000) (h : Waiting s 0 frame p) :
    ∃ f, IsControlFrame disconnectByte p f ∧
      (run A s (timeoutRound d1 ++ timeoutRound d2 ++ timeoutRound d3 ++ timeoutRound d4)).1.phase
        = .closed ∧
      (run A s (timeoutRound d1 ++ timeoutRound d2 ++ timeoutRound d3 ++ timeoutRound d4)).2
        = [.sentData frame, .sentData frame, .sentData frame, .sentControl f] := by
  obtain ⟨s1, r1, w1⟩ := round_repeat A s 0 d1 frame p h (by omega) h1
  obtain ⟨s2, r2, w2⟩ := round_repeat A s1 1 d2 frame p w1 (by omega) h2
  obtain ⟨s3, r3, w3⟩ := round_repeat A s2 2 d3 frame p w2 (by omega) h3
  have r4 := timeout_round A s3 d4 h4.1 h4.2 w3.phase w3.enabled w3.tx
    (by rw [w3.wire]; exact w3.data) w3.t1 w3.t2
  simp only [] at r4
  rw [if_neg (by rw [w3.rep]; omega)] at r4
  obtain ⟨f, hf, hc⟩ := ctrl_disconnect { s3 with tx := .free, clock := s3.clock + d4 } s3.connectedAddr
  refine ⟨f, by rw [← w3.partner]; exact hc, ?_, ?_⟩
  · rw [run_append, run_append, run_append, r1]
    simp only [r2, r3, r4]; rfl
  · rw [run_append, run_append, run_append, r1]
    simp only [r2, r3, r4, hf]; rfl

/-- The state after the first transmission is such a state. -/
example : ∃ frame, Waiting (run demoApp demoOpen (demoRepeat.take 3)).1 0 frame 0x11FE#16 := by
  refine ⟨_, by decide +kernel, by decide +kernel, by decide +kernel, by decide +kernel,
    by decide +kernel, by decide +kernel, by decide +kernel, by decide +kernel, rfl, by decide +kernel⟩

/-- C04, deviation: a control telegram that is no T_ACK (transport control byte 0x82, an undefined
code) is taken for the acknowledgement: the send sequence number advances and the response is
dropped although the partner never acknowledged it. -/
theorem C04_undefined_ack :
    isAck (demoTel 0x11FE#16 0x1105#16 0x82#8) = false ∧
    demoWait.phase = .openWait ∧ demoWait.seqNoSend = 0 ∧
    (step demoApp demoWait (.rx (demoTel 0x11FE#16 0x1105#16 0x82#8) 7)).1.phase = .openIdle ∧
    (step demoApp demoWait (.rx (demoTel 0x11FE#16 0x1105#16 0x82#8) 7)).1.seqNoSend = 1 ∧
    (step demoApp demoWait (.rx (demoTel 0x11FE#16 0x1105#16 0x82#8) 7)).1.con1 = .free := by
  decide +kernel

/-- C04, deviation: a T_NAK with sequence number 15 (transport control byte 0xFF) never triggers the
repetition, whatever the state of the connection: the sequence number accessor returns 255 for it. -/
theorem C04_nak15_ignored (A : App σ) (s : State σ) (hreach : Reachable A s) (tel : Buf) (len : Nat)
    (hu : UnicastTo s.ownAddr tel) (h : tel 6 = 0xFF#8) :
    isNak tel = true ∧ seqOf (tel 6) = 15 ∧ step A s (.rx tel len) = (s, []) := by
  refine ⟨by simp [isNak, h], by rw [h]; decide, ?_⟩
  have hf := (forUs_iff s tel).mpr hu
  have hsq : (sequenceNumber tel).toNat = 255 := by simp [sequenceNumber, h]
  have hlt : s.phase ≠ .closed → ((255 : Nat) : Int) ≠ s.seqNoSend := by
    intro hp; have := (inv_reachable A s hreach).seqs hp; omega
  have e : exec A s (.rx tel len) = some (s, []) := by
    simp [exec, processTelegram, hf.unicast, hf.dest, h]
    rw [if_neg (by intro h; exact hf.nonzero (hf.dest.trans h))]
    unfold conControl
    rw [if_neg (by decide), if_neg (by decide)]
    unfold conAck
    rw [if_neg (by decide), if_neg (by decide), hsq]
    by_cases hp : s.phase = .closed
    · simp [hp]
    · simp only [hlt hp, ne_eq, not_false_eq_true, true_or, or_true, if_true]
  simp [step, e]

/-! ## C05 -/

/-- Accepted activity on the connection: opening it, a numbered telegram of the partner, the awaited
acknowledgement of the partner, or the transmission of a response. -/
def Activity (s : State σ) (op : Op) (o : List Out) : Prop :=
  dataSent o ≠ [] ∨
  ∃ tel len, op = .rx tel len ∧ UnicastTo s.ownAddr tel ∧
    ((s.phase = .closed ∧ isConnect tel = true) ∨
     (s.phase ≠ .closed ∧ src tel = s.connectedAddr ∧ isControl tel = false ∧
        isConnectionless tel = false) ∨
     MatchingAck s op)

open Classical in
/-- The (unbounded) time of the last activity in a history; `t` if there was none. A telegram that is
still waiting for the send buffer (`exec = none`) does not count yet. -/
noncomputable def lastActivity (A : App σ) : State σ → Nat → List Op → Nat
  | _, t, [] => t
  | s, t, op :: ops =>
    lastActivity A (step A s op).1
      (if exec A s op ≠ none ∧ Activity s op (step A s op).2 then s.clock else t) ops

theorem time_step (A : App σ) (s s' : State σ) (op : Op) (o : List Out) (h : Trans A s op s' o)
    (hopen' : s'.phase ≠ .closed) :
    s.clock ≤ s'.clock ∧
    (Activity s op o → s'.connectedTime = millis s) ∧
    (¬ Activity s op o → s'.connectedTime = s.connectedTime ∧ s.phase ≠ .closed) := by
  cases h with
  | connect tel len hu hc hp =>
    refine ⟨Nat.le_refl _, fun _ => rfl, fun h => absurd ?_ h⟩
    exact Or.inr ⟨tel, len, rfl, (forUs_iff s tel).mp hu, Or.inl ⟨hp, (connect_eq tel).mp hc⟩⟩
  | disconnected => exact absurd rfl hopen'
  | ackWrong | nakClose | loopTimeout | loopGiveUp | disconnect => exact absurd rfl hopen'
  | ackOk tel len hu hc h1 h2 hk hp ha hs =>
    refine ⟨?_, fun _ => ?_, fun h => absurd ?_ h⟩
    · simp only [a08]; split <;> exact Nat.le_refl _
    · simp only [a08]; split <;> rfl
    · have hu' := (forUs_iff s tel).mp hu
      refine Or.inr ⟨tel, len, rfl, hu', Or.inr (Or.inr ⟨hp, tel, len, rfl, hu', ?_, ackLike_of tel hc h1 hk, ?_⟩)⟩
      · rw [← sender_eq]; exact ha.symm
      · rw [← seq_eq tel (notFF_of_bit0 _ hk)]; exact hs
  | nakRepeat | loopRepeat | loopSend =>
    refine ⟨Nat.le_refl _, fun _ => rfl, fun h => absurd ?_ h⟩
    exact Or.inl (by rw [dataSent_dataOut]; simp)
  | dataAccepted tel len hu hc hn ha hp hs htx =>
    refine ⟨?_, fun _ => ?_, fun h => absurd ?_ h⟩
    · unfold a02Process; simp only []; split <;> split <;> exact Nat.le_refl _
    · unfold a02Process; simp only []; split <;> split <;> rfl
    · refine Or.inr ⟨tel, len, rfl, (forUs_iff s tel).mp hu, Or.inr (Or.inl ⟨hp, ?_, (control_eq tel).mp hc, ?_⟩)⟩
      · rw [← sender_eq]; exact ha.symm
      · simpa using (not_congr (connectionless_eq tel)).mp hn
  | dataRepeated tel len hu hc hn ha hp hs hs' htx | dataNak tel len hu hc hn ha hp hs hs' htx =>
    refine ⟨Nat.le_refl _, fun _ => rfl, fun h => absurd ?_ h⟩
    refine Or.inr ⟨tel, len, rfl, (forUs_iff s tel).mp hu, Or.inr (Or.inl ⟨hp, ?_, (control_eq tel).mp hc, ?_⟩)⟩
    · rw [← sender_eq]; exact ha.symm
    · simpa using (not_congr (connectionless_eq tel)).mp hn
  | rxIgnored tel len h hu hd =>
    refine ⟨Nat.le_refl _, fun ha => ?_, fun _ => ⟨rfl, hopen'⟩⟩
    rcases ha with ha | ⟨t, l, he, hu', _⟩
    · simp [dataSent] at ha
    · cases he; exact absurd ((forUs_iff s tel).mpr hu').dest hd
  | rxBroadcast tel len h | rxBroadcastSend tel len f h =>
    refine ⟨Nat.le_refl _, fun ha => ?_, fun _ => ⟨rfl, hopen'⟩⟩
    rcases ha with ha | ⟨t, l, he, hu', _⟩
    · simp [dataSent] at ha
    · cases he; exact absurd h ((forUs_iff s tel).mpr hu').nonzero
  | rxGroup tel len _ h | rxGroupSend tel len f _ h =>
    refine ⟨Nat.le_refl _, fun ha => ?_, fun _ => ⟨rfl, hopen'⟩⟩
    rcases ha with ha | ⟨t, l, he, hu', _⟩
    · simp [dataSent] at ha
    · cases he; exact absurd ((forUs_iff s tel).mpr hu').unicast h
  | connectSame tel len hu hc hp ha' | connectOther tel len hu hc hp ha' =>
    refine ⟨Nat.le_refl _, fun ha => ?_, fun _ => ⟨rfl, hopen'⟩⟩
    rcases ha with ha | ⟨t, l, he, hu', ⟨h1, _⟩ | ⟨_, _, h3, _⟩ | ⟨_, t2, l2, he2, _, _, hack, _⟩⟩
    · simp [dataSent] at ha
    · exact absurd h1 hp
    · cases he
      have : isConnect tel = true → isControl tel = false → False := by
        unfold isConnect isControl
        generalize tel 6 = b
        revert b; decide +kernel
      exact absurd h3 (fun h => this ((connect_eq tel).mp hc) h)
    · cases he; cases he2
      simp [ackLike, (connect_eq tel).mp hc] at hack
  | disconnectIgnored tel len hu hc hp =>
    refine ⟨Nat.le_refl _, fun ha => ?_, fun _ => ⟨rfl, hopen'⟩⟩
    rcases ha with ha | ⟨t, l, he, hu', ⟨h1, _⟩ | ⟨_, _, h3, _⟩ | ⟨_, t2, l2, he2, _, _, hack, _⟩⟩
    · simp [dataSent] at ha
    · exact absurd h1 hopen'
    · cases he
      have : isDisconnect tel = true → isControl tel = false → False := by
        unfold isDisconnect isControl
        generalize tel 6 = b
        revert b; decide +kernel
      exact absurd h3 (fun h => this ((disconnect_eq tel).mp hc) h)
    · cases he; cases he2
      have : isDisconnect tel = true → (tel 6).getLsbD 0 = false → False := by
        unfold isDisconnect
        generalize tel 6 = b
        revert b; decide +kernel
      simp only [ackLike, Bool.and_eq_true, Bool.not_eq_true'] at hack
      exact absurd hack.1.2 (fun h => this ((disconnect_eq tel).mp hc) h)
  | ackIgnored tel len hu hc h1 h2 hk hp =>
    refine ⟨Nat.le_refl _, fun ha => ?_, fun _ => ⟨rfl, hopen'⟩⟩
    rcases ha with ha | ⟨t, l, he, hu', ⟨h1', _⟩ | ⟨_, _, h3, _⟩ | ⟨hw, t2, l2, he2, _, hs2, hack, _⟩⟩
    · simp [dataSent] at ha
    · exact absurd h1' hopen'
    · cases he; exact absurd ((control_eq tel).mpr h3) hc
    · cases he; cases he2
      rcases hp with hp | hp
      · exact absurd hw hp
      · rw [sender_eq] at hp; exact absurd hs2.symm hp
  | nakIgnored tel len hu hc h1 h2 hk hp =>
    refine ⟨Nat.le_refl _, fun ha => ?_, fun _ => ⟨rfl, hopen'⟩⟩
    rcases ha with ha | ⟨t, l, he, hu', ⟨h1', _⟩ | ⟨_, _, h3, _⟩ | ⟨hw, t2, l2, he2, _, hs2, hack, _⟩⟩
    · simp [dataSent] at ha
    · exact absurd h1' hopen'
    · cases he; exact absurd ((control_eq tel).mpr h3) hc
    · cases he; cases he2
      simp only [ackLike, Bool.and_eq_true, Bool.not_eq_true'] at hack
      exact absurd ((bit0_eq _).mpr hack.1.2) hk
  | individual tel len hu hc | individualSend tel len r hu hc =>
    refine ⟨Nat.le_refl _, fun ha => ?_, fun _ => ⟨rfl, hopen'⟩⟩
    rcases ha with ha | ⟨t, l, he, hu', ⟨h1', _⟩ | ⟨_, _, _, h3⟩ | ⟨hw, t2, l2, he2, _, hs2, hack, _⟩⟩
    · simp [dataSent] at ha
    · exact absurd h1' hopen'
    · cases he; rw [(connectionless_eq tel).mp hc] at h3; cases h3
    · cases he; cases he2
      simp only [ackLike, Bool.and_eq_true, Bool.not_eq_true'] at hack
      have := (control_eq tel).mp (fc_zero_bit7 _ hc)
      rw [this] at hack; exact absurd hack.1.1 (by simp)
  | dataIgnored tel len hu hc hn hp =>
    refine ⟨Nat.le_refl _, fun ha => ?_, fun _ => ⟨rfl, hopen'⟩⟩
    rcases ha with ha | ⟨t, l, he, hu', ⟨h1', _⟩ | ⟨_, h3, _⟩ | ⟨hw, t2, l2, he2, _, hs2, hack, _⟩⟩
    · simp [dataSent] at ha
    · exact absurd h1' hopen'
    · cases he
      rcases hp with hp | hp
      · rw [sender_eq] at hp; exact absurd h3.symm hp
      · exact absurd hp hopen'
    · cases he; cases he2
      simp only [ackLike, Bool.and_eq_true, Bool.not_eq_true'] at hack
      rw [(control_eq tel).mp hc] at hack; exact absurd hack.1.1 (by simp)
  | advance ms =>
    refine ⟨Nat.le_add_right _ _, fun ha => ?_, fun _ => ⟨rfl, hopen'⟩⟩
    rcases ha with ha | ⟨t, l, he, _⟩
    · simp [dataSent] at ha
    · cases he
  | loopIdle | txDoneQuiet | txDoneRetry | userSend | setOwnAddress =>
    refine ⟨Nat.le_refl _, fun ha => ?_, fun _ => ⟨rfl, hopen'⟩⟩
    rcases ha with ha | ⟨t, l, he, _⟩
    · simp [dataSent] at ha
    · cases he

theorem time_run (A : App σ) (s : State σ) (t : Nat) (ops : List Op)
    (h : s.phase ≠ .closed → s.connectedTime = BitVec.ofNat 32 t ∧ t ≤ s.clock)
    (hopen : (run A s ops).1.phase ≠ .closed) :
    (run A s ops).1.connectedTime = BitVec.ofNat 32 (lastActivity A s t ops) ∧
    lastActivity A s t ops ≤ (run A s ops).1.clock := by
  induction ops generalizing s t with
  | nil => exact h hopen
  | cons op ops ih =>
    rw [run_cons] at hopen ⊢
    apply ih _ _ _ hopen
    intro hopen1
    cases he : exec A s op with
    | none =>
      have e : step A s op = (s, []) := by simp [step, he]
      rw [e] at hopen1 ⊢
      simp only [ne_eq, not_true_eq_false, false_and, if_false]
      exact h hopen1
    | some r =>
      have ht := exec_trans A s r.1 op r.2 he
      have e : step A s op = r := by simp [step, he]
      rw [e] at hopen1 ⊢
      obtain ⟨h1, h2, h3⟩ := time_step A s r.1 op r.2 ht hopen1
      simp only [ne_eq, reduceCtorEq, not_false_eq_true, true_and]
      by_cases hact : Activity s op r.2
      · rw [if_pos ⟨by simp, hact⟩]; exact ⟨h2 hact, h1⟩
      · rw [if_neg (fun h => hact h.2)]
        obtain ⟨h4, h5⟩ := h3 hact
        obtain ⟨h6, h7⟩ := h h5
        exact ⟨by rw [h4, h6], Nat.le_trans h7 h1⟩

theorem enabled_run (A : App σ) (s : State σ) (ops : List Op) (h : s.enabled = true) :
    (run A s ops).1.enabled = true := by
  induction ops generalizing s with
  | nil => exact h
  | cons op ops ih =>
    rw [run_cons]
    apply ih
    rcases step_trans A s op with ⟨e, _⟩ | ht
    · rw [e]; exact h
    · revert ht
      generalize (step A s op).1 = s'
      generalize (step A s op).2 = o
      intro ht
      cases ht with
      | ackOk => simp only [a08]; split <;> exact h
      | dataAccepted => unfold a02Process; simp only []; split <;> split <;> exact h
      | _ => exact h

theorem elapsed_nat (s : State σ) (T : Nat) (t : U32) (h : t = BitVec.ofNat 32 T) (hle : T ≤ s.clock)
    (hlt : s.clock - T < 2 ^ 32) : (elapsed s t).toNat = s.clock - T := by
  subst h
  simp only [elapsed, millis, BitVec.toNat_sub, BitVec.toNat_ofNat]
  omega

/-- C05. `T` is the (true, unbounded) time of the last accepted activity in an arbitrary history
since power-up at an arbitrary time. If at least 6000 ms (and less than one full turn of the 32-bit
counter) have passed, the next loop closes the connection and sends T_DISCONNECT to the partner. If
less than 6000 ms have passed, the loop closes the connection only because a response has been
transmitted four times and the last transmission was not acknowledged within 3000 ms. -/
theorem C05_timeout (A : App σ) (own : Word) (clock : Nat) (app : σ) (ops : List Op)
    (s : State σ) (T : Nat) (hs : s = (run A (init own clock app) ops).1)
    (hT : T = lastActivity A (init own clock app) clock ops)
    (hopen : s.phase ≠ .closed) (hfree : s.tx = .free) :
    (6000 ≤ s.clock - T → s.clock - T < 2 ^ 32 →
      (step A s .loop).1.phase = .closed ∧
      ∃ f, IsControlFrame disconnectByte s.connectedAddr f ∧ (step A s .loop).2 = [.sentControl f]) ∧
    (s.clock - T < 6000 → (step A s .loop).1.phase = .closed →
      s.phase = .openWait ∧ s.repCount = 3 ∧ 3000 ≤ (elapsed s s.sentTime).toNat) := by
  have hclosed : (init own clock app).phase = .closed := rfl
  obtain ⟨h1, h2⟩ := time_run A (init own clock app) clock ops
    (fun h => absurd hclosed h) (by rw [← hs]; exact hopen)
  rw [← hs, ← hT] at h1 h2
  have hen : s.enabled = true := by rw [hs]; exact enabled_run A _ ops rfl
  constructor
  · intro h6 hw
    have he := elapsed_nat s T _ h1 h2 hw
    obtain ⟨f, hf, hc⟩ := ctrl_disconnect s s.connectedAddr
    have e : exec A s .loop = some (closedState s, [ctrlOut s T_DISCONNECT s.connectedAddr 0]) := by
      have f1 : TL4.loopTimeout s = some (closedState s, [ctrlOut s T_DISCONNECT s.connectedAddr 0]) := by
        unfold TL4.loopTimeout
        rw [if_pos ⟨hopen, by rw [he]; exact h6⟩, a06_eq, if_pos hfree]
      have f2 : TL4.loopSend (closedState s) = some (closedState s, []) := by
        simp [TL4.loopSend, closedState]
      have f3 : TL4.loopRepeat (closedState s) = some (closedState s, []) := by
        simp [TL4.loopRepeat, closedState]
      simp [exec, TL4.loop, hen, hfree, f1, andThen, f2, f3]
    simp only [step, e, Option.getD_some, hf]
    exact ⟨rfl, f, hc, rfl⟩
  · intro h6 hcl
    have he := elapsed_nat s T _ h1 h2 (by omega)
    have hi : Inv s := inv_reachable A s ⟨own, clock, app, ops, hs⟩
    rcases step_trans A s .loop with ⟨e, _⟩ | ht
    · rw [e] at hcl; exact absurd hcl hopen
    · revert ht hcl
      generalize (step A s .loop).1 = s'
      generalize (step A s .loop).2 = o
      intro hcl ht
      cases ht with
      | loopIdle => exact absurd hcl hopen
      | loopTimeout _ _ _ h => omega
      | loopSend => simp [firstSendState] at hcl
      | loopRepeat _ _ hp => rw [show (repeatState s).phase = s.phase from rfl, hp] at hcl; cases hcl
      | loopGiveUp _ _ hp _ h2 hr => exact ⟨hp, by have := hi.rep; omega, h2⟩

/-- Both cases occur, also across the wrap-around of the counter: connect 1000 ms before the wrap. -/
example :
    let s := (run demoApp (init 0x1105#16 (2 ^ 32 - 1000) 0)
      [.rx (demoTel 0x11FE#16 0x1105#16 0x80#8) 7, .advance 6000]).1
    s.phase ≠ .closed ∧ s.tx = .free ∧ (step demoApp s .loop).1.phase = .closed ∧
    let s := (run demoApp (init 0x1105#16 (2 ^ 32 - 1000) 0)
      [.rx (demoTel 0x11FE#16 0x1105#16 0x80#8) 7, .advance 5999]).1
    s.phase ≠ .closed ∧ s.tx = .free ∧ (step demoApp s .loop).1.phase ≠ .closed := by
  decide +kernel

/-! ## C06 -/

/-- C06: without a connection every connection-oriented telegram for us except T_CONNECT is ignored
completely. -/
theorem C06_closed_ignores (A : App σ) (s : State σ) (tel : Buf) (len : Nat)
    (hcl : s.phase = .closed) (hu : UnicastTo s.ownAddr tel)
    (hco : isConnectionless tel = false) (hnc : isConnect tel = false) :
    step A s (.rx tel len) = (s, []) := by
  rcases step_trans A s (.rx tel len) with ⟨h, _⟩ | h
  · exact h
  · revert h
    generalize hr : step A s (.rx tel len) = r
    obtain ⟨s', o⟩ := r
    simp only []
    intro h
    have hf := (forUs_iff s tel).mpr hu
    cases h with
    | rxIgnored | connectSame | disconnectIgnored | ackIgnored | nakIgnored | dataIgnored => rfl
    | rxBroadcast _ _ h | rxBroadcastSend _ _ _ h => exact absurd h hf.nonzero
    | rxGroup _ _ _ h | rxGroupSend _ _ _ _ h => exact absurd hf.unicast h
    | connect _ _ _ hc | connectOther _ _ _ hc =>
      rw [(connect_eq tel).mp hc] at hnc; cases hnc
    | disconnected _ _ _ _ hp => exact absurd hcl hp
    | ackWrong _ _ _ _ _ _ _ hp => rw [hcl] at hp; cases hp
    | ackOk _ _ _ _ _ _ _ hp => rw [hcl] at hp; cases hp
    | nakRepeat _ _ _ _ _ _ _ hp => rw [hcl] at hp; cases hp
    | nakClose _ _ _ _ _ _ _ hp => exact absurd hcl hp
    | individual _ _ _ hc | individualSend _ _ _ _ hc =>
      rw [(connectionless_eq tel).mp hc] at hco; cases hco
    | dataAccepted _ _ _ _ _ _ hp => exact absurd hcl hp
    | dataRepeated _ _ _ _ _ _ hp => exact absurd hcl hp
    | dataNak _ _ _ _ _ _ hp => exact absurd hcl hp

example : demoInit.phase = .closed ∧ UnicastTo demoInit.ownAddr (demoTel 0x11FE#16 0x1105#16 0x44#8) ∧
    isConnectionless (demoTel 0x11FE#16 0x1105#16 0x44#8) = false ∧
    isConnect (demoTel 0x11FE#16 0x1105#16 0x44#8) = false :=
  ⟨by decide, ⟨by decide, by decide, by decide⟩, by decide, by decide⟩

/-- C06: the only event that opens a connection is a T_CONNECT addressed to us, and it opens it to
the sender with both sequence numbers 0. -/
theorem C06_only_connect_opens (A : App σ) (s : State σ) (op : Op)
    (hcl : s.phase = .closed) (hopen : (step A s op).1.phase ≠ .closed) :
    ∃ tel len, op = .rx tel len ∧ UnicastTo s.ownAddr tel ∧ isConnect tel = true ∧
      (step A s op).1.phase = .openIdle ∧ (step A s op).1.connectedAddr = src tel ∧
      (step A s op).1.seqNoSend = 0 ∧ (step A s op).1.seqNoRcv = 0 ∧ (step A s op).2 = [] := by
  rcases step_trans A s op with ⟨h, _⟩ | h
  · rw [h] at hopen; exact absurd hcl hopen
  · revert h hopen
    generalize (step A s op).1 = s'
    generalize (step A s op).2 = o
    intro hopen h
    cases h with
    | connect tel len hu hc hp =>
      exact ⟨tel, len, rfl, (forUs_iff s tel).mp hu, (connect_eq tel).mp hc, rfl, sender_eq tel, rfl, rfl, rfl⟩
    | disconnected => exact absurd rfl hopen
    | ackWrong | nakClose | loopTimeout | loopGiveUp | disconnect => exact absurd rfl hopen
    | ackOk _ _ _ _ _ _ _ hp => rw [hcl] at hp; cases hp
    | loopSend _ _ hp => rw [hcl] at hp; cases hp
    | dataAccepted _ _ _ _ _ _ hp => exact absurd hcl hp
    | _ => exact absurd hcl hopen

example : demoInit.phase = .closed ∧
    (step demoApp demoInit (.rx (demoTel 0x11FE#16 0x1105#16 0x80#8) 7)).1.phase ≠ .closed := by
  decide

/-- C06: without a connection nothing is handed to the application over a connection and no
connection-oriented data is sent, whatever happens. -/
theorem C06_closed_no_data (A : App σ) (s : State σ) (op : Op) (hcl : s.phase = .closed) :
    delivered (step A s op).2 = [] ∧ dataSent (step A s op).2 = [] := by
  rcases step_trans A s op with ⟨h, _⟩ | h
  · rw [h]; exact ⟨rfl, rfl⟩
  · revert h
    generalize (step A s op).1 = s'
    generalize (step A s op).2 = o
    intro h
    cases h with
    | nakRepeat _ _ _ _ _ _ _ hp => rw [hcl] at hp; cases hp
    | loopSend _ _ hp => rw [hcl] at hp; cases hp
    | loopRepeat _ _ hp => rw [hcl] at hp; cases hp
    | dataAccepted _ _ _ _ _ _ hp => exact absurd hcl hp
    | _ => exact ⟨rfl, rfl⟩

example : demoInit.phase = .closed := rfl

/-! ## C07 -/

/-- C07: a telegram to the individual address of another device changes nothing at all. -/
theorem C07_other_devices (A : App σ) (s : State σ) (tel : Buf) (len : Nat)
    (hind : isGroup tel = false) (hown : dst tel ≠ s.ownAddr) (hz : dst tel ≠ 0#16) :
    exec A s (.rx tel len) = some (s, []) := by
  rw [← dest_eq] at hown hz
  simp [exec, processTelegram, hz, (group_eq tel).mpr hind, hown]

example : isGroup (demoTel 0x11FE#16 0x1106#16 0x80#8) = false ∧
    dst (demoTel 0x11FE#16 0x1106#16 0x80#8) ≠ demoInit.ownAddr ∧
    dst (demoTel 0x11FE#16 0x1106#16 0x80#8) ≠ 0#16 := by decide

/-! ## C08 -/

/-- C08: invariants of every reachable state. -/
theorem C08_invariants (A : App σ) (s : State σ) (h : Reachable A s) :
    (s.phase ≠ .closed → (0 ≤ s.seqNoSend ∧ s.seqNoSend ≤ 15) ∧ (0 ≤ s.seqNoRcv ∧ s.seqNoRcv ≤ 15)) ∧
    (s.phase = .openWait ↔ s.con1 = .sending) ∧
    s.con2 ≠ .sending ∧
    s.repCount ≤ 3 ∧ s.conCtrlRep ≤ 3 ∧
    (s.phase = .closed → s.con1 = .free ∧ s.con2 = .free) ∧
    (s.con2 ≠ .free → s.con1 ≠ .free) ∧
    (s.con1 ≠ .free → dst s.conBuf1 = s.connectedAddr ∧ (seqOf (s.conBuf1 6) : Int) = s.seqNoSend) ∧
    (s.con2 ≠ .free → dst s.conBuf2 = s.connectedAddr ∧
      (seqOf (s.conBuf2 6) : Int) = (s.seqNoSend + 1) % 16) := by
  obtain ⟨h1, h2, h3, h4, h5, h6, h7, h8, h9, h10⟩ := inv_reachable A s h
  exact ⟨fun hp => by have := h1 hp; omega, h2, h3, h6, h7, fun hp => ⟨h5 hp, h4 (h5 hp)⟩,
    fun h h' => h (h4 h'), h9, h10⟩

example : Reachable demoApp demoWait ∧ demoWait.phase = .openWait ∧ demoWait.con1 = .sending := by
  refine ⟨⟨0x1105#16, 0, 0, .rx (demoTel 0x11FE#16 0x1105#16 0x80#8) 7 :: demoRepeat.take 4, rfl⟩, ?_, ?_⟩
    <;> decide +kernel

/-! ## C51: the send buffer never blocks the device for good -/

/-- C51: no operation has to wait while the send buffer is free. -/
theorem C51_enabled_when_free (A : App σ) (s : State σ) (op : Op) (hfree : s.tx = .free)
    (hop : ∀ ok, op ≠ .txDone ok) : exec A s op ≠ none := by
  have c : ∀ cmd a q, sendConControl s cmd a q ≠ none := by
    intro cmd a q; rw [sendConControl_eq, if_pos hfree]; simp
  have a6 : a06 s ≠ none := by rw [a06_eq, if_pos hfree]; simp
  have a9 : a09 s ≠ none := by rw [a09_eq, if_pos hfree]; simp
  have cb : ∀ r ev, callback s r ev ≠ none := by
    intro r ev
    unfold callback
    simp only []
    split
    · simp
    · simp [TL4.userSend, acquire, hfree]
  cases op with
  | rx tel len =>
    simp only [exec, processTelegram]
    split
    · exact cb _ _
    split
    · exact cb _ _
    split
    · simp
    split
    · unfold conControl
      split
      · unfold conConnect
        split
        · simp
        · split
          · simp
          · unfold a10; rw [sendConControl_eq]; simp [hfree]
      split
      · unfold conDisconnect
        split
        · simp
        · split <;> simp
      · unfold conAck
        simp only []
        repeat' split
        all_goals first | exact a6 | exact a9 | simp
    · unfold direct
      simp only []
      split
      · simp [acquire, hfree]
      split
      · simp
      split
      · unfold a02; rw [sendConControl_eq, if_pos hfree]; simp
      split
      · unfold a03; rw [sendConControl_eq, if_pos hfree]; simp
      · unfold a04; rw [sendConControl_eq, if_pos hfree]; simp
  | loop =>
    simp only [exec, TL4.loop]
    split
    · simp
    split
    · simp
    · have l1 : ∃ r, TL4.loopTimeout s = some r ∧ (r.1 = s ∨ r.1 = closedState s) := by
        unfold TL4.loopTimeout
        split
        · rw [a06_eq, if_pos hfree]; exact ⟨_, rfl, Or.inr rfl⟩
        · exact ⟨_, rfl, Or.inl rfl⟩
      obtain ⟨r, hr, hs⟩ := l1
      rcases hs with hs | hs
      · have l2 : ∃ r2, TL4.loopSend s = some r2 ∧
            (r2.1 = s ∨ r2.1 = firstSendState s) := by
          unfold TL4.loopSend
          split
          · rename_i hp
            rw [a07_eq s (by rw [hp.1]; simp) hp.2, if_pos hfree]; exact ⟨_, rfl, Or.inr rfl⟩
          · exact ⟨_, rfl, Or.inl rfl⟩
        obtain ⟨r2, hr2, hs2⟩ := l2
        have l3 : ∃ r3, TL4.loopRepeat r2.1 = some r3 := by
          rcases hs2 with hs2 | hs2
          · rw [hs2]; unfold TL4.loopRepeat
            split
            · split
              · rw [a09_eq, if_pos hfree]; exact ⟨_, rfl⟩
              · rw [a06_eq, if_pos hfree]; exact ⟨_, rfl⟩
            · exact ⟨_, rfl⟩
          · rw [hs2]; unfold TL4.loopRepeat
            rw [if_neg]
            · exact ⟨_, rfl⟩
            · have : (elapsed (firstSendState s) (firstSendState s).sentTime).toNat = 0 :=
                elapsed_self (firstSendState s)
              rw [this]; omega
        obtain ⟨r3, hr3⟩ := l3
        simp [andThen, hr, hs, hr2, hr3]
      · have f2 : TL4.loopSend (closedState s) = some (closedState s, []) := by
          simp [TL4.loopSend, closedState]
        have f3 : TL4.loopRepeat (closedState s) = some (closedState s, []) := by
          simp [TL4.loopRepeat, closedState]
        simp [andThen, hr, hs, f2, f3]
  | txDone ok => exact absurd rfl (hop ok)
  | userSend f => simp [exec, TL4.userSend, acquire, hfree]
  | disconnect => exact a6
  | setOwnAddress a => simp [exec]
  | advance ms => simp [exec]

/-- C51: whatever the outcome of the transmissions reported by the bus, after at most four
completion reports the buffer is free again. -/
theorem C51_buffer_released (A : App σ) (s : State σ) (hreach : Reachable A s)
    (results : List Bool) (hlen : 4 ≤ results.length) :
    ∃ n ≤ 4, (run A s ((results.take n).map Op.txDone)).1.tx = .free := by
  have hi := inv_reachable A s hreach
  have main : ∀ (m : Nat) (s : State σ) (results : List Bool), s.tx ≠ .acquired →
      s.conCtrlRep + m = 3 → m + 1 ≤ results.length →
      ∃ n ≤ m + 1, (run A s ((results.take n).map Op.txDone)).1.tx = .free := by
    intro m
    induction m with
    | zero =>
      intro s rs hne hm hl
      by_cases hf : s.tx = .free
      · exact ⟨0, by omega, by simpa [run] using hf⟩
      have hs : s.tx = .sending := by cases h : s.tx <;> simp_all
      obtain ⟨r, rs, rfl⟩ : ∃ r rs', rs = r :: rs' := by cases rs <;> simp_all
      refine ⟨1, by omega, ?_⟩
      simp only [List.take_succ_cons, List.take_zero, List.map_cons, List.map_nil, run_cons, run]
      simp only [step, exec, finishedSending, hs]
      split
      · simp_all
      · split
        · rw [if_neg (by simp; omega)]; rfl
        · rfl
    | succ m ih =>
      intro s rs hne hm hl
      by_cases hf : s.tx = .free
      · exact ⟨0, by omega, by simpa [run] using hf⟩
      have hs : s.tx = .sending := by cases h : s.tx <;> simp_all
      obtain ⟨r, rs, rfl⟩ : ∃ r rs', rs = r :: rs' := by cases rs <;> simp_all
      simp only [List.length_cons] at hl
      by_cases hq : (step A s (.txDone r)).1.tx = .free
      · refine ⟨1, by omega, ?_⟩
        simpa [run_cons, run] using hq
      · have hc : (step A s (.txDone r)).1.conCtrlRep = s.conCtrlRep + 1 ∧
            (step A s (.txDone r)).1.tx = .sending := by
          revert hq
          simp only [step, exec, finishedSending, hs]
          split
          · simp_all
          · split
            · split
              · intro _; exact ⟨rfl, rfl⟩
              · intro h; exact absurd rfl h
            · intro h; exact absurd rfl h
        obtain ⟨n, hn, h⟩ := ih (step A s (.txDone r)).1 rs (by rw [hc.2]; simp) (by omega) (by omega)
        refine ⟨n + 1, by omega, ?_⟩
        simpa [run_cons] using h
  by_cases hf : s.tx = .free
  · exact ⟨0, by omega, by simpa [run] using hf⟩
  obtain ⟨n, hn, h⟩ := main (3 - s.conCtrlRep) s results hi.tx (by have := hi.ctrl; omega) (by omega)
  exact ⟨n, by omega, h⟩

/-- The bound is attained: a control telegram that is never acknowledged on the bus. -/
example : (run demoApp demoOpen [.rx (demoTel 0x11FE#16 0x1105#16 0x40#8) 8,
      .txDone false, .txDone false, .txDone false]).1.tx = .sending ∧
    (run demoApp demoOpen [.rx (demoTel 0x11FE#16 0x1105#16 0x40#8) 8,
      .txDone false, .txDone false, .txDone false, .txDone false]).1.tx = .free := by
  decide +kernel

/-! ## C52: queue of pending responses -/

/-- The responses waiting for transmission or acknowledgement, oldest first. -/
def pending (s : State σ) : List (List Byte) :=
  (if s.con1 = .free then [] else [bytes s.conBuf1 (telegramSize s.conBuf1)]) ++
  (if s.con2 = .free then [] else [bytes s.conBuf2 (telegramSize s.conBuf2)])

/-- C52, deviation: three requests are accepted and answered by the application before the first
response is acknowledged. The partner then acknowledges everything it gets, but only two responses
are ever transmitted: the second one has been overwritten by the third. -/
theorem C52_third_response_overwrites_second :
    let r := run demoApp demoOpen
      [.rx (demoTel 0x11FE#16 0x1105#16 0x40#8) 8, .txDone true,
       .rx (demoTel 0x11FE#16 0x1105#16 0x44#8) 8, .txDone true,
       .rx (demoTel 0x11FE#16 0x1105#16 0x48#8) 8, .txDone true,
       .loop, .txDone true, .rx (demoTel 0x11FE#16 0x1105#16 0xC2#8) 7,
       .loop, .txDone true, .rx (demoTel 0x11FE#16 0x1105#16 0xC6#8) 7]
    (delivered r.2).length = 3 ∧ r.1.app = 3 ∧
    -- payload bytes (the application's counter) of the responses: 0 and 2, never 1
    (dataSent r.2).map (fun f => f.getD 7 0#8) = [0#8, 2#8] ∧ pending r.1 = [] := by
  decide +kernel

theorem pending_memcpy (d b : Buf) :
    bytes (memcpy d b (telegramSize b)) (telegramSize (memcpy d b (telegramSize b))) =
      bytes b (telegramSize b) := by
  rw [memcpy_size]
  unfold bytes
  apply List.map_congr_left
  intro i hi
  simp [memcpy, List.mem_range.mp hi]

/-- C52 (partial): while the connection stays open the queue of pending responses behaves as a FIFO:
the matching acknowledgement removes the oldest one, a request accepted while at most one response
is pending appends its response (if the application produces one) at the end, every other event
leaves the queue alone. Missing for the full property: a request accepted while two responses are
pending (`C52_third_response_overwrites_second`). -/
theorem C52_queue_fifo_partial (A : App σ) (s : State σ) (hreach : Reachable A s) (op : Op)
    (hopen : s.phase ≠ .closed) (hopen' : (step A s op).1.phase ≠ .closed)
    (hroom : s.con2 = .free ∨ delivered (step A s op).2 = []) :
    (MatchingAck s op → pending (step A s op).1 = (pending s).tail) ∧
    (¬ MatchingAck s op → delivered (step A s op).2 = [] →
      pending (step A s op).1 = pending s) ∧
    (delivered (step A s op).2 ≠ [] →
      pending (step A s op).1 = pending s ∨ ∃ r, pending (step A s op).1 = pending s ++ [r]) := by
  have hi := inv_reachable A s hreach
  have hadv := C04_advance_exact A s hreach op hopen hopen'
  have hq := hi.seqs hopen
  rcases step_trans A s op with ⟨e, _⟩ | ht
  · rw [e] at hadv ⊢
    refine ⟨fun hm => ?_, fun _ _ => rfl, fun h => absurd rfl h⟩
    have := (hadv.1 hm).1
    simp only [] at this; omega
  · revert ht hopen' hroom hadv
    generalize (step A s op).1 = s'
    generalize (step A s op).2 = o
    intro hopen' hroom hadv ht
    cases ht with
    | ackOk tel len hu hc h1 h2 hk hp ha hs =>
      have hm : MatchingAck s (.rx tel len) := by
        refine ⟨hp, tel, len, rfl, (forUs_iff s tel).mp hu, by rw [← sender_eq]; exact ha.symm,
          ackLike_of tel hc h1 hk, ?_⟩
        rw [← seq_eq tel (notFF_of_bit0 _ hk)]; exact hs
      refine ⟨fun _ => ?_, fun h => absurd hm h, fun h => absurd rfl h⟩
      have hsend := hi.wait.mp hp
      by_cases hc2 : s.con2 = .free
      · simp [a08, pending, hc2, hsend]
      · simp [a08, pending, hc2, hsend, pending_memcpy]
    | dataAccepted tel len hu hc hn ha hp hs htx =>
      have hnm : ¬ MatchingAck s (.rx tel len) := by
        rintro ⟨_, t2, l2, he2, _, _, hack, _⟩
        cases he2
        simp only [ackLike, Bool.and_eq_true] at hack
        rw [(control_eq tel).mp hc] at hack; exact absurd hack.1.1 (by simp)
      have hroom : s.con2 = .free := by
        rcases hroom with h | h
        · exact h
        · simp [delivered] at h
      refine ⟨fun h => absurd h hnm, fun _ h => by simp [delivered] at h, fun _ => ?_⟩
      unfold a02Process
      simp only []
      split
      · rename_i hc1
        have hc1 : s.con1 = .free := hc1
        split
        · right
          simp only [pending, hc1, hroom, ctrlState]
          simp only [if_true, reduceCtorEq, if_false, List.append_nil, List.nil_append]
          exact ⟨_, rfl⟩
        · left; simp [pending, hc1, hroom, ctrlState]
      · rename_i hc1
        have hc1 : ¬ s.con1 = .free := hc1
        split
        · right
          simp only [pending, hc1, hroom, ctrlState]
          simp only [if_true, reduceCtorEq, if_false, List.append_nil, List.nil_append]
          exact ⟨_, rfl⟩
        · left; simp [pending, hc1, hroom, ctrlState]
    | connect tel len hu hc hp => exact absurd hp hopen
    | disconnected => exact absurd rfl hopen'
    | ackWrong | nakClose | loopTimeout | loopGiveUp | disconnect => exact absurd rfl hopen'
    | loopSend _ _ hp hc =>
      refine ⟨fun hm => ?_, fun _ _ => ?_, fun h => absurd rfl h⟩
      · have := hm.1; rw [hp] at this; cases this
      · simp [pending, firstSendState, hc]; rfl
    | _ =>
      refine ⟨fun hm => ?_, fun _ _ => rfl, fun h => absurd rfl h⟩
      have e := (hadv.1 hm).1
      have e : s.seqNoSend = (s.seqNoSend + 1) % 16 := e
      omega

example : Reachable demoApp demoWait ∧ demoWait.phase ≠ .closed ∧ demoWait.con2 = .free ∧
    (pending demoWait).length = 1 ∧
    (pending (step demoApp demoWait (.rx (demoTel 0x11FE#16 0x1105#16 0x44#8) 8)).1).length = 2 := by
  refine ⟨⟨0x1105#16, 0, 0, .rx (demoTel 0x11FE#16 0x1105#16 0x80#8) 7 :: demoRepeat.take 4, rfl⟩, ?_⟩
  decide +kernel

end Verif.TL4
