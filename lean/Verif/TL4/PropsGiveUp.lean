import Verif.TL4.PropsSend

/-!
# Transport layer: when the repetitions are used up (C04)

For any history, in contrast to the silent partner of `C04_give_up`.
-/

namespace Verif.TL4
open Knx Spec
variable {σ : Type}

/-! ## Helper lemmas -/

/-- Only the transmission of a data telegram sets the acknowledge timer. -/
theorem sent_step (A : App σ) (s s' : State σ) (op : Op) (o : List Out) (h : Trans A s op s' o) :
    (dataSent o ≠ [] → s'.sentTime = millis s') ∧ (dataSent o = [] → s'.sentTime = s.sentTime) := by
  cases h with
  | dataAccepted tel len hu hc hn ha hp hs htx =>
    refine ⟨fun h => absurd rfl h, fun _ => ?_⟩
    unfold a02Process; simp only []; split <;> split <;> rfl
  | ackOk => 
    refine ⟨fun h => absurd rfl h, fun _ => ?_⟩
    simp only [a08]; split <;> rfl
  | nakRepeat => exact ⟨fun _ => rfl, fun h => by rw [dataSent_dataOut] at h; cases h⟩
  | loopRepeat => exact ⟨fun _ => rfl, fun h => by rw [dataSent_dataOut] at h; cases h⟩
  | loopSend => exact ⟨fun _ => rfl, fun h => by rw [dataSent_dataOut] at h; cases h⟩
  | _ => exact ⟨fun h => absurd rfl h, fun _ => rfl⟩

theorem sent_run (A : App σ) (s : State σ) (ops : List Op) (h : dataSent (run A s ops).2 = []) :
    (run A s ops).1.sentTime = s.sentTime := by
  induction ops generalizing s with
  | nil => rfl
  | cons op ops ih =>
    rw [run_cons] at h ⊢
    simp only [dataSent_append, List.append_eq_nil_iff] at h
    rw [ih _ h.2]
    rcases step_trans A s op with ⟨e, _⟩ | ht
    · rw [e]
    · exact (sent_step A s _ op _ ht).2 h.1

/-- The budget of a history without acknowledgement. -/
theorem budget_run (A : App σ) (s : State σ) (ops : List Op)
    (hopen : StaysOpen A s ops) (hna : NoAckFrom s.connectedAddr ops) :
    (dataSent (run A s ops).2).length + budget (run A s ops).1 ≤ budget s ∧
    (run A s ops).1.connectedAddr = s.connectedAddr := by
  induction ops generalizing s with
  | nil => exact ⟨by simp [run, dataSent], rfl⟩
  | cons op ops ih =>
    obtain ⟨h0, hs⟩ := staysOpen_cons A s op ops hopen
    have h1 : (step A s op).1.phase ≠ .closed := hs 0 (by simp)
    rw [run_cons]
    simp only [dataSent_append, List.length_append]
    rcases step_trans A s op with ⟨e, _⟩ | ht
    · rw [e] at hs ⊢
      have := ih s hs (fun t l hm => hna t l (by simp [hm]))
      simpa [dataSent] using this
    · obtain ⟨k1, k2, k3, k4, k5⟩ := snd_step A s _ op _ ht h0 h1
        (fun tel len he => hna tel len (by simp [he]))
      have hconn := (rcv_step A s _ op _ ht h0 h1).1
      obtain ⟨j1, j2⟩ := ih (step A s op).1 hs
        (fun t l hm => by rw [hconn]; exact hna t l (by simp [hm]))
      exact ⟨by omega, by rw [j2, hconn]⟩

theorem clock_run (A : App σ) (s : State σ) (ops : List Op) : s.clock ≤ (run A s ops).1.clock := by
  induction ops generalizing s with
  | nil => exact Nat.le_refl _
  | cons op ops ih =>
    rw [run_cons]
    refine Nat.le_trans ?_ (ih _)
    rcases step_trans A s op with ⟨e, _⟩ | ht
    · rw [e]; exact Nat.le_refl _
    · revert ht
      generalize (step A s op).1 = s'
      generalize (step A s op).2 = o
      intro ht
      cases ht with
      | dataAccepted tel len hu hc hn ha hp hs htx =>
        unfold a02Process; simp only []; split <;> split <;> exact Nat.le_refl _
      | ackOk => simp only [a08]; split <;> exact Nat.le_refl _
      | advance ms => exact Nat.le_add_right _ _
      | _ => exact Nat.le_refl _

theorem staysOpen_append (A : App σ) (s : State σ) (a b : List Op) (h : StaysOpen A s (a ++ b)) :
    StaysOpen A s a ∧ StaysOpen A (run A s a).1 b := by
  constructor
  · intro n hn
    have := h n (by simp; omega)
    rwa [List.take_append_of_le_length hn] at this
  · intro n hn
    have := h (a.length + n) (by simp; omega)
    rw [List.take_length_add_append, run_append] at this
    exact this

/-! ## The property -/

/-- C04: after the fourth transmission of a response (`op` is the operation that makes it), while the
connection stays open and the partner does not acknowledge, whatever else happens (`ops2`): the first call
of the loop that finds the send buffer free 3000 ms or more after the fourth transmission closes the
connection and sends T_DISCONNECT to the partner, and so does a matching T_NAK of the partner.  (The time
is the true time; it must not exceed one turn of the 32-bit counter.) -/
theorem C04_used_up (A : App σ) (s : State σ) (hreach : Reachable A s) (ops1 ops2 : List Op) (op : Op)
    (hopen : StaysOpen A s (ops1 ++ [op] ++ ops2)) (hna : NoAckFrom s.connectedAddr (ops1 ++ [op] ++ ops2))
    (hlast : dataSent (step A (run A s ops1).1 op).2 ≠ [])
    (hfour : (dataSent (run A s (ops1 ++ [op])).2).length = 4)
    (hfree : (run A s (ops1 ++ [op] ++ ops2)).1.tx = .free) (op' : Op)
    (hop' : (op' = .loop ∧
        3000 ≤ (run A s (ops1 ++ [op] ++ ops2)).1.clock - (run A s (ops1 ++ [op])).1.clock ∧
        (run A s (ops1 ++ [op] ++ ops2)).1.clock - (run A s (ops1 ++ [op])).1.clock < 2 ^ 32) ∨
      ∃ tel len, op' = .rx tel len ∧ UnicastTo (run A s (ops1 ++ [op] ++ ops2)).1.ownAddr tel ∧
        isNak tel = true ∧ src tel = s.connectedAddr ∧ tel 6 ≠ 0xFF#8 ∧
        (seqOf (tel 6) : Int) = (run A s (ops1 ++ [op] ++ ops2)).1.seqNoSend) :
    (step A (run A s (ops1 ++ [op] ++ ops2)).1 op').1.phase = .closed ∧
    ∃ f, IsControlFrame disconnectByte s.connectedAddr f ∧
      (step A (run A s (ops1 ++ [op] ++ ops2)).1 op').2 = [.sentControl f] := by
  obtain ⟨hb, hconn⟩ := budget_run A s _ hopen hna
  have hreach2 : Reachable A (run A s (ops1 ++ [op] ++ ops2)).1 := by
    obtain ⟨own, clock, app, ops0, rfl⟩ := hreach
    exact ⟨own, clock, app, ops0 ++ (ops1 ++ [op] ++ ops2), by rw [run_append A _ ops0]⟩
  have hi := inv_reachable A _ hreach2
  have hen : (run A s (ops1 ++ [op] ++ ops2)).1.enabled = true := by
    obtain ⟨own, clock, app, ops0, hs⟩ := hreach2
    rw [hs]; exact enabled_run A _ ops0 rfl
  have hb4 : budget s ≤ 4 := by unfold budget; split <;> omega
  have hno : dataSent (run A (run A s (ops1 ++ [op])).1 ops2).2 = [] := by
    rw [run_append] at hb
    simp only [dataSent_append, List.length_append, hfour] at hb
    exact List.length_eq_zero_iff.1 (by omega)
  have hb0 : budget (run A s (ops1 ++ [op] ++ ops2)).1 = 0 := by
    have h4 : (dataSent (run A s (ops1 ++ [op] ++ ops2)).2).length = 4 := by
      rw [run_append]
      simp only [dataSent_append, List.length_append, hfour, hno, List.length_nil]
    omega
  have hwait : (run A s (ops1 ++ [op] ++ ops2)).1.phase = .openWait ∧
      ¬ (run A s (ops1 ++ [op] ++ ops2)).1.repCount < 3 := by
    unfold budget at hb0
    split at hb0
    · exact ⟨by assumption, by omega⟩
    · cases hb0
  have hsent : (run A s (ops1 ++ [op] ++ ops2)).1.sentTime =
      BitVec.ofNat 32 (run A s (ops1 ++ [op])).1.clock := by
    have e1 : (run A s (ops1 ++ [op] ++ ops2)).1 = (run A (run A s (ops1 ++ [op])).1 ops2).1 := by
      rw [run_append]
    rw [e1, sent_run A _ ops2 hno]
    have e2 : (run A s (ops1 ++ [op])).1 = (step A (run A s ops1).1 op).1 := by
      rw [run_append]; rfl
    rw [e2]
    rcases step_trans A (run A s ops1).1 op with ⟨e, _⟩ | ht
    · rw [e] at hlast; exact absurd rfl hlast
    · exact (sent_step A _ _ op _ ht).1 hlast
  have hcl : (run A s (ops1 ++ [op])).1.clock ≤ (run A s (ops1 ++ [op] ++ ops2)).1.clock := by
    have e1 : (run A s (ops1 ++ [op] ++ ops2)).1 = (run A (run A s (ops1 ++ [op])).1 ops2).1 := by
      rw [run_append]
    rw [e1]; exact clock_run A _ ops2
  rw [← hconn]
  generalize (run A s (ops1 ++ [op] ++ ops2)).1 = t at *
  have done : exec A t op' = some (closedState t, [ctrlOut t T_DISCONNECT t.connectedAddr 0]) →
      (step A t op').1.phase = .closed ∧
      ∃ f, IsControlFrame disconnectByte t.connectedAddr f ∧ (step A t op').2 = [.sentControl f] := by
    intro e
    obtain ⟨f, hf, hc⟩ := ctrl_disconnect t t.connectedAddr
    simp only [step, e, Option.getD_some, hf]
    exact ⟨rfl, f, hc, rfl⟩
  rcases hop' with ⟨rfl, h3, hw⟩ | ⟨tel, len, rfl, hu, hnak, hsrc, hff, hseq⟩
  · apply done
    have he := elapsed_nat t _ _ hsent hcl hw
    by_cases h6 : 6000 ≤ (elapsed t t.connectedTime).toNat
    · have f1 : TL4.loopTimeout t = some (closedState t, [ctrlOut t T_DISCONNECT t.connectedAddr 0]) := by
        unfold TL4.loopTimeout
        rw [if_pos ⟨by rw [hwait.1]; decide, h6⟩, a06_eq, if_pos hfree]
      have f2 : TL4.loopSend (closedState t) = some (closedState t, []) := by
        simp [TL4.loopSend, closedState]
      have f3 : TL4.loopRepeat (closedState t) = some (closedState t, []) := by
        simp [TL4.loopRepeat, closedState]
      simp [exec, TL4.loop, hen, hfree, f1, andThen, f2, f3]
    · have f1 : TL4.loopTimeout t = some (t, []) := by
        unfold TL4.loopTimeout; rw [if_neg]; exact fun h => h6 h.2
      have f2 : TL4.loopSend t = some (t, []) := by
        unfold TL4.loopSend; rw [if_neg]
        intro h; rw [hwait.1] at h; cases h.1
      have f3 : TL4.loopRepeat t = some (closedState t, [ctrlOut t T_DISCONNECT t.connectedAddr 0]) := by
        unfold TL4.loopRepeat
        rw [if_pos ⟨hwait.1, by rw [he]; exact h3⟩, if_neg hwait.2, a06_eq, if_pos hfree]
      simp [exec, TL4.loop, hen, hfree, f1, andThen, f2, f3]
  · apply done
    have hf := (forUs_iff t tel).mpr hu
    have bits : ∀ b : Byte, (b.extractLsb' 6 2 == 0b11#2 && b.extractLsb' 0 2 == 0b11#2) = true →
        b &&& 0xc3#8 = 0xc3#8 := by decide +kernel
    have hb6 := bits _ hnak
    have hs : ((sequenceNumber tel).toNat : Int) = t.seqNoSend := by
      rw [seq_eq tel hff]; exact hseq
    have hsd : senderAddress tel = t.connectedAddr := by rw [sender_eq, hconn]; exact hsrc
    have e : exec A t (.rx tel len) = a06 t := by
      simp only [exec, processTelegram]
      rw [if_neg hf.nonzero, if_neg (by rw [hf.unicast]; simp), if_neg (by simp [hf.dest])]
      simp only [hb6]
      rw [if_pos (by decide)]
      simp only [conControl, conAck]
      rw [if_neg (by decide), if_neg (by decide), if_neg (by decide), if_neg (by decide)]
      rw [if_neg (by rw [hwait.1, hs, hsd]; simp), if_neg (fun h => hwait.2 h.1)]
    rw [e, a06_eq, if_pos hfree]

/-- The fourth transmission is sent, the partner repeats its request, 3000 ms go by. -/
def demoAfter : List Op :=
  [.txDone true, .rx (demoTel 0x11FE#16 0x1105#16 0x40#8) 8, .txDone true, .advance 3000]

/-- The hypotheses are met: the demo device after four transmissions, then a request repeated by the
partner, then the loop 3000 ms after the fourth transmission. -/
example := C04_used_up demoApp demoOpen demoOpen_reachable (demoRepeat.take 11) demoAfter .loop
  (by
    have : ∀ n ≤ 16, (run demoApp demoOpen ((demoRepeat.take 11 ++ [Op.loop] ++
      demoAfter).take n)).1.phase ≠ .closed := by decide +kernel
    exact this)
  (by
    intro tel len hm _
    simp [demoRepeat, demoAfter] at hm
    rcases hm with ⟨rfl, _⟩ | ⟨rfl, _⟩ <;> decide)
  (by decide +kernel) (by decide +kernel) (by decide +kernel) .loop
  (Or.inl ⟨rfl, by decide +kernel, by decide +kernel⟩)

/-- The transport control byte is one the standard defines. -/
def DefinedControl (t : Buf) : Prop :=
  isControl t = true → isConnect t = true ∨ isDisconnect t = true ∨ isAck t = true ∨ isNak t = true

/-- C04 (partial): if only telegrams with defined transport control bytes arrive, the send sequence number of
a connection that stays open advances (mod 16) exactly when the T_ACK of the partner with this number
arrives.  Missing: undefined control bytes (`C04_undefined_ack`). -/
theorem C04_advance_iff_ack_partial (A : App σ) (s : State σ) (hreach : Reachable A s) (op : Op)
    (hopen : s.phase ≠ .closed) (hopen' : (step A s op).1.phase ≠ .closed)
    (hdef : ∀ tel len, op = .rx tel len → DefinedControl tel) :
    (step A s op).1.seqNoSend =
      open Classical in
      if s.phase = .openWait ∧ ∃ tel len, op = .rx tel len ∧ UnicastTo s.ownAddr tel ∧
          src tel = s.connectedAddr ∧ isAck tel = true ∧ (seqOf (tel 6) : Int) = s.seqNoSend
      then (s.seqNoSend + 1) % 16 else s.seqNoSend := by
  have h := C04_advance_exact A s hreach op hopen hopen'
  have e1 : ∀ b : Byte, (b.extractLsb' 6 2 == 0b11#2 && b.extractLsb' 0 2 == 0b10#2) = true →
      (b.getLsbD 7 && !b.getLsbD 0 &&
        !(b.extractLsb' 6 2 == 0b10#2 && b.extractLsb' 0 2 == 0b00#2)) = true := by decide +kernel
  have e2 : ∀ b : Byte, (b.getLsbD 7 = true →
        (b.extractLsb' 6 2 == 0b10#2 && b.extractLsb' 0 2 == 0b00#2) = true ∨
        (b.extractLsb' 6 2 == 0b10#2 && b.extractLsb' 0 2 == 0b01#2) = true ∨
        (b.extractLsb' 6 2 == 0b11#2 && b.extractLsb' 0 2 == 0b10#2) = true ∨
        (b.extractLsb' 6 2 == 0b11#2 && b.extractLsb' 0 2 == 0b11#2) = true) →
      (b.getLsbD 7 && !b.getLsbD 0 &&
        !(b.extractLsb' 6 2 == 0b10#2 && b.extractLsb' 0 2 == 0b00#2)) = true →
      (b.extractLsb' 6 2 == 0b11#2 && b.extractLsb' 0 2 == 0b10#2) = true := by decide +kernel
  split
  · rename_i hc
    obtain ⟨hw, tel, len, rfl, hu, hsrc, hack, hseq⟩ := hc
    exact (h.1 ⟨hw, tel, len, rfl, hu, hsrc, e1 _ hack, hseq⟩).1
  · rename_i hc
    refine h.2 (fun hm => hc ?_)
    obtain ⟨hw, tel, len, rfl, hu, hsrc, hack, hseq⟩ := hm
    exact ⟨hw, tel, len, rfl, hu, hsrc, e2 _ (hdef tel len rfl) hack, hseq⟩

example : DefinedControl (demoTel 0x11FE#16 0x1105#16 0xC2#8) ∧
    isAck (demoTel 0x11FE#16 0x1105#16 0xC2#8) = true ∧
    (step demoApp demoWait (.rx (demoTel 0x11FE#16 0x1105#16 0xC2#8) 7)).1.seqNoSend = 1 :=
  ⟨fun _ => Or.inr (Or.inr (Or.inl (by decide))), by decide, by decide +kernel⟩

end Verif.TL4
