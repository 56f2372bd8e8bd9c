import Verif.Bus.RxLemmas
import Verif.Bus.Demo

/-!
# Reception properties: C09, C11, C12, C13
-/

namespace Verif.Bus

open Verif.Knx

/-! ## C11 — a received telegram is never overwritten before the application took it -/

/-- C11. From any state in which a telegram waits for the application, whatever happens — any
interrupts, further frames, sending, pausing — as long as the application does not discard it, its
content and length stay the same and no other telegram is delivered. -/
theorem C11_not_overwritten (s : Sys) (es : List Ev) (hw : s.bus.telegramLen ≠ 0)
    (hd : ∀ e ∈ es, e ≠ .discard) :
    (run s es).1.bus.telegram = s.bus.telegram ∧
    (run s es).1.bus.telegramLen = s.bus.telegramLen ∧
    ∀ f, Out.deliver f ∉ (run s es).2 := by
  induction es generalizing s with
  | nil => simp [run]
  | cons e es ih =>
    have hstep : (step s e).1.bus.telegram = s.bus.telegram ∧
        (step s e).1.bus.telegramLen = s.bus.telegramLen ∧ ∀ f, Out.deliver f ∉ (step s e).2 := by
      cases e with
      | irq i =>
        simp only [step]
        split
        · simp
        · have hnd : ∀ f, Out.deliver f ∉ (isr i s.bus).2 := fun f hf => hw (isr_deliver hf).2.2.2.2.1
          have := tel_isr i s.bus
          rw [if_neg] at this
          · exact ⟨congrArg Prod.fst this, congrArg Prod.snd this, hnd⟩
          · intro h
            exact hnd _ (by rw [h]; exact List.mem_singleton.2 rfl)
      | queue own t len => simp only [step]; split <;> simp
      | kick => simp only [step]; split <;> simp [startSendingImmediately]
      | discard => exact absurd rfl (hd _ (List.mem_cons_self ..))
      | pause w => simp only [step]; split <;> simp
      | resume => simp only [step]; split <;> simp [initState]
      | maxRetries n => simp [step]
      | maxBusyRetries n => simp [step]
    obtain ⟨h1, h2, h3⟩ := hstep
    obtain ⟨i1, i2, i3⟩ := ih (step s e).1 (by rw [h2]; exact hw)
      (fun e' he' => hd e' (List.mem_cons_of_mem _ he'))
    simp only [run]
    refine ⟨i1.trans h1, i2.trans h2, fun f => ?_⟩
    rw [List.mem_append, not_or]
    exact ⟨h3 f, i3 f⟩

/-- A second frame arrives while the first one waits. -/
example := C11_not_overwritten (run boot dReceive).1 (dReady ++ dFrame dTel) (by decide +kernel)
  (by
    intro e he
    simp only [dReady, dFrame, dChar, List.mem_append, List.mem_flatMap, List.mem_cons,
      List.mem_map, List.not_mem_nil, or_false] at he
    rcases he with rfl | ⟨b, _, ((rfl | ⟨x, _, rfl⟩) | rfl)⟩ | rfl <;> simp)

/-- C11. A frame that ends while a telegram waits for the application is not acknowledged. -/
theorem C11_not_acknowledged (es : List Ev) (i : Irq) (hr : (run boot es).1.bus.st = .waitStart)
    (hw : (run boot es).1.bus.telegramLen ≠ 0) (hp : (run boot es).1.paused = false) :
    (step (run boot es).1 (.irq i)).1.bus.sendAck = 0#8 ∧
    (step (run boot es).1 (.irq i)).1.bus.st ≠ .waitAckTx ∧
    Out.ackBegin ∉ (step (run boot es).1 (.irq i)).2 := by
  have hinv := (run_inv boot_inv es).inv
  generalize (run boot es).1 = s at *
  have hack : s.bus.sendAck = 0#8 :=
    sendAck_zero hinv (by rw [hr]; decide) (by rw [hr]; decide)
  simp only [step, hp, Bool.false_eq_true, if_false, isr]
  split
  · refine ⟨hack, ?_, ?_⟩ <;> simp [hr]
  · simp only [dispatch, hr, waitStart]
    cases hc : i.cap
    · simp only [Bool.not_false, if_true]
      have key : ∀ (b : Bus) (v : Bool), b.telegramLen ≠ 0 →
          (handleTelegram i b v).1.sendAck = 0#8 ∧ (handleTelegram i b v).1.st ≠ .waitAckTx ∧
          Out.ackBegin ∉ (handleTelegram i b v).2 := by
        intro b v hb
        have tail : ∀ (r : Bus) (m : Nat), (r.st = .wait50 ∧ r.sendAck = 0#8) →
            ({ (if r.waitForAck then { r with repeatTel := true, waitForAck := false } else r) with
              capInt := true, mTime := m } : Bus).sendAck = 0#8 ∧
            ({ (if r.waitForAck then { r with repeatTel := true, waitForAck := false } else r) with
              capInt := true, mTime := m } : Bus).st ≠ .waitAckTx := by
          intro r m h
          split <;> simp [h]
        have hout : Out.ackBegin ∉ (handleTelegram i b v).2 := by
          rw [handleTelegram_outs]
          split
          · split <;> simp
          · split
            · rcases processAck_outs { b with sendAck := 0#8, st := .wait50 } (sendWait - preSend)
                with hp | ⟨ok, hp⟩ <;> rw [hp] <;> simp
            · simp
        have hst : ({ b with sendAck := 0#8, st := .wait50 } : Bus).telegramLen ≠ 0 := hb
        refine ⟨?_, ?_, hout⟩ <;>
        · unfold handleTelegram
          first
          | refine (tail _ _ ?_).1
          | refine (tail _ _ ?_).2
          split
          · split
            · unfold processDataFrame
              simp only [ne_eq, hb, not_false_eq_true, if_true]
              split <;> simp
            · exact ⟨rfl, rfl⟩
          · split
            · have := processAck_cases { b with sendAck := 0#8, st := .wait50 } (sendWait - preSend)
              exact ⟨this.1, this.2.1⟩
            · unfold processOther; split <;> exact ⟨rfl, rfl⟩
      split
      · exact key _ _ hw
      · exact key _ _ hw
    · simp [hack]

example := C11_not_acknowledged
  (dReceive ++ [.irq (dEdge 20)] ++ dChar 0xBC false) dTimeout
  (by decide +kernel) (by decide +kernel) (by decide +kernel)

/-! ## C13 — acceptance filter -/

/-- The characters at the end of a log. -/
def isRxChar : Out → Bool
  | .rxChar _ _ => true
  | _ => false

theorem takeWhile_rxChars (cs : List (Byte × Bool)) (l : List Out) :
    ((rxChars cs).reverse ++ .rxBegin :: l).takeWhile isRxChar = (rxChars cs).reverse := by
  have hall : ∀ o ∈ (rxChars cs).reverse, isRxChar o = true := by
    intro o ho
    simp only [rxChars, List.mem_reverse, List.mem_map] at ho
    obtain ⟨c, _, rfl⟩ := ho
    rfl
  rw [List.takeWhile_append_of_pos hall]
  simp [isRxChar]

theorem rxChars_inj {cs cs' : List (Byte × Bool)} (h : rxChars cs = rxChars cs') : cs = cs' := by
  have : ∀ c : Byte × Bool, c = c := fun _ => rfl
  induction cs generalizing cs' with
  | nil => cases cs' with
    | nil => rfl
    | cons c cs' => simp [rxChars] at h
  | cons c cs ih => cases cs' with
    | nil => simp [rxChars] at h
    | cons c' cs' =>
      simp only [rxChars, List.map_cons, List.cons.injEq, Out.rxChar.injEq] at h
      rw [ih h.2, Prod.ext h.1.1 h.1.2]

/-- The received characters are determined by the log. -/
theorem rxLog_unique {pre pre' : List Out} {cs cs' : List (Byte × Bool)}
    (h : pre ++ .rxBegin :: rxChars cs = pre' ++ .rxBegin :: rxChars cs') : cs = cs' := by
  have h2 := congrArg (fun l => (List.reverse l).takeWhile isRxChar) h
  simp only [List.reverse_append, List.reverse_cons, List.append_assoc,
    List.cons_append, List.nil_append] at h2
  rw [takeWhile_rxChars, takeWhile_rxChars] at h2
  exact rxChars_inj (List.reverse_inj.1 h2)

theorem at'_bytes (t : Buf) (n j : Nat) (h : j < n) : at' (bytes t n) j = t j := by
  simp [at', List.getD, bytes_getElem? t n j h]

theorem forUs_iff {i : Irq} {b : Bus} (h8 : 8 ≤ b.nextByteIndex) :
    forUs i b = true ↔
      AddressedTo i.own i.known (bytes b.rx b.nextByteIndex) ∨ i.tlEnabled = false := by
  have e5 : at' (bytes b.rx b.nextByteIndex) 5 = b.rx 5 := at'_bytes _ _ _ (by omega)
  have e3 : at' (bytes b.rx b.nextByteIndex) 3 = b.rx 3 := at'_bytes _ _ _ (by omega)
  have e4 : at' (bytes b.rx b.nextByteIndex) 4 = b.rx 4 := at'_bytes _ _ _ (by omega)
  unfold forUs AddressedTo GroupDest destOf rxDest
  rw [e3, e4, e5]
  by_cases h : b.rx 5 &&& 0x80#8 = 0#8 <;> simp [h]

theorem isDataFrame_iff {b : Bus} {v : Bool} :
    isDataFrame b v = true ↔
      8 ≤ b.nextByteIndex ∧ v = true ∧ b.rx 0 &&& 0xD3#8 = 0x90#8 ∧ b.nextByteIndex ≤ maxTel := by
  simp [isDataFrame, and_assoc]

/-- C13 (soundness). A telegram is handed to the upper layer only at the end of a frame all of
whose characters had correct parity; it consists of the first 23 characters of that frame, which
are at least 8, have a correct checksum, form a standard data frame and are addressed to our own
address, broadcast or to one of our group addresses (or the transport layer is disabled).

Partial: the English claim also says that the frame has at most 23 characters.  The program cuts
longer frames off instead of rejecting them, see `C13_overlong_accepted`. -/
theorem C13_filter_partial (es : List Ev) (i : Irq) (f : List Byte)
    (h : Out.deliver f ∈ (step (run boot es).1 (.irq i)).2) :
    ∃ pre cs, (run boot es).2 = pre ++ .rxBegin :: rxChars cs ∧
      (∀ c ∈ cs, c.2 = true) ∧
      f = (cs.map Prod.fst).take 23 ∧
      8 ≤ f.length ∧ f.length ≤ 23 ∧
      ChecksumOk f ∧ StandardData f ∧
      (AddressedTo i.own i.known f ∨ i.tlEnabled = false) := by
  have hl := boot_log es
  generalize run boot es = r at *
  simp only [step] at h
  split at h
  · simp at h
  · obtain ⟨hs, hc, hd, hu, ht, ha, hf, _⟩ := isr_deliver h
    obtain ⟨pre, cs, h1, h2, h3, h4, _⟩ := hl (Or.inr hs)
    obtain ⟨d1, d2, d3, d4⟩ := isDataFrame_iff.1 hd
    simp only [Bool.and_eq_true, beq_iff_eq] at d2
    refine ⟨pre, cs, h1, ?_, ?_, ?_, ?_, ?_, ?_, ?_⟩
    · have := d2.1
      rw [h4, List.all_eq_true] at this
      exact this
    · rw [hf, h2]
    · rw [hf, bytes_length]; exact d1
    · rw [hf, bytes_length]; exact d4
    · rw [hf]
      rw [h3] at d2
      exact (fold_zero_iff _).1 d2.2
    · unfold StandardData
      rw [hf, at'_bytes _ _ _ (by omega)]
      exact d3
    · rw [hf]
      exact (forUs_iff d1).1 hu

example := C13_filter_partial (dReady ++ dTel.flatMap (fun b => dChar b (parityBit b))) dTimeout dTel
  (by decide +kernel)

/-- End of a frame. -/
theorem frameEnd_isr {i : Irq} {b : Bus} (hs : b.st = .waitStart) (hcap : i.cap = false)
    (hck : b.checksum = 0#8) :
    isr i b = handleTelegram i
      ({ b with tSet := none, mTime := 0xfffe, tInt := true, tReset := true } : Bus)
      (b.valid && b.checksum == 0#8) := by
  unfold isr
  rw [if_neg (by simp [isSpike, hcap])]
  simp [dispatch, hs, waitStart, hcap, hck]

theorem processDataFrame_ack (i : Irq) (b : Bus) (time : Nat) (hfree : b.telegramLen = 0)
    (hll : i.llEnabled = true) (hbit : b.rx 0 &&& 0x40#8 = 0#8) :
    (processDataFrame i b time).1.st = .waitAckTx ∧
    (processDataFrame i b time).1.sendAck = ackByte ∧
    (alreadyReceived b = true → (processDataFrame i b time).1.telegramLen = 0 ∧
      (processDataFrame i b time).2.1 = []) := by
  unfold processDataFrame
  by_cases h2 : alreadyReceived b = true <;>
    simp [h2, hfree, hll, hbit, takeTelegram, show ¬ ackByte = 0#8 by decide]

theorem handle_ack {i : Irq} {b : Bus} {v : Bool} (hd : isDataFrame b v = true)
    (hu : forUs i b = true) (hfree : b.telegramLen = 0) (hll : i.llEnabled = true) :
    (handleTelegram i b v).1.st = .waitAckTx ∧ (handleTelegram i b v).1.sendAck = ackByte ∧
    (alreadyReceived b = true →
      (handleTelegram i b v).1.telegramLen = 0 ∧ (handleTelegram i b v).2 = []) := by
  have hbit : b.rx 0 &&& 0x40#8 = 0#8 := by
    have := (isDataFrame_iff.1 hd).2.2.1
    have gen : ∀ x : Byte, x &&& 0xD3#8 = 0x90#8 → x &&& 0x40#8 = 0#8 := by decide +kernel
    exact gen _ this
  obtain ⟨b1, hb1⟩ : ∃ b1 : Bus, { b with sendAck := 0#8, st := .wait50 } = b1 := ⟨_, rfl⟩
  have hd' : isDataFrame b1 v = true := by rw [← hb1]; exact hd
  have hu' : forUs i b1 = true := by rw [← hb1]; exact hu
  have ha' : alreadyReceived b1 = alreadyReceived b := by rw [← hb1]; rfl
  have key := processDataFrame_ack i b1 (sendWait - preSend) (by rw [← hb1]; exact hfree) hll
    (by rw [← hb1]; exact hbit)
  rw [ha'] at key
  unfold handleTelegram
  simp only [hb1, hd', hu', if_true]
  generalize processDataFrame i b1 (sendWait - preSend) = r at *
  obtain ⟨r1, r2, r3⟩ := r
  obtain ⟨k1, k2, k3⟩ := key
  simp only at k1 k2 k3 ⊢
  split
  · exact ⟨k1, k2, k3⟩
  · exact ⟨k1, k2, k3⟩

theorem accepts_aux (es : List Ev) (i : Irq) (pre : List Out) (cs : List (Byte × Bool))
    (hs : (run boot es).1.bus.st = .waitStart)
    (hlog : (run boot es).2 = pre ++ .rxBegin :: rxChars cs)
    (hpar : ∀ c ∈ cs, c.2 = true)
    (h8 : 8 ≤ cs.length) (h23 : cs.length ≤ 23)
    (hck : ChecksumOk (cs.map Prod.fst)) (hstd : StandardData (cs.map Prod.fst))
    (hadr : AddressedTo i.own i.known (cs.map Prod.fst) ∨ i.tlEnabled = false)
    (hfree : (run boot es).1.bus.telegramLen = 0)
    (hnew : alreadyReceived (run boot es).1.bus = false)
    (hcap : i.cap = false) :
    (step (run boot es).1 (.irq i)).2 = [.deliver (cs.map Prod.fst)] ∧
    (step (run boot es).1 (.irq i)).1.bus.telegramLen = cs.length ∧
    bytes (step (run boot es).1 (.irq i)).1.bus.telegram cs.length = cs.map Prod.fst ∧
    (i.llEnabled = true → (step (run boot es).1 (.irq i)).1.bus.st = .waitAckTx ∧
      (step (run boot es).1 (.irq i)).1.bus.sendAck = ackByte) := by
  have hl := boot_log es
  have hsys := run_inv boot_inv es
  have hp : (run boot es).1.paused = false := by
    cases hp : (run boot es).1.paused
    · rfl
    · have := hsys.paused hp; rw [hs] at this; cases this
  generalize run boot es = r at *
  obtain ⟨pre', cs', h1, h2, h3, h4, _⟩ := hl (Or.inr hs)
  have : cs' = cs := rxLog_unique (h1.symm.trans hlog)
  subst this
  have hlen : r.1.bus.nextByteIndex = cs'.length := by
    have := congrArg List.length h2
    rw [bytes_length, List.length_take, List.length_map] at this
    rw [this]
    show min 23 _ = _
    omega
  have htake : (cs'.map Prod.fst).take maxTel = cs'.map Prod.fst :=
    List.take_of_length_le (by rw [List.length_map]; exact h23)
  rw [htake] at h2
  have hv : (r.1.bus.valid && r.1.bus.checksum == 0#8) = true := by
    rw [h4, h3, h2]
    simp only [Bool.and_eq_true, beq_iff_eq, List.all_eq_true]
    exact ⟨hpar, (fold_zero_iff _).2 hck⟩
  have hd : isDataFrame r.1.bus (r.1.bus.valid && r.1.bus.checksum == 0#8) = true := by
    rw [isDataFrame_iff]
    refine ⟨by omega, hv, ?_, by rw [hlen]; exact h23⟩
    unfold StandardData at hstd
    rw [← h2, at'_bytes _ _ _ (by omega)] at hstd
    exact hstd
  have hu : forUs i r.1.bus = true := by
    rw [forUs_iff (by omega), h2]
    exact hadr
  have hck0 : r.1.bus.checksum = 0#8 := by
    simp only [Bool.and_eq_true, beq_iff_eq] at hv
    exact hv.2
  have hstep : step r.1 (.irq i) = ({ r.1 with bus := (isr i r.1.bus).1 }, (isr i r.1.bus).2) := by
    simp [step, hp]
  rw [hstep]
  have hisr := frameEnd_isr hs hcap hck0
  have hout : (isr i r.1.bus).2 = [.deliver (cs'.map Prod.fst)] := by
    rw [hisr, handleTelegram_outs]
    generalize r.1.bus = b at *
    rw [← h2]
    have c1 : isDataFrame ({ b with tSet := none, mTime := 0xfffe, tInt := true, tReset := true } : Bus)
      (b.valid && b.checksum == 0#8) = true := hd
    rw [if_pos c1]
    exact if_pos ⟨hu, hfree, hnew⟩
  have htel := tel_isr i r.1.bus
  rw [h2, if_pos hout] at htel
  refine ⟨hout, ?_, ?_, ?_⟩
  · exact (congrArg Prod.snd htel).trans hlen
  · have := congrArg Prod.fst htel
    simp only [tel] at this
    simp only [this, hlen]
    rw [bytes_memcpy, ← hlen, h2]
  · intro hll
    simp only [hisr]
    have := handle_ack (i := i) (v := r.1.bus.valid && r.1.bus.checksum == 0#8)
      (b := { r.1.bus with tSet := none, mTime := 0xfffe, tInt := true, tReset := true })
      hd hu hfree hll
    exact ⟨this.1, this.2.1⟩

/-- A telegram of 23 characters followed by seven more. -/
def dOverlong : List Byte :=
  [0xBC, 0x11, 0x02, 0x08, 0x01, 0xEF, 0x00, 0x81, 1, 2, 3, 4, 5, 6, 7, 8, 9, 10, 11, 12, 13, 14,
   0x38, 0xAA, 0x55, 0x12, 0x34, 0x56, 0x78, 0x9A]

/-- C13, negative part: a 30 character frame whose first 23 characters happen to have a correct
checksum is accepted as a telegram (bus.cpp:787-795 only sets an error flag that nobody tests). -/
theorem C13_overlong_accepted :
    ∃ es i f, Out.deliver f ∈ (step (run boot es).1 (.irq i)).2 ∧
      ∃ pre cs, (run boot es).2 = pre ++ .rxBegin :: rxChars cs ∧ cs.length = 30 := by
  refine ⟨dReady ++ dOverlong.flatMap (fun b => dChar b (parityBit b)), dTimeout,
    dOverlong.take 23, by decide +kernel, [], dOverlong.map fun b => (b, true), ?_, rfl⟩
  decide +kernel

/-! ## C09 — frame checksum -/

theorem xorBytes_eq (t : Buf) (n : Nat) (c : Byte) :
    xorBytes t n c = (bytes t n).foldl (· ^^^ ·) c := by
  induction n with
  | zero => rfl
  | succ n ih => simp [xorBytes, bytes_succ, ih]

/-- C09. The frame formed from a queued telegram of any length and content passes the receiver's
checksum test; the telegram itself is only changed in the sender address. -/
theorem C09_round_trip (own : Word) (t : Buf) (len : Nat) :
    ChecksumOk (bytes (prepareTelegram own t len) (len + 1)) ∧
    ∀ j, j < len → prepareTelegram own t len j =
      if j = 1 then highByte own else if j = 2 then lowByte own else t j := by
  constructor
  · rw [← fold_zero_iff, bytes_succ, fold_append]
    unfold prepareTelegram
    simp only
    rw [bytes_upd, xorBytes_eq]
    simp [upd, fold]
  · intro j hj
    simp only [prepareTelegram, setSenderAddress, upd, if_neg (Nat.ne_of_lt hj)]
    split
    · next h => subst h; rfl
    · split <;> rfl

theorem xorAll_append (f g : List Byte) : xorAll (f ++ g) = xorAll f ^^^ xorAll g := by
  unfold xorAll
  rw [List.foldl_append, foldl_xor]

theorem xorAll_cons (x : Byte) (f : List Byte) : xorAll (x :: f) = x ^^^ xorAll f := by
  unfold xorAll
  rw [List.foldl_cons, foldl_xor]
  simp

theorem byte_xor_cancel {a b : Byte} (h : a ^^^ b = 0#8) : a = b := by
  have := congrArg (· ^^^ b) h
  simpa [BitVec.xor_assoc] using this

/-- C09. Altering any single byte of a correct frame (including the checksum byte) in any way makes
the checksum test fail. -/
theorem C09_single_byte_detected (f : List Byte) (j : Nat) (v : Byte) (hf : ChecksumOk f)
    (hj : j < f.length) (hv : v ≠ f[j]) : ¬ ChecksumOk (f.set j v) := by
  unfold ChecksumOk at *
  intro h
  have e1 : f = f.take j ++ f[j] :: f.drop (j + 1) := by
    rw [List.getElem_cons_drop, List.take_append_drop]
  have e2 : f.set j v = f.take j ++ v :: f.drop (j + 1) := List.set_eq_take_append_cons_drop ..|>.trans (by simp [hj])
  rw [e1, xorAll_append, xorAll_cons] at hf
  rw [e2, xorAll_append, xorAll_cons] at h
  apply hv
  generalize xorAll (f.take j) = a at *
  generalize xorAll (f.drop (j + 1)) = c at *
  rw [← hf] at h
  apply byte_xor_cancel
  have h2 : (a ^^^ (v ^^^ c)) ^^^ (a ^^^ (f[j] ^^^ c)) = 0#8 := by rw [h]; simp
  have h3 : (a ^^^ (v ^^^ c)) ^^^ (a ^^^ (f[j] ^^^ c)) = v ^^^ f[j] := by
    generalize f[j] = w
    ext k hk
    simp only [BitVec.getElem_xor]
    cases a[k] <;> cases v[k] <;> cases c[k] <;> cases w[k] <;> rfl
  rw [← h3, h2]

example := C09_single_byte_detected dTel 7 0x80#8 (by decide) (by decide) (by decide)

/-- C09. Consequently a frame that reaches the receiver with exactly one byte altered is never
handed to the upper layer. -/
theorem C09_corrupt_rejected (es : List Ev) (i : Irq) (pre : List Out) (cs : List (Byte × Bool))
    (f : List Byte) (j : Nat) (v : Byte) (hf : ChecksumOk f) (hj : j < f.length) (hv : v ≠ f[j])
    (h23 : f.length ≤ 23)
    (hlog : (run boot es).2 = pre ++ .rxBegin :: rxChars cs)
    (hcs : cs.map Prod.fst = f.set j v) (g : List Byte) :
    Out.deliver g ∉ (step (run boot es).1 (.irq i)).2 := by
  intro h
  obtain ⟨pre', cs', h1, _, h3, _, _, h6, _⟩ := C13_filter_partial es i g h
  have : cs' = cs := rxLog_unique (h1.symm.trans hlog)
  subst this
  rw [hcs, List.take_of_length_le (by simpa using h23)] at h3
  rw [h3] at h6
  exact C09_single_byte_detected f j v hf hj hv h6

example := C09_corrupt_rejected
  (dReady ++ (dTel.set 7 0x80).flatMap (fun b => dChar b (parityBit b))) dTimeout []
  ((dTel.set 7 0x80).map fun b => (b, true)) dTel 7 0x80#8 (by decide) (by decide) (by decide)
  (by decide) (by decide +kernel) (by decide +kernel)

/-! ## C12 — a repeated frame is delivered once -/

theorem lastDelivered_append (l m : List Out) :
    lastDelivered (l ++ m) = match lastDelivered m with
      | some f => some f
      | none => lastDelivered l := by
  induction l with
  | nil => simp [lastDelivered]; cases lastDelivered m <;> rfl
  | cons o l ih =>
    simp only [List.cons_append, lastDelivered, ih]
    cases lastDelivered m <;> rfl

theorem lastDelivered_none {l : List Out} (h : ∀ f, Out.deliver f ∉ l) : lastDelivered l = none := by
  induction l with
  | nil => rfl
  | cons o l ih =>
    simp only [lastDelivered, ih fun f hf => h f (List.mem_cons_of_mem _ hf)]
    split
    · next f => exact absurd (List.mem_cons_self ..) (h f)
    · rfl

/-- The upper layer's buffer holds the last delivered telegram. -/
def TelLog (log : List Out) (b : Bus) : Prop :=
  ∀ f, lastDelivered log = some f → bytes b.telegram f.length = f

theorem step_tel {log : List Out} {s : Sys} (hl : TelLog log s.bus) (e : Ev) :
    TelLog (log ++ (step s e).2) (step s e).1.bus := by
  cases e with
  | irq i =>
    simp only [step]
    split
    · simpa using hl
    · simp only
      have ht := tel_isr i s.bus
      by_cases hd : ∃ f, Out.deliver f ∈ (isr i s.bus).2
      · obtain ⟨f, hf⟩ := hd
        obtain ⟨_, _, _, _, _, _, hfe, hout⟩ := isr_deliver hf
        rw [hfe] at hout
        rw [if_pos hout] at ht
        intro g hg
        rw [hout, lastDelivered_append] at hg
        simp only [lastDelivered, Option.some.injEq] at hg
        have e1 : (isr i s.bus).1.telegram = memcpy s.bus.telegram s.bus.rx s.bus.nextByteIndex :=
          congrArg Prod.fst ht
        rw [← hg, bytes_length, e1, bytes_memcpy]
      · have hn : ∀ f, Out.deliver f ∉ (isr i s.bus).2 := fun f hf => hd ⟨f, hf⟩
        rw [if_neg] at ht
        · intro g hg
          rw [lastDelivered_append, lastDelivered_none hn] at hg
          have e1 : (isr i s.bus).1.telegram = s.bus.telegram := congrArg Prod.fst ht
          rw [e1]
          exact hl g hg
        · intro h
          exact hn _ (by rw [h]; exact List.mem_singleton.2 rfl)
  | queue own t len => simp only [step]; split <;> simpa [TelLog] using hl
  | kick => simp only [step]; split <;> simpa [TelLog, startSendingImmediately] using hl
  | discard => simpa [step, TelLog] using hl
  | pause w => simp only [step]; split <;> simpa [TelLog] using hl
  | resume => simp only [step]; split <;> simpa [TelLog, initState] using hl
  | maxRetries n => simpa [step, TelLog] using hl
  | maxBusyRetries n => simpa [step, TelLog] using hl

theorem boot_tel (es : List Ev) : TelLog (run boot es).2 (run boot es).1.bus := by
  have gen : ∀ (es : List Ev) (s : Sys) (log : List Out), TelLog log s.bus →
      TelLog (log ++ (run s es).2) (run s es).1.bus := by
    intro es
    induction es with
    | nil => intro s log h; simpa [run] using h
    | cons e es ih =>
      intro s log h
      simp only [run]
      rw [← List.append_assoc]
      exact ih _ _ (step_tel h e)
  have h0 : TelLog [] boot.bus := by intro f hf; simp [lastDelivered] at hf
  simpa using gen es boot [] h0

theorem alreadyReceived_of_repetition {b : Bus} {f : List Byte} (h8 : 8 ≤ b.nextByteIndex)
    (htel : bytes b.telegram f.length = f)
    (hrep : RepetitionOf f (bytes b.rx b.nextByteIndex)) : alreadyReceived b = true := by
  obtain ⟨r1, r2, r3⟩ := hrep
  rw [bytes_length] at r1
  have ht : ∀ j, j < f.length → at' f j = b.telegram j := by
    intro j hj
    have := at'_bytes b.telegram f.length j hj
    rw [htel] at this
    exact this
  have hb : ∀ j, j < f.length → at' (bytes b.rx b.nextByteIndex) j = b.rx j :=
    fun j hj => at'_bytes _ _ _ (by omega)
  rw [hb 0 (by omega), ht 0 (by omega)] at r2
  unfold alreadyReceived sameBytes
  simp only [Bool.and_eq_true, beq_iff_eq, List.all_eq_true, List.mem_range, Bool.or_eq_true]
  refine ⟨⟨?_, ?_⟩, ?_⟩
  · rw [r2]
    generalize b.telegram 0 = x
    revert x
    decide +kernel
  · rw [r2]
    generalize b.telegram 0 = x
    revert x
    decide +kernel
  · intro j hj
    by_cases h0 : j = 0
    · exact Or.inl h0
    · right
      have := r3 j (by omega) (by omega)
      rw [hb j (by omega), ht j (by omega)] at this
      exact this

/-- C12. In every history, a telegram handed to the upper layer is never a repetition (same frame
with the repeat flag cleared and any checksum) of the telegram handed over before it. -/
theorem C12_no_duplicate (es : List Ev) (i : Irq) (f g : List Byte)
    (hf : lastDelivered (run boot es).2 = some f)
    (hg : Out.deliver g ∈ (step (run boot es).1 (.irq i)).2) : ¬ RepetitionOf f g := by
  intro hrep
  have ht := boot_tel es f hf
  generalize run boot es = r at *
  simp only [step] at hg
  split at hg
  · simp at hg
  · obtain ⟨_, _, hd, _, _, ha, hge, _⟩ := isr_deliver hg
    rw [hge] at hrep
    rw [alreadyReceived_of_repetition (isDataFrame_iff.1 hd).1 ht hrep] at ha
    cases ha

/-- A telegram that differs from the previous one in its value. -/
def dTel2 : List Byte := [0xBC, 0x11, 0x02, 0x08, 0x01, 0xE1, 0x00, 0x80, 0x38]

example := C12_no_duplicate
  (dReceive ++ [.discard] ++ dTel2.flatMap (fun b => dChar b (parityBit b))) dTimeout dTel dTel2
  (by decide +kernel) (by decide +kernel)

/-- C12. The repetition of the last delivered telegram is acknowledged: when it has been received
completely, correctly and addressed to us, and the buffer is free, nothing is delivered and the next
two timeouts put an acknowledge frame on the line. -/
theorem C12_acknowledged (es : List Ev) (i j k : Irq) (pre : List Out) (cs : List (Byte × Bool))
    (f : List Byte)
    (hf : lastDelivered (run boot es).2 = some f)
    (hs : (run boot es).1.bus.st = .waitStart)
    (hlog : (run boot es).2 = pre ++ .rxBegin :: rxChars cs)
    (hpar : ∀ c ∈ cs, c.2 = true)
    (h8 : 8 ≤ cs.length) (h23 : cs.length ≤ 23)
    (hck : ChecksumOk (cs.map Prod.fst)) (hstd : StandardData (cs.map Prod.fst))
    (hadr : AddressedTo i.own i.known (cs.map Prod.fst) ∨ i.tlEnabled = false)
    (hrep : RepetitionOf f (cs.map Prod.fst))
    (hfree : (run boot es).1.bus.telegramLen = 0) (hll : i.llEnabled = true)
    (hcap : i.cap = false) (hj : j.cap = false) (hk : k.cap = false ∧ k.tmo = true) :
    (run (run boot es).1 [.irq i, .irq j, .irq k]).2 = [.ackBegin, .txChar 0xcc#8 false] ∧
    (run (run boot es).1 [.irq i, .irq j, .irq k]).1.bus.telegramLen = 0 := by
  have hl := boot_log es
  have ht := boot_tel es f hf
  have hsys := run_inv boot_inv es
  have hp : (run boot es).1.paused = false := by
    cases hp : (run boot es).1.paused
    · rfl
    · have := hsys.paused hp; rw [hs] at this; cases this
  generalize run boot es = r at *
  obtain ⟨pre', cs', h1, h2, h3, h4, _⟩ := hl (Or.inr hs)
  have : cs' = cs := rxLog_unique (h1.symm.trans hlog)
  subst this
  have hlen : r.1.bus.nextByteIndex = cs'.length := by
    have := congrArg List.length h2
    rw [bytes_length, List.length_take, List.length_map] at this
    rw [this]
    show min 23 _ = _
    omega
  have htake : (cs'.map Prod.fst).take maxTel = cs'.map Prod.fst :=
    List.take_of_length_le (by rw [List.length_map]; exact h23)
  rw [htake] at h2
  have hv : (r.1.bus.valid && r.1.bus.checksum == 0#8) = true := by
    rw [h4, h3, h2]
    simp only [Bool.and_eq_true, beq_iff_eq, List.all_eq_true]
    exact ⟨hpar, (fold_zero_iff _).2 hck⟩
  have hd : isDataFrame r.1.bus (r.1.bus.valid && r.1.bus.checksum == 0#8) = true := by
    rw [isDataFrame_iff]
    refine ⟨by omega, hv, ?_, by rw [hlen]; exact h23⟩
    unfold StandardData at hstd
    rw [← h2, at'_bytes _ _ _ (by omega)] at hstd
    exact hstd
  have hu : forUs i r.1.bus = true := by
    rw [forUs_iff (by omega), h2]
    exact hadr
  have hck0 : r.1.bus.checksum = 0#8 := by
    simp only [Bool.and_eq_true, beq_iff_eq] at hv
    exact hv.2
  have hrec : alreadyReceived r.1.bus = true :=
    alreadyReceived_of_repetition (by omega) ht (by rw [h2]; exact hrep)
  -- first interrupt
  have h1st : (isr i r.1.bus).2 = [] ∧ (isr i r.1.bus).1.st = .waitAckTx ∧
      (isr i r.1.bus).1.sendAck = ackByte ∧ (isr i r.1.bus).1.telegramLen = 0 := by
    rw [frameEnd_isr hs hcap hck0]
    have := handle_ack (i := i) (v := r.1.bus.valid && r.1.bus.checksum == 0#8)
      (b := { r.1.bus with tSet := none, mTime := 0xfffe, tInt := true, tReset := true })
      hd hu hfree hll
    exact ⟨(this.2.2 hrec).2, this.1, this.2.1, (this.2.2 hrec).1⟩
  obtain ⟨o1, s1, a1, t1⟩ := h1st
  generalize hb1 : (isr i r.1.bus).1 = b1 at *
  have e1 : step r.1 (.irq i) = (⟨b1, false⟩, []) := by
    simp [step, hp, hb1, o1]
  have e2 : step ⟨b1, false⟩ (.irq j) =
      (⟨{ b1 with
          tSet := none, sendTelegramLen := 0, mPwm := preSend, mTime := preSend + bitPulseUs - 1
          tInt := true, tReset := true, capInt := true, nextByteIndex := 0, txError := 0#16
          st := .sendStart }, false⟩, [.ackBegin]) := by
    simp [step, isr, isSpike, hj, dispatch, s1, waitAckTx]
  have e3 : ∀ b : Bus, b.st = .sendStart → b.sendAck = ackByte → b.telegramLen = 0 →
      (step ⟨b, false⟩ (.irq k)).2 = [.txChar 0xcc#8 false] ∧
      (step ⟨b, false⟩ (.irq k)).1.bus.telegramLen = 0 := by
    intro b hbs hba hbt
    have : isr k b = sendBit0 k
        ({ b with tSet := none, st := .sendBit0, txError := b.txError ||| 32#16 } : Bus) := by
      unfold isr
      rw [if_neg (by simp [isSpike, hk.1])]
      simp only [dispatch, hbs, sendStart, hk.2, Bool.not_true, Bool.false_eq_true, if_false]
    simp only [step, Bool.false_eq_true, if_false, this]
    obtain ⟨c, hc⟩ : ∃ c : Bus, { b with
      tSet := none, st := .sendBit0, txError := b.txError ||| 32#16 } = c := ⟨_, rfl⟩
    rw [hc]
    have hca : c.sendAck = ackByte := by rw [← hc]; exact hba
    have hct : c.telegramLen = 0 := by rw [← hc]; exact hbt
    unfold sendBit0
    rw [if_pos (show c.sendAck ≠ 0#8 by rw [hca]; decide)]
    unfold sendBits
    simp only [hk.2, hca, Bool.not_true, Bool.false_eq_true, if_false,
      show (1 : Nat) ≤ 0x200 by decide, if_true]
    exact ⟨rfl, hct⟩
  have e3' := e3 { b1 with
          tSet := none, sendTelegramLen := 0, mPwm := preSend, mTime := preSend + bitPulseUs - 1
          tInt := true, tReset := true, capInt := true, nextByteIndex := 0, txError := 0#16
          st := .sendStart } rfl a1 t1
  constructor
  · simp only [run, e1, e2, e3'.1]; rfl
  · simp only [run, e1, e2, e3'.2]

example := C12_acknowledged
  (dReceive ++ [.discard] ++ dTelRep.flatMap (fun b => dChar b (parityBit b)))
  dTimeout dTimeout dTimeout
  (run boot (dReceive ++ [.discard])).2 (dTelRep.map fun b => (b, true)) dTel
  (by decide +kernel) (by decide +kernel) (by decide +kernel) (by decide +kernel)
  (by decide) (by decide) (by decide +kernel) (by unfold StandardData; decide)
  (Or.inl (Or.inl (by unfold GroupDest destOf; decide)))
  ⟨rfl, by decide, by
    intro j h1 h2
    have : j = 1 ∨ j = 2 ∨ j = 3 ∨ j = 4 ∨ j = 5 ∨ j = 6 ∨ j = 7 := by
      simp [dTel] at h2; omega
    rcases this with rfl | rfl | rfl | rfl | rfl | rfl | rfl <;> decide⟩
  (by decide +kernel) rfl rfl rfl ⟨rfl, rfl⟩

/-- Before the first delivery the upper layer's buffer is empty. -/
def TelEmpty (log : List Out) (b : Bus) : Prop := lastDelivered log = none → b.telegram 0 = 0#8

theorem step_empty {log : List Out} {s : Sys} (hl : TelEmpty log s.bus) (e : Ev) :
    TelEmpty (log ++ (step s e).2) (step s e).1.bus := by
  cases e with
  | irq i =>
    simp only [step]
    split
    · simpa using hl
    · simp only
      have ht := tel_isr i s.bus
      intro h
      rw [lastDelivered_append] at h
      by_cases hd : ∃ f, Out.deliver f ∈ (isr i s.bus).2
      · obtain ⟨f, hf⟩ := hd
        obtain ⟨_, _, _, _, _, _, hfe, hout⟩ := isr_deliver hf
        rw [hout] at h
        simp [lastDelivered] at h
      · have hn : ∀ f, Out.deliver f ∉ (isr i s.bus).2 := fun f hf => hd ⟨f, hf⟩
        rw [if_neg] at ht
        · have e1 : (isr i s.bus).1.telegram = s.bus.telegram := congrArg Prod.fst ht
          rw [lastDelivered_none hn] at h
          rw [e1]
          exact hl h
        · intro h
          exact hn _ (by rw [h]; exact List.mem_singleton.2 rfl)
  | queue own t len => simp only [step]; split <;> simpa [TelEmpty] using hl
  | kick => simp only [step]; split <;> simpa [TelEmpty, startSendingImmediately] using hl
  | discard => simpa [step, TelEmpty] using hl
  | pause w => simp only [step]; split <;> simpa [TelEmpty] using hl
  | resume => simp only [step]; split <;> simpa [TelEmpty, initState] using hl
  | maxRetries n => simpa [step, TelEmpty] using hl
  | maxBusyRetries n => simpa [step, TelEmpty] using hl

theorem boot_empty (es : List Ev) : TelEmpty (run boot es).2 (run boot es).1.bus := by
  have gen : ∀ (es : List Ev) (s : Sys) (log : List Out), TelEmpty log s.bus →
      TelEmpty (log ++ (run s es).2) (run s es).1.bus := by
    intro es
    induction es with
    | nil => intro s log h; simpa [run] using h
    | cons e es ih =>
      intro s log h
      simp only [run]
      rw [← List.append_assoc]
      exact ih _ _ (step_empty h e)
  have h0 : TelEmpty [] boot.bus := fun _ => rfl
  simpa using gen es boot [] h0

theorem not_alreadyReceived {b : Bus} {log : List Out} (h8 : 8 ≤ b.nextByteIndex)
    (ht : TelLog log b) (h0 : TelEmpty log b) (hstd : StandardData (bytes b.rx b.nextByteIndex))
    (hnew : NewMessage (lastDelivered log) (bytes b.rx b.nextByteIndex)) : alreadyReceived b = false := by
  have hb : ∀ j, j < b.nextByteIndex → at' (bytes b.rx b.nextByteIndex) j = b.rx j :=
    fun j hj => at'_bytes _ _ _ hj
  unfold StandardData at hstd
  rw [hb 0 (by omega)] at hstd
  cases ha : alreadyReceived b with
  | false => rfl
  | true =>
    exfalso
    unfold alreadyReceived sameBytes at ha
    simp only [Bool.and_eq_true, beq_iff_eq, List.all_eq_true, List.mem_range, Bool.or_eq_true] at ha
    obtain ⟨⟨a1, a2⟩, a3⟩ := ha
    rcases hnew with h | h
    · rw [hb 0 (by omega)] at h
      exact h a1
    · cases hl : lastDelivered log with
      | none =>
        rw [h0 hl] at a2
        generalize b.rx 0 = x at a2 hstd
        revert x
        decide +kernel
      | some f =>
        have htf := ht f hl
        have hf : ∀ j, j < f.length → at' f j = b.telegram j := by
          intro j hj
          have := at'_bytes b.telegram f.length j hj
          rw [htf] at this
          exact this
        rcases h f hl with ⟨hp, h⟩ | ⟨j, j0, j1, j2, h⟩
        · rw [hb 0 (by omega), hf 0 hp] at h
          exact h a2
        · rw [bytes_length] at j1
          rw [hb j (by omega), hf j j2] at h
          rcases a3 j (by omega) with h' | h'
          · omega
          · exact h h'

/-- C13 (completeness). Conversely, a frame of 8 to 23 characters with correct parity and
checksum, of the standard data type and addressed to us, is handed to the upper layer when it ends,
unless the previous telegram still waits or the frame is a repetition of the last one; and it will
be acknowledged if the link layer is enabled. -/
theorem C13_accepts (es : List Ev) (i : Irq) (pre : List Out) (cs : List (Byte × Bool))
    (hs : (run boot es).1.bus.st = .waitStart)
    (hlog : (run boot es).2 = pre ++ .rxBegin :: rxChars cs)
    (hpar : ∀ c ∈ cs, c.2 = true)
    (h8 : 8 ≤ cs.length) (h23 : cs.length ≤ 23)
    (hck : ChecksumOk (cs.map Prod.fst)) (hstd : StandardData (cs.map Prod.fst))
    (hadr : AddressedTo i.own i.known (cs.map Prod.fst) ∨ i.tlEnabled = false)
    (hfree : (run boot es).1.bus.telegramLen = 0)
    (hnew : NewMessage (lastDelivered (run boot es).2) (cs.map Prod.fst))
    (hcap : i.cap = false) :
    (step (run boot es).1 (.irq i)).2 = [.deliver (cs.map Prod.fst)] ∧
    (step (run boot es).1 (.irq i)).1.bus.telegramLen = cs.length ∧
    bytes (step (run boot es).1 (.irq i)).1.bus.telegram cs.length = cs.map Prod.fst ∧
    (i.llEnabled = true → (step (run boot es).1 (.irq i)).1.bus.st = .waitAckTx ∧
      (step (run boot es).1 (.irq i)).1.bus.sendAck = ackByte) := by
  refine accepts_aux es i pre cs hs hlog hpar h8 h23 hck hstd hadr hfree ?_ hcap
  obtain ⟨pre', cs', h1, h2, _⟩ := boot_log es (Or.inr hs)
  have : cs' = cs := rxLog_unique (h1.symm.trans hlog)
  subst this
  rw [List.take_of_length_le (by rw [List.length_map]; exact h23)] at h2
  have hlen := congrArg List.length h2
  rw [bytes_length, List.length_map] at hlen
  exact not_alreadyReceived (by omega) (boot_tel es) (boot_empty es) (by rw [h2]; exact hstd)
    (by rw [h2]; exact hnew)

example := C13_accepts (dReady ++ dTel.flatMap (fun b => dChar b (parityBit b))) dTimeout
  [] (dTel.map fun b => (b, true)) (by decide +kernel) (by decide +kernel) (by decide +kernel)
  (by decide) (by decide) (by decide +kernel) (by unfold StandardData; decide)
  (Or.inl (Or.inl (by unfold GroupDest destOf; decide))) (by decide +kernel) (Or.inl (by decide)) rfl

/-- C12. Only repetitions are suppressed: a frame that differs from the last delivered telegram in any
content byte (here `k`) is delivered and acknowledged, even with the repeat flag of a repetition. -/
theorem C12_others_delivered (es : List Ev) (i : Irq) (pre : List Out) (cs : List (Byte × Bool))
    (f : List Byte) (k : Nat) (hf : lastDelivered (run boot es).2 = some f)
    (hk : 0 < k ∧ k + 1 < cs.length ∧ k < f.length) (hdiff : at' (cs.map Prod.fst) k ≠ at' f k)
    (hs : (run boot es).1.bus.st = .waitStart)
    (hlog : (run boot es).2 = pre ++ .rxBegin :: rxChars cs)
    (hpar : ∀ c ∈ cs, c.2 = true)
    (h8 : 8 ≤ cs.length) (h23 : cs.length ≤ 23)
    (hck : ChecksumOk (cs.map Prod.fst)) (hstd : StandardData (cs.map Prod.fst))
    (hadr : AddressedTo i.own i.known (cs.map Prod.fst) ∨ i.tlEnabled = false)
    (hfree : (run boot es).1.bus.telegramLen = 0)
    (hcap : i.cap = false) :
    (step (run boot es).1 (.irq i)).2 = [.deliver (cs.map Prod.fst)] ∧
    (step (run boot es).1 (.irq i)).1.bus.telegramLen = cs.length ∧
    bytes (step (run boot es).1 (.irq i)).1.bus.telegram cs.length = cs.map Prod.fst ∧
    (i.llEnabled = true → (step (run boot es).1 (.irq i)).1.bus.st = .waitAckTx ∧
      (step (run boot es).1 (.irq i)).1.bus.sendAck = ackByte) := by
  refine C13_accepts es i pre cs hs hlog hpar h8 h23 hck hstd hadr hfree ?_ hcap
  right
  intro f' hf'
  rw [hf] at hf'
  cases hf'
  exact Or.inr ⟨k, hk.1, by rw [List.length_map]; exact hk.2.1, hk.2.2, hdiff⟩

/-- `dTel2` as a repetition whose first transmission was not heard. -/
def dTel3 : List Byte := [0x9C, 0x11, 0x02, 0x08, 0x01, 0xE1, 0x00, 0x80, 0x18]

example := C12_others_delivered
  (dReceive ++ [.discard] ++ dTel3.flatMap (fun b => dChar b (parityBit b))) dTimeout
  (run boot (dReceive ++ [.discard])).2 (dTel3.map fun b => (b, true)) dTel 7
  (by decide +kernel) (by decide) (by decide) (by decide +kernel) (by decide +kernel) (by decide +kernel)
  (by decide) (by decide) (by decide +kernel) (by unfold StandardData; decide)
  (Or.inl (Or.inl (by unfold GroupDest destOf; decide))) (by decide +kernel) rfl

/-- C12, limit of the mechanism: the duplicate test only compares with the last delivered telegram.
When the same telegram is sent a second time as a new message, its first transmission is disturbed
(here: a parity error in the last character) and its repetition arrives correctly, the repetition is
acknowledged but the second message never reaches the application. -/
theorem C12_new_message_lost :
    ∃ es, Out.deliver dTel ∈ (run boot es).2 ∧
      (run boot (es ++ [.discard] ++
        (dTel.take 8).flatMap (fun b => dChar b (parityBit b)) ++ dChar 0x39 (!parityBit 0x39)
        ++ [.irq dTimeout])).1.bus.telegramLen = 0 ∧
      (run boot (es ++ [.discard] ++
        (dTel.take 8).flatMap (fun b => dChar b (parityBit b)) ++ dChar 0x39 (!parityBit 0x39)
        ++ [.irq dTimeout] ++ dFrame dTelRep)).1.bus.telegramLen = 0 ∧
      (run boot (es ++ [.discard] ++
        (dTel.take 8).flatMap (fun b => dChar b (parityBit b)) ++ dChar 0x39 (!parityBit 0x39)
        ++ [.irq dTimeout] ++ dFrame dTelRep)).1.bus.sendAck = ackByte :=
  ⟨dReceive, by decide +kernel, by decide +kernel, by decide +kernel, by decide +kernel⟩

end Verif.Bus
