import Verif.Bus.TxLemmas
import Verif.Bus.PropsRx

/-!
# Character framing: C10
-/

namespace Verif.Bus

open Verif.Knx

/-! ## Receiver -/

theorem captured_irq {ns : List Nat} {es : List Irq} (h : Captured ns es) :
    ∀ e ∈ es, e.cap = true ∧ e.tmo = false ∧ e.spike = false := by
  induction ns generalizing es with
  | nil => simp only [Captured] at h; subst h; simp
  | cons n ns ih =>
    cases es with
    | nil => exact h.elim
    | cons e es =>
      intro x hx
      rcases List.mem_cons.1 hx with rfl | hx
      · exact ⟨h.1.1, h.1.2.1, h.1.2.2.1⟩
      · exact ih h.2 x hx

/-- What the reception of characters leaves alone: the telegram for the upper layer and everything
that belongs to the telegram to be sent. -/
def kept (b : Bus) := (tel b, txF b)

theorem isr_noSpike {i : Irq} {b : Bus} (h : i.spike = false) :
    isr i b = dispatch i { b with tSet := none } := by
  unfold isr
  rw [if_neg (by simp [isSpike, h])]

theorem recv_edges (es : List Irq) (s : Sys) (hp : s.paused = false) (hs : s.bus.st = .recvBits)
    (hm : s.bus.mTime = 1143)
    (he : ∀ e ∈ es, e.cap = true ∧ e.tmo = false ∧ e.spike = false) :
    (run s (es.map .irq)).2 = [] ∧ (run s (es.map .irq)).1.paused = false ∧
    (run s (es.map .irq)).1.bus.st = .recvBits ∧ (run s (es.map .irq)).1.bus.mTime = 1143 ∧
    scanOf (run s (es.map .irq)).1.bus =
      es.foldl (fun q (e : Irq) => scanEdge e.capVal q) (scanOf s.bus) ∧
    kept (run s (es.map .irq)).1.bus = kept s.bus := by
  induction es generalizing s with
  | nil => simp [run, hp, hs, hm]
  | cons e es ih =>
    obtain ⟨h1, h2, h3⟩ := he e (List.mem_cons_self ..)
    have hstep : ∃ b', step s (.irq e) = (⟨b', false⟩, []) ∧ b'.st = .recvBits ∧
        b'.mTime = 1143 ∧ scanOf b' = scanEdge e.capVal (scanOf s.bus) ∧ kept b' = kept s.bus := by
      simp only [step, hp, Bool.false_eq_true, if_false, isr_noSpike h3, dispatch, hs, recvBits, h2]
      split <;> exact ⟨_, rfl, rfl, hm, rfl, rfl⟩
    obtain ⟨b', e1, e2, e3, e4, e5⟩ := hstep
    have := ih ⟨b', false⟩ rfl e2 e3 (fun x hx => he x (List.mem_cons_of_mem _ hx))
    simp only [List.map_cons, run, e1, List.nil_append, List.foldl_cons]
    rw [← e4, ← e5]
    exact this

theorem recv_start {s : Sys} {i : Irq} (hp : s.paused = false)
    (hs : s.bus.st = .waitStart ∨ s.bus.st = .idle ∨ s.bus.st = .wait50 ∨
      s.bus.st = .waitAck)
    (hc : i.cap = true) (hn : i.spike = false) :
    ∃ b', step s (.irq i) =
        (⟨b', false⟩, if s.bus.st = .waitStart then [] else [.rxBegin]) ∧
      b'.st = .recvBits ∧ b'.mTime = 1143 ∧ scanOf b' = scan0 ∧ kept b' = kept s.bus := by
  simp only [step, hp, Bool.false_eq_true, if_false, isr_noSpike hn]
  rcases hs with h | h | h | h
  · simp only [dispatch, h, waitStart, hc, Bool.not_true, Bool.false_eq_true, if_false, if_true]
    exact ⟨_, rfl, rfl, rfl, rfl, rfl⟩
  · simp only [dispatch, h, hc, if_true, initRx, waitStart, Bool.not_true, Bool.false_eq_true,
      if_false, reduceCtorEq]
    exact ⟨_, rfl, rfl, rfl, rfl, rfl⟩
  · simp only [dispatch, h, wait50, hc, if_true, initRx, waitStart, Bool.not_true,
      Bool.false_eq_true, if_false, reduceCtorEq]
    exact ⟨_, rfl, rfl, rfl, rfl, rfl⟩
  · simp only [dispatch, h, waitAck, hc, if_true, initRx, waitStart, Bool.not_true,
      Bool.false_eq_true, if_false, reduceCtorEq]
    exact ⟨_, rfl, rfl, rfl, rfl, rfl⟩

theorem recv_fin {s : Sys} {i : Irq} (hp : s.paused = false) (hs : s.bus.st = .recvBits)
    (hm : s.bus.mTime = 1143) (ht : i.tmo = true) (hn : i.spike = false) :
    ∃ b', step s (.irq i) = (⟨b', false⟩,
        [.rxChar (BitVec.ofNat 8 ((scanEdge 1144 (scanOf s.bus)).cur &&& 0xff))
          (scanEdge 1144 (scanOf s.bus)).parity]) ∧
      b'.st = .waitStart ∧ kept b' = kept s.bus := by
  simp only [step, hp, Bool.false_eq_true, if_false, isr_noSpike hn, dispatch, hs, recvBits, ht,
    if_true, hm, endOfChar]
  split <;> exact ⟨_, rfl, rfl, rfl⟩

theorem recv_char {s : Sys} {c : CharIrqs} {b : Byte} {p : Bool} (hp : s.paused = false)
    (hs : s.bus.st = .waitStart ∨ s.bus.st = .idle ∨ s.bus.st = .wait50 ∨
      s.bus.st = .waitAck) (hc : c.Of b p) :
    (run s c.events).2 =
      (if s.bus.st = .waitStart then [] else [.rxBegin]) ++ [.rxChar b (p == parityBit b)] ∧
    (run s c.events).1.bus.st = .waitStart ∧ (run s c.events).1.paused = false ∧
    kept (run s c.events).1.bus = kept s.bus := by
  obtain ⟨c1, c2, c3, c4, c5⟩ := hc
  obtain ⟨b1, e1, s1, m1, q1, t1⟩ := recv_start hp hs c1 c2
  obtain ⟨o2, p2, s2, m2, q2, t2⟩ := recv_edges c.edges ⟨b1, false⟩ rfl s1 m1 (captured_irq c3)
  obtain ⟨b3, e3, s3, t3⟩ := recv_fin p2 s2 m2 c4 c5
  simp only at q2 t2
  rw [q2, q1, scan_char c.edges (charBits b p) (by simp [charBits])
    (by rw [← zeroSlots_eq]; exact c3), (scanBits_char b p).1, (scanBits_char b p).2] at e3
  simp only [CharIrqs.events, run, e1, run_append, o2, e3]
  exact ⟨by simp, s3, trivial, by rw [t3, t2, t1]⟩

/-- C10 (receiver). Wherever a character can start (between the characters of a frame, when the bus
is idle, in the pause before a transmission, while an acknowledge is awaited) the nine bits `b`, `p` that follow a start bit are
decoded to the byte `b`, with correct parity exactly if `p` is its even parity bit, provided every
zero bit is captured less than 35 µs too early and 69 µs too late. -/
theorem C10_receive (s : Sys) (c : CharIrqs) (b : Byte) (p : Bool) (hp : s.paused = false)
    (hs : s.bus.st = .waitStart ∨ s.bus.st = .idle ∨ s.bus.st = .wait50 ∨
      s.bus.st = .waitAck) (hc : c.Of b p) :
    (run s c.events).2 =
      (if s.bus.st = .waitStart then [] else [.rxBegin]) ++ [.rxChar b (p == parityBit b)] ∧
    (run s c.events).1.bus.st = .waitStart :=
  ⟨(recv_char hp hs hc).1, (recv_char hp hs hc).2.1⟩

/-- The byte 0xB4 with early, exact and late edges. -/
def dCaptured : CharIrqs where
  start := dEdge 5
  edges := [dEdge 70, dEdge 208, dEdge 484, dEdge 780, dEdge 1000]
  fin := dTimeout

theorem dCaptured_of : dCaptured.Of 0xB4#8 false := by
  refine ⟨rfl, rfl, ?_, rfl, rfl⟩
  show Captured (zeroSlots 0xB4#8 false) [dEdge 70, dEdge 208, dEdge 484, dEdge 780, dEdge 1000]
  rw [show zeroSlots 0xB4#8 false = [1, 2, 4, 7, 9] by decide]
  simp [Captured, dEdge, dTimeout]

example := C10_receive (run boot dReady).1 dCaptured 0xB4#8 false (by decide +kernel)
  (by decide +kernel) dCaptured_of

/-- C10. Any flip of a single one of the nine bits of a correct character is reported as a parity
error. -/
theorem C10_flip_detected (s : Sys) (c : CharIrqs) (b : Byte) (p : Bool) (sent : Byte)
    (hp : s.paused = false)
    (hs : s.bus.st = .waitStart ∨ s.bus.st = .idle ∨ s.bus.st = .wait50 ∨
      s.bus.st = .waitAck) (hc : c.Of b p)
    (k : Nat) (hk : k < 9)
    (hflip : charBits b p =
      (charBits sent (parityBit sent)).set k (!(charBits sent (parityBit sent))[k]!)) :
    Out.rxChar b false ∈ (run s c.events).2 ∧
    ∀ x, Out.rxChar x true ∉ (run s c.events).2 := by
  have hl : k < (charBits sent (parityBit sent)).length := by simpa [charBits] using hk
  have h0 := parity_even sent (parityBit sent)
  have h1 := countP_flip _ k hl
  rw [getElem!_pos _ k hl] at hflip
  rw [← hflip] at h1
  have hpar : (p == parityBit b) = false := by
    rw [parity_even]
    simp only [beq_self_eq_true, Bool.true_eq, beq_iff_eq] at h0
    simpa [h0] using h1
  rw [(C10_receive s c b p hp hs hc).1, hpar]
  split <;> simp

/-- The parity bit of 0xB4 lost: received with parity bit one. -/
example := C10_flip_detected (run boot dReady).1
  { dCaptured with edges := [dEdge 70, dEdge 208, dEdge 484, dEdge 780] } 0xB4#8 true 0xB4#8
  (by decide +kernel) (by decide +kernel)
  ⟨rfl, rfl, by
    show Captured (zeroSlots 0xB4#8 true) [dEdge 70, dEdge 208, dEdge 484, dEdge 780]
    rw [show zeroSlots 0xB4#8 true = [1, 2, 4, 7] by decide]
    simp [Captured, dEdge, dTimeout], rfl, rfl⟩ 8 (by decide) (by decide)

/-! ## Sender -/

/-- The hardware during transmission: the output is pulled low at timer value `mPwm` if that comes
before the match value `mTime`; the echo of that edge is captured `e` µs later; at the match value
an interrupt occurs and the timer restarts.  `t` is the time of the last restart.  The result is the
falling edges, the log, the time of the restart and the new state. -/
def txStep (i : Irq) (e t : Nat) (b : Bus) : List Nat × List Out × Nat × Bus :=
  if b.mPwm ≤ b.mTime then
    let r1 := isr { i with
      cap := true, tmo := false, capVal := b.mPwm + e, now := b.mPwm + e, spike := false } b
    let r2 := isr { i with cap := false, tmo := true } r1.1
    ([t + b.mPwm], r1.2 ++ r2.2, t + r1.1.mTime + 1, r2.1)
  else
    let r2 := isr { i with cap := false, tmo := true } b
    ([], r2.2, t + b.mTime + 1, r2.1)

/-- The rest of the character. -/
def txLoop (i : Irq) (e : Nat) : Nat → Nat → Bus → List Nat × List Out × Nat × Bus
  | 0, t, b => ([], [], t, b)
  | n + 1, t, b =>
    if b.st = .sendBits then
      let r := txStep i e t b
      let r2 := txLoop i e n r.2.2.1 r.2.2.2
      (r.1 ++ r2.1, r.2.1 ++ r2.2.1, r2.2.2.1, r2.2.2.2)
    else ([], [], t, b)

/-- The transmission of one character, from the start bit until the end of the stop bit: falling
edges on the line, log, time of the last timer restart and state. -/
def txOne (i : Irq) (e t : Nat) (b : Bus) : List Nat × List Out × Nat × Bus :=
  let r := txStep i e t b
  let r2 := txLoop i e 11 r.2.2.1 r.2.2.2
  (r.1 ++ r2.1, r.2.1 ++ r2.2.1, r2.2.2.1, r2.2.2.2)

/-- The transmission of `n` characters: the falling edges of each, log, time and state. -/
def txMany (i : Irq) (e : Nat) : Nat → Nat → Bus → List (List Nat) × List Out × Nat × Bus
  | 0, t, b => ([], [], t, b)
  | n + 1, t, b =>
    let r := txOne i e t b
    let r2 := txMany i e n r.2.2.1 r.2.2.2
    (r.1 :: r2.1, r.2.1 ++ r2.2.1, r2.2.2.1, r2.2.2.2)

/-- The falling edges of a character whose start bit is at time `s`: start bit and zero bits, 104 µs
per bit. -/
def charEdges (s : Nat) (c : Byte) : List Nat :=
  s :: (zeroSlots c (parityBit c)).map fun n => s + 104 * n

/-- State after the timeout in the middle of a character. -/
def nxt (b : Bus) : Bus :=
  { b with
    tSet := none
    bitMask := (nextZero 10 b.currentByte b.bitMask bitTimeUs).1 <<< 1
    mPwm := if 0x200 < (nextZero 10 b.currentByte b.bitMask bitTimeUs).1 <<< 1 then 0xffff
      else (nextZero 10 b.currentByte b.bitMask bitTimeUs).2 - bitPulseUs
    mTime := (nextZero 10 b.currentByte b.bitMask bitTimeUs).2 - 1 }

theorem isr_timeout_bits (i : Irq) (b : Bus) (hs : b.st = .sendBits) (hm : b.bitMask ≤ 0x200) :
    isr { i with cap := false, tmo := true } b = (nxt b, []) := by
  unfold isr
  rw [if_neg (by simp [isSpike])]
  simp only [dispatch, hs, sendBits, Bool.not_true, Bool.false_eq_true, if_false, hm, if_true]
  simp only [nxt, hs]

theorem isr_timeout_end (i : Irq) (b : Bus) (hs : b.st = .sendBits) (hm : ¬ b.bitMask ≤ 0x200) :
    isr { i with cap := false, tmo := true } b =
      sendEndByte { b with tSet := none, st := .sendEndByte } := by
  unfold isr
  rw [if_neg (by simp [isSpike])]
  simp only [dispatch, hs, sendBits, Bool.not_true, Bool.false_eq_true, if_false, hm]

theorem isr_echo (i : Irq) (b : Bus) (e k : Nat) (hs : b.st = .sendBits) (hk : 1 ≤ k)
    (hp : b.mPwm = 104 * k - 35) (he : e ≤ 34) :
    isr { i with
      cap := true, tmo := false, capVal := b.mPwm + e, now := b.mPwm + e, spike := false } b =
      ({ b with tSet := none }, []) := by
  unfold isr
  rw [if_neg (by simp [isSpike])]
  simp only [dispatch, hs, sendBits, Bool.not_false, if_true, bitTimeUs, bitWaitUs]
  rw [if_neg (by omega), if_neg (by omega), if_neg]
  simp only [usub]
  split <;> omega

/-- What the states after a character have in common. -/
def SameSend (b b' : Bus) : Prop :=
  b'.nextByteIndex = b.nextByteIndex ∧ b'.sendCur = b.sendCur ∧
  b'.sendTelegramLen = b.sendTelegramLen ∧ b'.sendAck = b.sendAck ∧ b'.tInt = b.tInt ∧
  b'.tReset = b.tReset

/-- The state after a character. -/
def CharEnd (b : Bus) : Prop :=
  if b.nextByteIndex < b.sendTelegramLen ∧ b.sendAck = 0#8 then
    b.st = .sendStart ∧ b.mPwm = 278 ∧ b.mTime = 312
  else b.st = .sendEndTx ∧ b.mTime = 68

theorem sendEndByte_end (b : Bus) :
    SameSend b (sendEndByte b).1 ∧ CharEnd (sendEndByte b).1 ∧ (sendEndByte b).2 = [] := by
  unfold sendEndByte
  split
  · next h => exact ⟨⟨rfl, rfl, rfl, rfl, rfl, rfl⟩, by unfold CharEnd; rw [if_pos h]; exact ⟨rfl, rfl, rfl⟩, rfl⟩
  · next h => exact ⟨⟨rfl, rfl, rfl, rfl, rfl, rfl⟩, by unfold CharEnd; rw [if_neg h]; exact ⟨rfl, rfl⟩, rfl⟩

theorem CharEnd.not_bits {b : Bus} (h : CharEnd b) : b.st ≠ .sendBits := by
  unfold CharEnd at h
  split at h
  · rw [h.1]; decide
  · rw [h.1]; decide

theorem txLoop_other (i : Irq) (e n t : Nat) (b : Bus) (h : b.st ≠ .sendBits) :
    txLoop i e n t b = ([], [], t, b) := by
  cases n with
  | zero => rfl
  | succ n => simp [txLoop, h]

theorem txLoop_pulses (i : Irq) (e : Nat) (he : e ≤ 34) (n t : Nat) (b : Bus)
    (hs : b.st = .sendBits) (l : List Nat) (T : Nat)
    (h : pulses n b.currentByte b.bitMask t = some (l, T)) :
    ∃ b', txLoop i e n t (nxt b) = (l, [], T, b') ∧ SameSend b b' ∧ CharEnd b' := by
  induction n generalizing t b l T with
  | zero => simp [pulses] at h
  | succ n ih =>
    obtain ⟨k, k1, k2, hk⟩ := nextZero_bounds b.currentByte b.bitMask
    simp only [pulses] at h
    simp only [txLoop, if_pos (show (nxt b).st = .sendBits from hs)]
    have hmt : (nxt b).mTime = 104 * k - 1 := by simp only [nxt, hk]
    split at h
    · next hz =>
      have hpw : (nxt b).mPwm = 0xffff := by simp only [nxt, if_pos hz]
      obtain ⟨rfl, rfl⟩ := Prod.mk.inj (Option.some.inj h)
      have e1 : txStep i e t (nxt b) = ([], [], t + (nxt b).mTime + 1,
          (sendEndByte { nxt b with tSet := none, st := .sendEndByte }).1) := by
        unfold txStep
        rw [if_neg (by rw [hpw, hmt]; omega)]
        rw [isr_timeout_end i (nxt b) hs (by show ¬ _ ≤ _; simp only [nxt]; omega)]
        simp only [(sendEndByte_end _).2.2]
      obtain ⟨f1, f2, f3⟩ := sendEndByte_end { nxt b with tSet := none, st := .sendEndByte }
      refine ⟨(sendEndByte { nxt b with tSet := none, st := .sendEndByte }).1, ?_, ?_, f2⟩
      · simp only [e1]
        rw [txLoop_other _ _ _ _ _ f2.not_bits, hmt, hk]
        simp only [List.append_nil, Prod.mk.injEq, true_and]
        exact ⟨by omega, rfl⟩
      · exact f1
    · next hz =>
      have hpw : (nxt b).mPwm = 104 * k - 35 := by
        simp only [nxt, if_neg hz, hk, bitPulseUs]
      have e1 : txStep i e t (nxt b) =
          ([t + (nxt b).mPwm], [], t + (nxt b).mTime + 1, nxt { nxt b with tSet := none }) := by
        unfold txStep
        rw [if_pos (by rw [hpw, hmt]; omega)]
        rw [isr_echo i (nxt b) e k hs k1 hpw he]
        simp only
        rw [isr_timeout_bits i { nxt b with tSet := none } hs (by
          show (nextZero 10 b.currentByte b.bitMask bitTimeUs).1 <<< 1 ≤ 0x200; omega)]
        rfl
      obtain ⟨⟨l', T'⟩, hl', hr⟩ := Option.map_eq_some_iff.1 h
      obtain ⟨rfl, rfl⟩ := Prod.mk.inj hr
      have hT : t + (nxt b).mTime + 1 = t + (nextZero 10 b.currentByte b.bitMask bitTimeUs).2 := by
        rw [hmt, hk]; omega
      obtain ⟨b', g1, g2, g3⟩ := ih (t + (nxt b).mTime + 1) { nxt b with tSet := none } hs l' T'
        (by rw [hT]; exact hl')
      refine ⟨b', ?_, g2, g3⟩
      generalize nxt { nxt b with tSet := none } = x at *
      simp only [e1, g1, hpw, hk, List.nil_append, List.cons_append]

/-- The first part of a character: start bit. -/
theorem txStep_start (i : Irq) (e t : Nat) (b : Bus) (hs : b.st = .sendStart) (he : e ≤ 34)
    (hp : 30 ≤ b.mPwm) (hm : b.mTime = b.mPwm + 34) (c : Byte)
    (hc : (if b.sendAck ≠ 0#8 then some b.sendAck else b.sendCur.map fun f => f b.nextByteIndex)
      = some c) :
    ∃ b0, txStep i e t b = ([t + b.mPwm], [.txChar c (parityBit c)], t + b.mPwm + 35, nxt b0) ∧
      b0.st = .sendBits ∧ b0.currentByte = withParity c.toNat ∧ b0.bitMask = 1 ∧
      b0.nextByteIndex = (if b.sendAck ≠ 0#8 then b.nextByteIndex else b.nextByteIndex + 1) ∧
      b0.sendCur = b.sendCur ∧ b0.sendTelegramLen = b.sendTelegramLen ∧
      b0.sendAck = b.sendAck ∧ b0.tInt = b.tInt ∧ b0.tReset = b.tReset := by
  have e1 : isr { i with
      cap := true, tmo := false, capVal := b.mPwm + e, now := b.mPwm + e, spike := false } b =
      ({ b with tSet := none, st := .sendBit0 }, []) := by
    unfold isr
    rw [if_neg (by simp [isSpike])]
    simp only [dispatch, hs, sendStart, Bool.not_false, if_true]
    rw [if_neg, if_neg (by omega)]
    simp only [usub]
    split <;> omega
  unfold txStep
  rw [if_pos (by omega), e1]
  simp only
  unfold isr
  rw [if_neg (by simp [isSpike])]
  simp only [dispatch, sendBit0]
  by_cases ha : b.sendAck ≠ 0#8
  · rw [if_pos ha] at hc
    obtain rfl := Option.some.inj hc
    simp only [if_pos ha]
    refine ⟨{ b with tSet := none, st := .sendBits, currentByte := withParity b.sendAck.toNat
                     bitMask := 1 }, ?_, rfl, rfl, rfl, rfl, rfl, rfl, rfl, rfl, rfl⟩
    simp only [sendBits, Bool.not_true, Bool.false_eq_true, if_false,
      show (1 : Nat) ≤ 0x200 by decide, if_true, (pulses_char _).2, hm, nxt, List.nil_append]
    rfl
  · rw [if_neg ha] at hc
    obtain ⟨f, hf, rfl⟩ := Option.map_eq_some_iff.1 hc
    simp only [if_neg ha, hf]
    refine ⟨{ b with tSet := none, st := .sendBits, currentByte := withParity (f b.nextByteIndex).toNat
                     bitMask := 1, nextByteIndex := b.nextByteIndex + 1 }, ?_, rfl, rfl, rfl, rfl,
                     hf, rfl, rfl, rfl, rfl⟩
    simp only [sendBits, Bool.not_true, Bool.false_eq_true, if_false,
      show (1 : Nat) ≤ 0x200 by decide, if_true, (pulses_char _).2, hm, nxt, List.nil_append, hf]
    rfl

/-- C10 (sender). Sending the next byte `c` of the telegram (or the acknowledge) pulls the line low
exactly at the start bit and at 104 µs times the position of every zero among the eight data bits,
least significant bit first, and the even parity bit; the next character of the telegram starts 13
bit times (1353 µs) after this one. -/
theorem C10_send (i : Irq) (e t : Nat) (b : Bus) (hs : b.st = .sendStart) (he : e ≤ 34)
    (hp : 30 ≤ b.mPwm) (hm : b.mTime = b.mPwm + 34) (c : Byte)
    (hc : (if b.sendAck ≠ 0#8 then some b.sendAck else b.sendCur.map fun f => f b.nextByteIndex)
      = some c) :
    (txOne i e t b).1 = charEdges (t + b.mPwm) c ∧
    (txOne i e t b).2.1 = [.txChar c (parityBit c)] ∧
    ∀ b', b' = (txOne i e t b).2.2.2 →
      b'.sendCur = b.sendCur ∧ b'.sendAck = b.sendAck ∧ b'.sendTelegramLen = b.sendTelegramLen ∧
      b'.nextByteIndex = (if b.sendAck ≠ 0#8 then b.nextByteIndex else b.nextByteIndex + 1) ∧
      (if b'.nextByteIndex < b'.sendTelegramLen ∧ b'.sendAck = 0#8 then
        b'.st = .sendStart ∧ (txOne i e t b).2.2.1 + b'.mPwm = t + b.mPwm + 1353 ∧
        30 ≤ b'.mPwm ∧ b'.mTime = b'.mPwm + 34
      else b'.st = .sendEndTx) := by
  obtain ⟨b0, h1, h2, h3, h4, h5, h6, h7, h8, _, _⟩ := txStep_start i e t b hs he hp hm c hc
  have hpl := (pulses_char c).1
  have hsh := pulses_shift 11 (withParity c.toNat) 1 (t + b.mPwm + 35)
  rw [hpl] at hsh
  obtain ⟨b', g1, ⟨s1, s2, s3, s4, _, _⟩, g3⟩ := txLoop_pulses i e he 11 (t + b.mPwm + 35) b0 h2 _ _
    (by rw [h3, h4]; exact hsh)
  unfold txOne
  simp only [h1, g1]
  refine ⟨?_, by simp, ?_⟩
  · simp only [charEdges, List.singleton_append, List.map_map, List.cons.injEq, true_and]
    apply List.map_congr_left
    intro n hn
    have := zeroSlots_pos _ _ n hn
    simp only [Function.comp]
    omega
  · rintro b2 rfl
    refine ⟨s2.trans h6, s4.trans h8, s3.trans h7, s1.trans h5, ?_⟩
    unfold CharEnd at g3
    split
    · next hif =>
      rw [if_pos hif] at g3
      exact ⟨g3.1, by rw [g3.2.1], by rw [g3.2.1]; omega, by rw [g3.2.1, g3.2.2]⟩
    · next hif =>
      rw [if_neg hif] at g3
      exact g3.1

/-- A device that has queued a telegram and is about to send it. -/
def dSending : Bus :=
  (run boot ([.irq dTimeout, .queue 0x1101#16 (ofList [0xBC, 0, 0, 0x08, 0x01, 0xE1, 0x00, 0x81]) 8]
    ++ [.irq dTimeout])).1.bus

example := C10_send dTimeout 3 0 dSending (by decide +kernel) (by decide) (by decide +kernel)
  (by decide +kernel) 0xBC#8 (by decide +kernel)

/-- C10 (sender, whole frame). The characters of a frame are sent one after the other, a start bit
every 13 bit times. -/
theorem C10_send_frame (i : Irq) (e : Nat) (he : e ≤ 34) (f : Buf) (n t : Nat) (b : Bus)
    (hs : b.st = .sendStart) (hp : 30 ≤ b.mPwm) (hm : b.mTime = b.mPwm + 34)
    (ha : b.sendAck = 0#8) (hf : b.sendCur = some f) (hn : b.nextByteIndex + n + 1 = b.sendTelegramLen) :
    (txMany i e (n + 1) t b).1 = (List.range (n + 1)).map
      (fun k => charEdges (t + b.mPwm + 1353 * k) (f (b.nextByteIndex + k))) ∧
    (txMany i e (n + 1) t b).2.1 =
      txChars ((List.range (n + 1)).map fun k => f (b.nextByteIndex + k)) ∧
    (txMany i e (n + 1) t b).2.2.2.st = .sendEndTx := by
  induction n generalizing t b with
  | zero =>
    obtain ⟨h1, h2, h3⟩ := C10_send i e t b hs he hp hm (f b.nextByteIndex) (by simp [ha, hf])
    obtain ⟨g1, g2, g3, g4, g5⟩ := h3 _ rfl
    rw [if_neg (by simp [ha] at g4; omega)] at g5
    simp only [txMany, h1, h2, g5]
    simp [txChars, List.range_succ]
  | succ n ih =>
    obtain ⟨h1, h2, h3⟩ := C10_send i e t b hs he hp hm (f b.nextByteIndex) (by simp [ha, hf])
    obtain ⟨g1, g2, g3, g4, g5⟩ := h3 _ rfl
    have g4' : (txOne i e t b).2.2.2.nextByteIndex = b.nextByteIndex + 1 := by
      rw [g4, if_neg (by simp [ha])]
    rw [if_pos ⟨by omega, by rw [g2, ha]⟩] at g5
    obtain ⟨k1, k2, k3, k4⟩ := g5
    obtain ⟨i1, i2, i3⟩ := ih (txOne i e t b).2.2.1 (txOne i e t b).2.2.2 k1 k3 k4
      (by rw [g2, ha]) (by rw [g1, hf]) (by omega)
    have e1 : (txMany i e (n + 1 + 1) t b).1 =
        (txOne i e t b).1 :: (txMany i e (n + 1) (txOne i e t b).2.2.1 (txOne i e t b).2.2.2).1 := rfl
    have e2 : (txMany i e (n + 1 + 1) t b).2.1 = (txOne i e t b).2.1 ++
        (txMany i e (n + 1) (txOne i e t b).2.2.1 (txOne i e t b).2.2.2).2.1 := rfl
    have e3 : (txMany i e (n + 1 + 1) t b).2.2.2 =
        (txMany i e (n + 1) (txOne i e t b).2.2.1 (txOne i e t b).2.2.2).2.2.2 := rfl
    refine ⟨?_, ?_, by rw [e3]; exact i3⟩
    · rw [e1, h1, i1, List.range_succ_eq_map (n := n + 1)]
      simp only [List.map_cons, List.map_map, Nat.mul_zero, Nat.add_zero, List.cons.injEq, true_and]
      apply List.map_congr_left
      intro k _
      simp only [Function.comp, g4', k2]
      rw [show t + b.mPwm + 1353 + 1353 * k = t + b.mPwm + 1353 * (k + 1) by omega,
        show b.nextByteIndex + 1 + k = b.nextByteIndex + (k + 1) by omega]
    · rw [e2, h2, i2, List.range_succ_eq_map (n := n + 1)]
      simp only [txChars, List.map_cons, List.map_map, Nat.add_zero, List.singleton_append,
        List.cons.injEq, true_and]
      apply List.map_congr_left
      intro k _
      simp only [Function.comp, g4']
      rw [show b.nextByteIndex + 1 + k = b.nextByteIndex + (k + 1) by omega]

example := C10_send_frame dTimeout 3 (by decide) _ 8 0 dSending (by decide +kernel)
  (by decide +kernel) (by decide +kernel) (by decide +kernel)
  (show dSending.sendCur = some (prepareTelegram 0x1101#16
    (ofList [0xBC, 0, 0, 0x08, 0x01, 0xE1, 0x00, 0x81]) 8) by rfl)
  (by decide +kernel)

/-! ## Sender and receiver -/

/-- The receiver's interrupts for falling edges on the line at the given times: the first is the
start bit, the others are captured relative to it, less than 35 µs too early and 69 µs too late. -/
def Sees (edges : List Nat) (c : CharIrqs) : Prop :=
  c.start.cap = true ∧ c.start.spike = false ∧ c.fin.tmo = true ∧ c.fin.spike = false ∧
  c.edges.length + 1 = edges.length ∧
  ∀ k (h : k < c.edges.length) (h2 : k + 1 < edges.length),
    c.edges[k].cap = true ∧ c.edges[k].tmo = false ∧ c.edges[k].spike = false ∧
    edges[k + 1] ≤ edges[0] + c.edges[k].capVal + 35 ∧
    edges[0] + c.edges[k].capVal < edges[k + 1] + 69

theorem captured_of_get (ns : List Nat) (es : List Irq) (hl : es.length = ns.length)
    (h : ∀ k (h1 : k < es.length) (h2 : k < ns.length),
      es[k].cap = true ∧ es[k].tmo = false ∧ es[k].spike = false ∧
      104 * ns[k] ≤ es[k].capVal + 35 ∧ es[k].capVal < 104 * ns[k] + 69) : Captured ns es := by
  induction ns generalizing es with
  | nil => simpa [Captured] using hl
  | cons n ns ih =>
    cases es with
    | nil => simp at hl
    | cons e es =>
      refine ⟨h 0 (by simp) (by simp), ih es (by simpa using hl) fun k h1 h2 => ?_⟩
      exact h (k + 1) (by simpa using h1) (by simpa using h2)

theorem sees_of {s : Nat} {c : Byte} {ci : CharIrqs} (h : Sees (charEdges s c) ci) :
    ci.Of c (parityBit c) := by
  obtain ⟨h1, h2, h3, h4, h5, h6⟩ := h
  refine ⟨h1, h2, ?_, h3, h4⟩
  apply captured_of_get
  · simpa [charEdges] using h5
  · intro k k1 k2
    obtain ⟨g1, g2, g3, g4, g5⟩ := h6 k k1 (by simpa [charEdges] using k2)
    refine ⟨g1, g2, g3, ?_, ?_⟩
    · simp [charEdges] at g4; omega
    · simp [charEdges] at g5; omega

/-- C10. Round trip: whatever byte a device sends, every device that sees the falling edges with the
tolerated deviations decodes that byte with correct parity. -/
theorem C10_round_trip (i : Irq) (e t : Nat) (b : Bus) (hs : b.st = .sendStart) (he : e ≤ 34)
    (hp : 30 ≤ b.mPwm) (hm : b.mTime = b.mPwm + 34) (c : Byte)
    (hc : (if b.sendAck ≠ 0#8 then some b.sendAck else b.sendCur.map fun f => f b.nextByteIndex)
      = some c)
    (r : Sys) (hrp : r.paused = false)
    (hrs : r.bus.st = .waitStart ∨ r.bus.st = .idle ∨ r.bus.st = .wait50 ∨
      r.bus.st = .waitAck)
    (ci : CharIrqs) (hsee : Sees (txOne i e t b).1 ci) :
    (run r ci.events).2 =
      (if r.bus.st = .waitStart then [] else [.rxBegin]) ++ [.rxChar c true] := by
  rw [(C10_send i e t b hs he hp hm c hc).1] at hsee
  have := (C10_receive r ci c (parityBit c) hrp hrs (sees_of hsee)).1
  rw [this]
  simp

/-- The first byte of the telegram, 0xBC, zero bits at positions 1, 2, 7, edges 5 µs late. -/
example := C10_round_trip dTimeout 3 0 dSending (by decide +kernel) (by decide) (by decide +kernel)
  (by decide +kernel) 0xBC#8 (by decide +kernel) (run boot dReady).1 (by decide +kernel)
  (by decide +kernel) ⟨dEdge 5, [dEdge 109, dEdge 213, dEdge 733], dTimeout⟩
  (by
    refine ⟨rfl, rfl, rfl, rfl, by decide +kernel, ?_⟩
    rw [show (txOne dTimeout 3 0 dSending).1 = [417, 521, 625, 1145] by decide +kernel]
    intro k h h2
    have : k = 0 ∨ k = 1 ∨ k = 2 := by simp at h; omega
    rcases this with rfl | rfl | rfl <;> simp [dEdge, dTimeout])

/-- The receiver sees every character of a frame. -/
def SeesAll : List (List Nat) → List CharIrqs → Prop
  | [], cs => cs = []
  | _ :: _, [] => False
  | l :: ls, c :: cs => Sees l c ∧ SeesAll ls cs

theorem recv_chars (l : List (Nat × Byte)) (cs : List CharIrqs) (s : Sys)
    (hp : s.paused = false) (hs : s.bus.st = .waitStart)
    (h : SeesAll (l.map fun x => charEdges x.1 x.2) cs) :
    (run s (cs.flatMap (·.events))).2 = rxChars (l.map fun x => (x.2, true)) ∧
    (run s (cs.flatMap (·.events))).1.bus.st = .waitStart ∧
    (run s (cs.flatMap (·.events))).1.paused = false ∧
    kept (run s (cs.flatMap (·.events))).1.bus = kept s.bus := by
  induction l generalizing cs s with
  | nil =>
    simp only [List.map_nil, SeesAll] at h
    subst h
    simp [run, rxChars, hp, hs]
  | cons x l ih =>
    cases cs with
    | nil => exact h.elim
    | cons c cs =>
      simp only [List.map_cons, SeesAll] at h
      obtain ⟨r1, r2, r3, r4⟩ := recv_char hp (Or.inl hs) (sees_of h.1)
      obtain ⟨i1, i2, i3, i4⟩ := ih cs _ r3 r2 h.2
      simp only [List.flatMap_cons, run_append, i1, i2, i3, i4, r1, r4, hs]
      simp [rxChars]

/-- A whole frame, from a state in which it can begin. -/
theorem recv_frame (x : Nat × Byte) (l : List (Nat × Byte)) (cs : List CharIrqs) (s : Sys)
    (hp : s.paused = false) (hs : s.bus.st = .idle ∨ s.bus.st = .wait50)
    (h : SeesAll ((x :: l).map fun x => charEdges x.1 x.2) cs) :
    (run s (cs.flatMap (·.events))).2 = .rxBegin :: rxChars ((x :: l).map fun x => (x.2, true)) ∧
    (run s (cs.flatMap (·.events))).1.bus.st = .waitStart ∧
    (run s (cs.flatMap (·.events))).1.paused = false ∧
    kept (run s (cs.flatMap (·.events))).1.bus = kept s.bus := by
  cases cs with
  | nil => exact h.elim
  | cons c cs =>
    simp only [List.map_cons, SeesAll] at h
    obtain ⟨r1, r2, r3, r4⟩ := recv_char hp (hs.elim (fun h => Or.inr (Or.inl h)) fun h => Or.inr (Or.inr (Or.inl h)))
       (sees_of h.1)
    obtain ⟨i1, i2, i3, i4⟩ := recv_chars l cs _ r3 r2 h.2
    have hne : s.bus.st ≠ .waitStart := by
      rcases hs with h | h <;> rw [h] <;> decide
    simp only [List.flatMap_cons, run_append, i1, i2, i3, i4, r1, r4, if_neg hne]
    simp [rxChars]

/-- C10 (both ends of the line). A device that sends the frame `f` (8 to 23 bytes, not marked as
repeated) and a device in any reachable state in which it is not busy and which sees the edges with
the tolerated deviations: if the frame is correct and addressed to it, exactly that frame is handed
to its upper layer. -/
theorem C10_link_delivery (i : Irq) (e t : Nat) (b : Bus) (f : Buf) (n : Nat)
    (hs : b.st = .sendStart) (he : e ≤ 34) (hp : 30 ≤ b.mPwm) (hm : b.mTime = b.mPwm + 34)
    (ha : b.sendAck = 0#8) (hf : b.sendCur = some f) (h0 : b.nextByteIndex = 0)
    (hn : b.sendTelegramLen = n) (h8 : 8 ≤ n) (h23 : n ≤ 23)
    (es : List Ev) (hrp : (run boot es).1.paused = false)
    (hrs : (run boot es).1.bus.st = .idle ∨ (run boot es).1.bus.st = .wait50)
    (hfree : (run boot es).1.bus.telegramLen = 0)
    (cs : List CharIrqs) (hsee : SeesAll (txMany i e n t b).1 cs)
    (j : Irq) (hj : j.cap = false)
    (hck : ChecksumOk (bytes f n)) (hstd : StandardData (bytes f n))
    (hfirst : at' (bytes f n) 0 &&& 0x20#8 ≠ 0#8)
    (hadr : AddressedTo j.own j.known (bytes f n) ∨ j.tlEnabled = false) :
    (run (run boot es).1 (cs.flatMap (·.events) ++ [.irq j])).2 =
      .rxBegin :: rxChars ((bytes f n).map fun x => (x, true)) ++ [.deliver (bytes f n)] := by
  obtain ⟨m, rfl⟩ : ∃ m, n = m + 1 := ⟨n - 1, by omega⟩
  rw [(C10_send_frame i e he f m t b hs hp hm ha hf (by omega)).1, h0] at hsee
  let l : List (Nat × Byte) :=
    (List.range (m + 1)).map fun k => (t + b.mPwm + 1353 * k, f (0 + k))
  have hl2 : l.map (fun x => (x.2, true)) = (bytes f (m + 1)).map fun x => (x, true) := by
    simp only [l, bytes, List.map_map]
    apply List.map_congr_left
    intro k _
    simp [Function.comp]
  obtain ⟨x, l', hl⟩ : ∃ x l', l = x :: l' := by
    cases hq : l with
    | nil => simp [l] at hq
    | cons x l' => exact ⟨x, l', rfl⟩
  have hsee' : SeesAll ((x :: l').map fun x => charEdges x.1 x.2) cs := by
    rw [← hl]
    simp only [l, List.map_map]
    exact hsee
  obtain ⟨r1, r2, r3, r4⟩ := recv_frame x l' cs (run boot es).1 hrp hrs hsee'
  rw [← hl, hl2] at r1
  have happ := run_append boot es (cs.flatMap (·.events))
  have hbus : (run boot (es ++ cs.flatMap (·.events))).1 =
      (run (run boot es).1 (cs.flatMap (·.events))).1 := by rw [happ]
  have hmap : ((bytes f (m + 1)).map fun x => (x, true)).map Prod.fst = bytes f (m + 1) := by
    rw [List.map_map]; exact List.map_id' _
  have hlen : ((bytes f (m + 1)).map fun x => (x, true)).length = m + 1 := by
    rw [List.length_map, bytes_length]
  have hlog : (run boot (es ++ cs.flatMap (·.events))).2 =
      (run boot es).2 ++ .rxBegin :: rxChars ((bytes f (m + 1)).map fun x => (x, true)) := by
    rw [happ, r1]
  have hnew : NewMessage (lastDelivered (run boot (es ++ cs.flatMap (·.events))).2)
      (((bytes f (m + 1)).map fun x => (x, true)).map Prod.fst) := by
    rw [hmap]
    exact Or.inl hfirst
  have := C13_accepts (es ++ cs.flatMap (·.events)) j (run boot es).2
    ((bytes f (m + 1)).map fun x => (x, true)) (by rw [hbus]; exact r2) hlog
    (by simp) (by rw [hlen]; exact h8) (by rw [hlen]; exact h23)
    (by rw [hmap]; exact hck) (by rw [hmap]; exact hstd) (by rw [hmap]; exact hadr)
    (by rw [hbus]; exact (congrArg (fun x => x.1.2) r4).trans hfree) hnew hj
  rw [run_append, r1]
  simp only [run, List.append_nil]
  rw [← hbus, this.1, hmap]

/-- The characters of `dSending`, seen 3 µs late. -/
def dSeen : List CharIrqs :=
  [0xBC, 0x11, 0x01, 0x08, 0x01, 0xE1, 0x00, 0x81, 0x3A].map fun c =>
    ⟨dEdge 10, (zeroSlots c (parityBit c)).map fun n => dEdge (104 * n + 3), dTimeout⟩

theorem sees_late (s : Nat) (c : Byte) :
    Sees (charEdges s c)
      ⟨dEdge 10, (zeroSlots c (parityBit c)).map fun n => dEdge (104 * n + 3), dTimeout⟩ := by
  refine ⟨rfl, rfl, rfl, rfl, by simp [charEdges], ?_⟩
  intro k h h2
  simp [charEdges, dEdge, dTimeout]
  omega

theorem seesAll_late (l : List (Nat × Byte)) :
    SeesAll (l.map fun x => charEdges x.1 x.2) (l.map fun x =>
      ⟨dEdge 10, (zeroSlots x.2 (parityBit x.2)).map fun n => dEdge (104 * n + 3), dTimeout⟩) := by
  induction l with
  | nil => rfl
  | cons x l ih => exact ⟨sees_late _ _, ih⟩

example := C10_link_delivery dTimeout 3 0 dSending (prepareTelegram 0x1101#16
    (ofList [0xBC, 0, 0, 0x08, 0x01, 0xE1, 0x00, 0x81]) 8) 9 (by decide +kernel) (by decide)
  (by decide +kernel) (by decide +kernel) (by decide +kernel) rfl (by decide +kernel)
  (by decide +kernel) (by decide) (by decide) dReady (by decide +kernel) (by decide +kernel)
  (by decide +kernel) dSeen
  (by
    rw [(C10_send_frame dTimeout 3 (by decide) (prepareTelegram 0x1101#16
      (ofList [0xBC, 0, 0, 0x08, 0x01, 0xE1, 0x00, 0x81]) 8) 8 0 dSending (by decide +kernel)
      (by decide +kernel) (by decide +kernel) (by decide +kernel) rfl (by decide +kernel)).1]
    have := seesAll_late ((List.range (8 + 1)).map fun k => (0 + dSending.mPwm + 1353 * k,
      prepareTelegram 0x1101#16 (ofList [0xBC, 0, 0, 0x08, 0x01, 0xE1, 0x00, 0x81]) 8
        (dSending.nextByteIndex + k)))
    rw [List.map_map, List.map_map] at this
    exact this)
  dTimeout rfl (by decide +kernel) (by unfold StandardData; decide +kernel) (by decide +kernel)
  (Or.inl (Or.inl (by unfold GroupDest destOf; decide +kernel)))

end Verif.Bus
