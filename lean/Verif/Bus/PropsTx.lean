import Verif.Bus.TxLive
import Verif.Bus.PropsChar
import Verif.Bus.PropsRx

/-!
# C14: transmission of a telegram

The theorems range over every history `es` of the bus object, that is every sequence of interrupts
with arbitrary timer flags, timer values and surroundings, interleaved with arbitrary calls of the
interface.  `sendCur` stands for `sendCurTelegram != nullptr`: a telegram is accepted and not yet
completed.  `sendingFrame()` (bus.h:292-295) is true in addition while an acknowledge is being sent
(`sendAck != 0`); no theorem here is about `sendingFrame()`.
-/

namespace Verif.Bus

open Verif.Knx

/-- Silence: only timeouts. -/
def dSilence (n : Nat) : List Ev := List.replicate n (.irq dTimeout)

/-- A telegram from this device, without sender address and check octet. -/
def dSend : Ev := .queue 0x1101#16 (ofList [0xBC, 0, 0, 0x08, 0x01, 0xE1, 0x00, 0x81]) 8

/-- Start-up, a telegram is sent, and nobody acknowledges: all repetitions take place. -/
def dUnanswered : List Ev := dReady ++ [dSend, .kick] ++ dSilence 400

/-! ## One completion for each telegram -/

theorem accepted_append (s : Sys) (es fs : List Ev) :
    accepted s (es ++ fs) = accepted s es + accepted (run s es).1 fs := by
  induction es generalizing s with
  | nil => simp [accepted, run]
  | cons e es ih =>
    rw [List.cons_append, accepted_cons, ih, accepted_cons s e es]
    simp only [run]
    omega

/-- 1 while a telegram is accepted and not completed, otherwise 0. -/
def pending (b : Bus) : Nat := if b.sendCur.isSome then 1 else 0

theorem step_balance (s : Sys) (e : Ev) (hi : SysInv s) (hn : NoRetryErr s.bus) :
    accepted s [e] + pending s.bus = completions (step s e).2 + pending (step s e).1.bus := by
  have same : ∀ c : Bus, c.sendCur = s.bus.sendCur → pending c = pending s.bus := by
    intro c h; unfold pending; rw [h]
  cases e <;> simp only [step, accepted]
  case irq i =>
    split
    · simp [completions]
    · have hx := isr_tx i s.bus hi.inv hn
      simp only [Nat.zero_add]
      generalize isr i s.bus = r at *
      obtain ⟨c, outs⟩ := r
      simp only at hx ⊢
      cases hx with
      | other h1 h2 h3 =>
        rw [neutral_completions h2, same c (txF_eq h1).1, Nat.zero_add]
      | same h0 h1 h2 => rw [h2, same c (txF_eq h1).1]; simp [completions]
      | char h0 t ht h1 h2 => rw [h2, same c (txF_eq h1).1]; simp [completions]
      | begin t ht hx h1 h2 =>
        have := (txF_eq h1).1
        simp only at this
        simp [h2, pending, this, ht, completions]
      | done h0 hs h1 h2 =>
        have := (txF_eq h1).1
        simp only [counted] at this
        simp [h2, pending, this, completions]
      | lost h0 p l h1 h2 hp hl =>
        have := (txF_eq h1).1
        simp only at this
        rw [h2, completions_append, neutral_completions hp,
          show (Out.collision :: l) = [.collision] ++ l from rfl, completions_append,
          neutral_completions hl]
        simp [pending, this, completions]
      | noAck h0 h1 h2 =>
        have := (txF_eq h1).1
        simp only at this
        rw [neutral_completions h2]
        simp [pending, this]
      | finish ok h0 h1 h2 => simp [h2, pending, h0, h1, completions]
  case queue own t len =>
    cases hc : s.bus.sendCur with
    | none => simp [pending, hc, completions]
    | some t => simp [pending, hc, completions]
  case kick => split <;> rfl
  case discard => simp [completions, pending]
  case pause => split <;> simp [completions, pending]
  case resume => split <;> rfl
  case maxRetries => simp [completions, pending]
  case maxBusyRetries => simp [completions, pending]

theorem run_balance (s : Sys) (es : List Ev) (hi : SysInv s) (hn : NoRetryErr s.bus) :
    accepted s es + pending s.bus = completions (run s es).2 + pending (run s es).1.bus := by
  induction es generalizing s with
  | nil => simp [run, accepted, completions]
  | cons e es ih =>
    have h1 := step_balance s e hi hn
    have h2 := ih _ (step_inv hi e) (step_err s e hn)
    rw [accepted_cons]
    simp only [run]
    rw [completions_append]
    omega

/-- Every telegram accepted for sending is completed at most once, and the only one not completed
yet is the one still in progress: after any history the number of accepted telegrams is the number
of completion reports, plus one if a telegram is in progress. -/
theorem C14_one_completion (es : List Ev) :
    accepted boot es =
      completions (run boot es).2 + if (run boot es).1.bus.sendCur.isSome then 1 else 0 := by
  have := run_balance boot es boot_inv boot_err
  rw [show pending boot.bus = 0 from rfl, Nat.add_zero] at this
  exact this

example : accepted boot dUnanswered = 1 ∧ completions (run boot dUnanswered).2 = 1 ∧
    accepted boot (dUnanswered ++ [dSend]) = 2 ∧
    (run boot (dUnanswered ++ [dSend])).1.bus.sendCur.isSome := by
  decide +kernel

/-! ## Success means acknowledged -/

theorem success_acknowledged {s : Sys} {old log : List Out} (hi : SysInv s) (hn : NoRetryErr s.bus)
    (ha : AckLog log s.bus) (hr : RxLog (old ++ log) s.bus) (e : Ev) (h : Out.finished true ∈ (step s e).2) :
    ∃ pre, log = pre ++ [.txEnd, .rxBegin, .rxChar 0xcc#8 true] := by
  have hirq : ∃ i, e = .irq i := by
    cases e <;> simp only [step] at h
    case irq i => exact ⟨i, rfl⟩
    case queue => split at h <;> simp at h
    case kick => split at h <;> simp at h
    case discard => simp at h
    case pause => split at h <;> simp at h
    case resume => split at h <;> simp at h
    case maxRetries => simp at h
    case maxBusyRetries => simp at h
  obtain ⟨i, rfl⟩ := hirq
  simp only [step] at h
  split at h
  · simp at h
  · have hx := isr_tx i s.bus hi.inv hn
    have nn : ∀ {l : List Out}, (∀ o ∈ l, neutral o) → Out.finished true ∉ l := by
      intro l hl hm
      have := hl _ hm
      cases this
    simp only at h
    generalize isr i s.bus = r at *
    obtain ⟨c, outs⟩ := r
    simp only at hx h
    cases hx with
    | other h1 h2 h3 => exact absurd h (nn h2)
    | same h0 h1 h2 => rw [h2] at h; simp at h
    | char h0 t ht h1 h2 => rw [h2] at h; simp at h
    | begin t ht hx h1 h2 => rw [h2] at h; simp at h
    | done h0 hs h1 h2 => rw [h2] at h; simp at h
    | lost h0 p l h1 h2 hp hl =>
      rw [h2] at h
      simp only [List.mem_append, List.mem_cons, reduceCtorEq, false_or] at h
      rcases h with h | h
      · exact absurd h (nn hp)
      · exact absurd h (nn hl)
    | noAck h0 h1 h2 => exact absurd h (nn h2)
    | finish ok h0 h1 h2 h3 =>
      rw [h2] at h
      simp only [List.mem_singleton, Out.finished.injEq] at h
      obtain ⟨q1, q2, q3, q4, q5⟩ := h3 h.symm
      obtain ⟨pre, cs, hp⟩ := (ha q3).2 (Or.inr q1)
      obtain ⟨pre', cs', hp', hb, _, _, hlast⟩ := hr (Or.inr q1)
      have hcs : cs' = cs := by
        apply rxLog_unique (pre := pre') (pre' := old ++ pre ++ [.txEnd])
        rw [← hp', hp]
        simp
      subst hcs
      obtain ⟨_, cs2, hl2⟩ := hlast q1
      have hlen : cs'.length = 1 := by
        have := congrArg List.length hb
        rw [q2, bytes_length, List.length_take, List.length_map] at this
        have hm : maxTel = 23 := rfl
        rw [hm] at this
        omega
      have hcs2 : cs2 = [] := by
        have := congrArg List.length hl2
        rw [hlen, List.length_append, List.length_singleton] at this
        exact List.eq_nil_of_length_eq_zero (by omega)
      refine ⟨pre, ?_⟩
      rw [hp, hl2, hcs2, q4, q5]
      rfl

/-- Success is reported only if, immediately after a complete transmission of the telegram, exactly
one character was received, and that character was an ACK with correct parity. -/
theorem C14_success_acknowledged (es : List Ev) (e : Ev)
    (h : Out.finished true ∈ (step (run boot es).1 e).2) :
    ∃ pre, (run boot es).2 = pre ++ [.txEnd, .rxBegin, .rxChar 0xcc#8 true] :=
  success_acknowledged (old := []) (run_inv boot_inv es) (run_err boot es boot_err) (boot_ackLog es)
    (boot_log es) e h

/-- The transmission is complete after 77 silent timeouts. -/
def dSent : List Ev := dReady ++ [dSend, .kick] ++ dSilence 77

/-- The wait until an acknowledge may begin, then the ACK character. -/
def dAck : List Ev := [.irq dTimeout] ++ dChar 0xcc#8 (parityBit 0xcc#8)

example := C14_success_acknowledged (dSent ++ dAck) (.irq dTimeout) (by decide +kernel)

/-- The converse: if after a complete transmission the ACK character arrives (any capture times
within the tolerance of C10) and nothing else, then the telegram is completed with success. -/
theorem C14_ack_completes (es : List Ev) (e : Ev) (w i : Irq) (c : CharIrqs)
    (h : Out.txEnd ∈ (step (run boot es).1 e).2) (hw : w.spike = false)
    (hc : c.Of 0xcc#8 (parityBit 0xcc#8)) (hi : i.cap = false) :
    (run (step (run boot es).1 e).1 (.irq w :: c.events ++ [.irq i])).2 =
      [.rxBegin, .rxChar 0xcc#8 true, .finished true] := by
  have hinv := run_inv boot_inv es
  have hn := run_err boot es boot_err
  have hirq : ∃ j, e = .irq j := by
    cases e <;> simp only [step] at h
    case irq i => exact ⟨i, rfl⟩
    case queue => split at h <;> simp at h
    case kick => split at h <;> simp at h
    case discard => simp at h
    case pause => split at h <;> simp at h
    case resume => split at h <;> simp at h
    case maxRetries => simp at h
    case maxBusyRetries => simp at h
  obtain ⟨j, rfl⟩ := hirq
  -- the state after the transmission
  have hs1 : (step (run boot es).1 (.irq j)).1.paused = false ∧
      (step (run boot es).1 (.irq j)).1.bus.st = .ackWindow ∧
      (step (run boot es).1 (.irq j)).1.bus.waitForAck = true := by
    generalize (run boot es).1 = s at *
    simp only [step] at h ⊢
    cases hp : s.paused
    · rw [hp] at h
      simp only [Bool.false_eq_true, if_false] at h ⊢
      have hx := isr_tx j s.bus hinv.inv hn
      have nn : ∀ {l : List Out}, (∀ o ∈ l, neutral o) → Out.txEnd ∉ l := by
        intro l hl hm
        have := hl _ hm
        cases this
      generalize isr j s.bus = r at *
      obtain ⟨c, outs⟩ := r
      simp only at hx h ⊢
      refine ⟨trivial, ?_⟩
      cases hx with
      | other h1 h2 h3 => exact absurd h (nn h2)
      | same h0 h1 h2 => rw [h2] at h; simp at h
      | char h0 t ht h1 h2 => rw [h2] at h; simp at h
      | begin t ht hx h1 h2 => rw [h2] at h; simp at h
      | done h0 hs h1 h2 h3 => exact ⟨h3, (txF_eq h1).2.2.1⟩
      | lost h0 p l h1 h2 hp hl =>
        rw [h2] at h
        simp only [List.mem_append, List.mem_cons, reduceCtorEq, false_or] at h
        rcases h with h | h
        · exact absurd h (nn hp)
        · exact absurd h (nn hl)
      | noAck h0 h1 h2 => exact absurd h (nn h2)
      | finish ok h0 h1 h2 => rw [h2] at h; simp at h
    · rw [hp] at h
      simp at h
  have hrun : (step (run boot es).1 (.irq j)).1 = (run boot (es ++ [.irq j])).1 := by
    rw [run_append]
    rfl
  rw [hrun] at hs1 ⊢
  generalize es ++ [Ev.irq j] = es1 at *
  -- the window
  have hs2 : (step (run boot es1).1 (.irq w)).2 = [] ∧
      (step (run boot es1).1 (.irq w)).1.paused = false ∧
      (step (run boot es1).1 (.irq w)).1.bus.st = .waitAck ∧
      txF (step (run boot es1).1 (.irq w)).1.bus = txF (run boot es1).1.bus := by
    simp only [step, hs1.1, Bool.false_eq_true, if_false, isr_noSpike hw, dispatch, hs1.2.1]
    exact ⟨rfl, trivial, rfl, rfl⟩
  -- the character
  obtain ⟨r1, r2, r3, r4⟩ := recv_char hs2.2.1 (Or.inr (Or.inr (Or.inr hs2.2.2.1))) hc
  rw [if_neg (by rw [hs2.2.2.1]; simp)] at r1
  have hrun2 : (run (step (run boot es1).1 (.irq w)).1 c.events).1 =
      (run boot (es1 ++ .irq w :: c.events)).1 := by
    rw [run_append]
    rfl
  have hlog2 : (run boot (es1 ++ .irq w :: c.events)).2 =
      (run boot es1).2 ++ .rxBegin :: rxChars [(0xcc#8, true)] := by
    rw [run_append]
    simp only [run, hs2.1, r1]
    simp [rxChars]
  rw [hrun2] at r2 r3 r4
  have htx : txF (run boot (es1 ++ .irq w :: c.events)).1.bus = txF (run boot es1).1.bus :=
    (congrArg Prod.snd r4).trans hs2.2.2.2
  have hwait : (run boot (es1 ++ .irq w :: c.events)).1.bus.waitForAck = true :=
    (txF_eq htx).2.2.1.trans hs1.2.2
  have hinv2 := run_inv boot_inv (es1 ++ .irq w :: c.events)
  have hn2 := run_err boot (es1 ++ .irq w :: c.events) boot_err
  obtain ⟨pre, cs, q1, q2, _, _, q5⟩ := boot_log (es1 ++ .irq w :: c.events) (Or.inr r2)
  have hcs : cs = [(0xcc#8, true)] := rxLog_unique (q1.symm.trans hlog2)
  subst hcs
  obtain ⟨q6, cs2, q7⟩ := q5 r2
  have hidx : (run boot (es1 ++ .irq w :: c.events)).1.bus.nextByteIndex = 1 := by
    have := congrArg List.length q2
    rw [bytes_length] at this
    exact this
  have hlast := congrArg List.getLast? q7
  simp only [List.getLast?_append, List.getLast?_singleton, Option.some_or, Option.some.injEq,
    Prod.mk.injEq] at hlast
  have hcur : (run boot (es1 ++ .irq w :: c.events)).1.bus.currentByte = 204 := by
    have := congrArg BitVec.toNat hlast.1
    rw [BitVec.toNat_ofNat _ 8, BitVec.toNat_ofNat, Nat.mod_eq_of_lt (show (run boot (es1 ++ .irq w :: c.events)).1.bus.currentByte < 2 ^ 8 from q6)] at this
    exact this.symm
  have hfin : (step (run boot (es1 ++ .irq w :: c.events)).1 (.irq i)).2 = [.finished true] := by
    generalize (run boot (es1 ++ .irq w :: c.events)).1 = s at *
    simp only [step, r3, Bool.false_eq_true, if_false]
    have hx := isr_tx i s.bus hinv2.inv hn2
    have hns : ¬ SendNow s.bus := notSendNow (by rw [r2]; exact id)
    -- the end of the frame is handled
    have hisr : ∃ x, isr i s.bus = handleTelegram i ({ s.bus with
        tSet := none, mTime := 0xfffe, tInt := true, tReset := true, rxError := x } : Bus)
        (s.bus.valid && s.bus.checksum == 0#8) := by
      unfold isr
      rw [if_neg (by simp [isSpike, hi])]
      simp only [dispatch, r2, waitStart, hi, Bool.not_false, if_true]
      by_cases hz : s.bus.checksum = 0#8
      · simp only [hz, ne_eq, not_true_eq_false, if_false]
        exact ⟨s.bus.rxError, rfl⟩
      · simp only [hz, ne_eq, not_false_eq_true, if_true]
        exact ⟨_, rfl⟩
    obtain ⟨x, hisr⟩ := hisr
    rw [hisr]
    obtain ⟨b', hb'⟩ : ∃ b' : Bus, ({ s.bus with
        tSet := none, mTime := 0xfffe, tInt := true, tReset := true, rxError := x } : Bus) = b' :=
      ⟨_, rfl⟩
    have k1 : b'.waitForAck = true := by rw [← hb']; exact hwait
    have k2 : b'.nextByteIndex = 1 := by rw [← hb']; exact hidx
    have k3 : isAck b' = true := by
      rw [← hb']
      simp only [isAck, ← hlast.2, hcur]
      rfl
    have k4 : b'.txError &&& 128#16 = 0#16 := by rw [← hb']; exact hn2
    have k5 : b'.sendCur.isSome := by rw [← hb']; exact (hinv2.inv.waitSt hwait).2
    rw [hb']
    rcases handleTelegram_tx i b' (s.bus.valid && s.bus.checksum == 0#8) (fun _ => k5) with
      ⟨g, _⟩ | ⟨_, _, _, g⟩ | ⟨_, _, _, g, _⟩
    · rw [k1] at g; cases g
    · exact absurd ⟨k2, k3⟩ g
    · rw [g, k3, k4]; rfl
  rw [show (Ev.irq w :: c.events ++ [Ev.irq i]) = Ev.irq w :: (c.events ++ [Ev.irq i]) from rfl]
  rw [run, hs2.1, run_append, r1, hrun2, run, hfin]
  rfl

/-- The ACK character with early, exact and late edges. -/
def dAckIrqs : CharIrqs where
  start := dEdge 5
  edges := [dEdge 70, dEdge 208, dEdge 500, dEdge 660, dEdge 1000]
  fin := dTimeout

example := C14_ack_completes (dReady ++ [dSend, .kick] ++ dSilence 76) (.irq dTimeout) dTimeout
  dTimeout dAckIrqs (by decide +kernel) rfl
  (by
    refine ⟨rfl, rfl, ?_, rfl, rfl⟩
    show Captured (zeroSlots 0xcc#8 (parityBit 0xcc#8))
      [dEdge 70, dEdge 208, dEdge 500, dEdge 660, dEdge 1000]
    rw [show zeroSlots 0xcc#8 (parityBit 0xcc#8) = [1, 2, 5, 6, 9] by decide]
    simp [Captured, dEdge, dTimeout])
  rfl

/-! ## The number of transmissions, and what is transmitted -/

/-- A telegram accepted after the history `es`, and everything that happens until the next one is
accepted (`fs`; the retry limits are not changed meanwhile). -/
structure Sending1 (es : List Ev) (own : Word) (t : Buf) (len : Nat) (fs : List Ev) : Prop where
  free : (run boot es).1.bus.sendCur = none
  none : accepted (step (run boot es).1 (.queue own t len)).1 fs = 0
  fixed : ∀ e ∈ fs, isSetter e = false

/-- The log from the acceptance of the telegram on. -/
def logOf (es : List Ev) (own : Word) (t : Buf) (len : Nat) (fs : List Ev) : List Out :=
  (run (step (run boot es).1 (.queue own t len)).1 fs).2

theorem sending1 {es fs : List Ev} {own : Word} {t : Buf} {len : Nat}
    (h : Sending1 es own t len fs) :
    Round (prepareTelegram own t len) (run boot es).1.bus.sendRetriesMax
        (run boot es).1.bus.sendBusyRetriesMax (logOf es own t len fs)
        (run (step (run boot es).1 (.queue own t len)).1 fs).1.bus ∨
    Over (prepareTelegram own t len) (run boot es).1.bus.sendRetriesMax
        (run boot es).1.bus.sendBusyRetriesMax (logOf es own t len fs)
        (run (step (run boot es).1 (.queue own t len)).1 fs).1.bus := by
  have hi := run_inv boot_inv es
  have hn := run_err boot es boot_err
  have := round_run (step_inv hi (.queue own t len)) (step_err _ (.queue own t len) hn) fs h.fixed
    h.none (Or.inl (round_start hi own t len h.free))
  rw [List.nil_append] at this
  exact this

/-- With the retry limits `R` (for a missing or negative acknowledge) and `B` (for a busy receiver)
a telegram is transmitted at most `max 1 (R + B)` times, loses at most four times against
another sender, and is completed at most once. -/
theorem C14_bounded (es fs : List Ev) (own : Word) (t : Buf) (len : Nat)
    (h : Sending1 es own t len fs) :
    count .txEnd (logOf es own t len fs) ≤
      max 1 ((run boot es).1.bus.sendRetriesMax + (run boot es).1.bus.sendBusyRetriesMax) ∧
    count .collision (logOf es own t len fs) ≤ 4 ∧ completions (logOf es own t len fs) ≤ 1 := by
  rcases sending1 h with h' | h'
  · refine ⟨h'.ends, ?_, ?_⟩
    · rw [h'.coll]
      exact (run_inv (step_inv (run_inv boot_inv es) (.queue own t len)) fs).inv.coll
    · rw [h'.compl]; omega
  · exact ⟨h'.ends, h'.coll, Nat.le_of_eq h'.compl⟩

/-- `dUnanswered` split at the acceptance. -/
theorem dUnanswered_sending :
    Sending1 dReady 0x1101#16 (ofList [0xBC, 0, 0, 0x08, 0x01, 0xE1, 0x00, 0x81]) 8
      (.kick :: dSilence 400) :=
  ⟨by decide +kernel, by decide +kernel, by decide +kernel⟩

example := C14_bounded _ _ _ _ _ dUnanswered_sending

-- with the default limits of 3 a telegram that is never acknowledged is transmitted four times
example : count .txEnd (run boot dUnanswered).2 = 4 ∧
    (run boot dUnanswered).2.getLast? = some (.finished false) := by decide +kernel

/-- Every transmission that is brought to an end consists of exactly the characters of the frame:
the first time as it was accepted, afterwards marked as repeated. -/
theorem C14_frames (es fs : List Ev) (own : Word) (t : Buf) (len : Nat)
    (h : Sending1 es own t len fs) (pre post : List Out)
    (hl : logOf es own t len fs = pre ++ .txEnd :: post) :
    ∃ p, pre = p ++ .txBegin :: txChars
      (if count .txEnd p = 0 then frameOf (prepareTelegram own t len)
       else repeated (frameOf (prepareTelegram own t len))) := by
  have hp : (pre ++ [Out.txEnd]) <+: logOf es own t len fs := ⟨post, by rw [hl]; simp⟩
  rcases sending1 h with h' | h'
  · exact h'.frames pre hp
  · exact h'.frames pre hp

example : ∃ pre post, logOf dReady 0x1101#16 (ofList [0xBC, 0, 0, 0x08, 0x01, 0xE1, 0x00, 0x81]) 8
      (.kick :: dSilence 400) = pre ++ .txEnd :: post ∧ count .txEnd pre = 1 := by
  refine ⟨((run boot dUnanswered).2).take 21, ((run boot dUnanswered).2).drop 22, ?_, ?_⟩ <;>
    decide +kernel

/-- The repetition differs from the first transmission in the repeat flag and the check octet only,
and it is again a correct frame. -/
theorem C14_repetition (f : List Byte) (h2 : 2 ≤ f.length) (hf : ChecksumOk f) :
    RepetitionOf f (repeated f) ∧ ChecksumOk (repeated f) := by
  obtain ⟨x, l, rfl⟩ : ∃ x l, f = x :: l := by
    cases f with
    | nil => simp at h2
    | cons x l => exact ⟨x, l, rfl⟩
  obtain ⟨m, y, rfl⟩ : ∃ m y, l = m ++ [y] := by
    have hl : l ≠ [] := by rintro rfl; simp at h2
    exact ⟨l.dropLast, l.getLast hl, (List.dropLast_concat_getLast hl).symm⟩
  have h0 : at' (x :: (m ++ [y])) 0 = x := rfl
  have hlen : (x :: (m ++ [y])).length - 1 = m.length + 1 := by simp
  have hlast : at' (x :: (m ++ [y])) (m.length + 1) = y := by simp [at']
  have hx : x &&& 0x20#8 = 0#8 → x &&& 0xDF#8 = x := by
    clear h2 hf h0 hlen hlast; revert x; decide +kernel
  unfold repeated
  rw [h0]
  by_cases hz : x &&& 0x20#8 = 0#8
  · rw [if_pos hz]
    exact ⟨⟨rfl, by rw [h0, hx hz], fun _ _ _ => rfl⟩, hf⟩
  · rw [if_neg hz, hlen, hlast]
    have e : ((x :: (m ++ [y])).set 0 (x &&& 0xDF#8)).set (m.length + 1) (y ^^^ 0x20#8) =
        (x &&& 0xDF#8) :: (m ++ [y ^^^ 0x20#8]) := by
      simp
    rw [e]
    refine ⟨⟨by simp, rfl, ?_⟩, ?_⟩
    · intro j h1 h3
      obtain ⟨k, rfl⟩ : ∃ k, j = k + 1 := ⟨j - 1, by omega⟩
      simp only [List.length_cons, List.length_append, List.length_nil] at h3
      simp only [at', List.getD_cons_succ]
      simp only [List.getD, List.getElem?_append_left (show k < m.length by omega)]
    · have hxx : (x &&& 0xDF#8) = x ^^^ 0x20#8 := by
        clear h2 hf h0 hlen hlast e hx; revert x; decide +kernel
      unfold ChecksumOk at hf ⊢
      rw [xorAll_cons, xorAll_append] at hf ⊢
      rw [← hf, hxx]
      have e1 : xorAll [y ^^^ 0x20#8] = y ^^^ 0x20#8 := by simp [xorAll]
      have e2 : xorAll [y] = y := by simp [xorAll]
      rw [e1, e2]
      generalize xorAll m = a
      have : ∀ x y a d : Byte, (x ^^^ d) ^^^ (a ^^^ (y ^^^ d)) = x ^^^ (a ^^^ y) := by
        intro x y a d
        ext k hk
        simp only [BitVec.getElem_xor]
        cases x[k] <;> cases y[k] <;> cases a[k] <;> cases d[k] <;> rfl
      exact this x y a _

example : ChecksumOk dTel ∧ repeated dTel = dTelRep ∧ dTelRep ≠ dTel := by decide

/-- Failure is reported only when a retry limit is used up: after at least `1 + min R B`
transmissions, or four lost attempts. -/
theorem C14_no_early_failure (es fs : List Ev) (own : Word) (t : Buf) (len : Nat) (e : Ev)
    (h : Sending1 es own t len fs)
    (hf : Out.finished false ∈
      (step (run (step (run boot es).1 (.queue own t len)).1 fs).1 e).2) :
    1 + min (run boot es).1.bus.sendRetriesMax (run boot es).1.bus.sendBusyRetriesMax ≤
      count .txEnd (logOf es own t len fs) ∨
    count .collision (logOf es own t len fs) = 4 := by
  have hi0 := run_inv boot_inv es
  have hn0 := run_err boot es boot_err
  have hi := run_inv (step_inv hi0 (.queue own t len)) fs
  have hn := run_err _ fs (step_err _ (.queue own t len) hn0)
  have hround := sending1 h
  generalize logOf es own t len fs = log at *
  generalize (run (step (run boot es).1 (.queue own t len)).1 fs).1 = s at *
  generalize (run boot es).1.bus.sendRetriesMax = R at *
  generalize (run boot es).1.bus.sendBusyRetriesMax = B at *
  have hirq : ∃ j, e = .irq j := by
    cases e <;> simp only [step] at hf
    case irq i => exact ⟨i, rfl⟩
    case queue => split at hf <;> simp at hf
    case kick => split at hf <;> simp at hf
    case discard => simp at hf
    case pause => split at hf <;> simp at hf
    case resume => split at hf <;> simp at hf
    case maxRetries => simp at hf
    case maxBusyRetries => simp at hf
  obtain ⟨j, rfl⟩ := hirq
  simp only [step] at hf
  split at hf
  · simp at hf
  · have nn : ∀ {l : List Out}, (∀ o ∈ l, neutral o) → Out.finished false ∉ l := by
      intro l hl hm
      have := hl _ hm
      cases this
    simp only at hf
    rcases hround with hr | ho
    · have hx := isr_tx j s.bus hi.inv hn
      generalize isr j s.bus = r at *
      obtain ⟨c, outs⟩ := r
      simp only at hx hf
      cases hx with
      | other h1 h2 h3 => exact absurd hf (nn h2)
      | same h0 h1 h2 => rw [h2] at hf; simp at hf
      | char h0 t ht h1 h2 => rw [h2] at hf; simp at hf
      | begin t ht hx h1 h2 => rw [h2] at hf; simp at hf
      | done h0 hs h1 h2 h3 => rw [h2] at hf; simp at hf
      | lost h0 p l h1 h2 hp hl =>
        rw [h2] at hf
        simp only [List.mem_append, List.mem_cons, reduceCtorEq, false_or] at hf
        rcases hf with hf | hf
        · exact absurd hf (nn hp)
        · exact absurd hf (nn hl)
      | noAck h0 h1 h2 => exact absurd hf (nn h2)
      | finish ok h0 h1 h2 h3 h4 =>
        rw [h2] at hf
        simp only [List.mem_singleton, Out.finished.injEq] at hf
        have key : (s.bus.repeatTel = true ∨ s.bus.waitForAck = true) →
            (s.bus.sendRetriesMax ≤ s.bus.sendRetries ∨
              s.bus.sendBusyRetriesMax ≤ s.bus.sendBusyRetries) →
            1 + min R B ≤ count .txEnd log := by
          intro k1 k2
          rw [hr.lims.1, hr.lims.2] at k2
          have hpos : 1 ≤ count .txEnd log := by
            by_cases hz : count .txEnd log = 0
            · obtain ⟨z1, z2, _⟩ := hr.zero hz
              rw [z1, z2] at k1
              simp at k1
            · omega
          rw [(hr.pos hpos).2]
          omega
        rcases h4 hf.symm with ⟨g1, g2⟩ | ⟨g1, g2⟩
        · unfold retriesExhausted at g1
          simp only [Bool.or_eq_true, Bool.and_eq_true, decide_eq_true_eq] at g1
          rcases g1 with ⟨k1, k2⟩ | k
          · exact Or.inl (key (Or.inl k1) k2)
          · right
            rw [hr.coll]
            have hle := hi.inv.coll
            have : (3 : Nat) < s.bus.collisions.toNat := k
            omega
        · exact Or.inl (key (Or.inr g1) g2)
    · exact absurd hf (nn (quiet_isr j s.bus hi.inv hn ho.cur).1)

example := C14_no_early_failure dReady (.kick :: dSilence 322) 0x1101#16
  (ofList [0xBC, 0, 0, 0x08, 0x01, 0xE1, 0x00, 0x81]) 8 (.irq dTimeout)
  ⟨by decide +kernel, by decide +kernel, by decide +kernel⟩ (by decide +kernel)

/-- While no telegram is accepted, nothing is transmitted (apart from acknowledges) and nothing is
reported. -/
theorem C14_quiet (es fs : List Ev) (hfree : (run boot es).1.bus.sendCur = none)
    (hacc : accepted (run boot es).1 fs = 0) :
    ∀ o ∈ (run (run boot es).1 fs).2, o ≠ .txBegin ∧ o ≠ .txEnd ∧ ∀ ok, o ≠ .finished ok := by
  have hi := run_inv boot_inv es
  have hn := run_err boot es boot_err
  generalize (run boot es).1 = s at *
  suffices h : ∀ o ∈ (run s fs).2, neutral o by
    intro o ho
    have := h o ho
    refine ⟨?_, ?_, ?_⟩
    · rintro rfl; cases this
    · rintro rfl; cases this
    · rintro ok rfl; cases this
  induction fs generalizing s with
  | nil => simp [run]
  | cons e fs ih =>
    rw [accepted_cons] at hacc
    have hstep : (∀ o ∈ (step s e).2, neutral o) ∧ (step s e).1.bus.sendCur = none := by
      have h0 : accepted s [e] = 0 := by omega
      cases e <;> simp only [step]
      case irq i =>
        split
        · exact ⟨by simp, hfree⟩
        · exact quiet_isr i s.bus hi.inv hn hfree
      case queue => simp [accepted, hfree] at h0
      case kick => split <;> exact ⟨by simp, hfree⟩
      case discard => exact ⟨by simp, hfree⟩
      case pause => split <;> exact ⟨by simp, hfree⟩
      case resume => split <;> exact ⟨by simp, hfree⟩
      case maxRetries => exact ⟨by simp, hfree⟩
      case maxBusyRetries => exact ⟨by simp, hfree⟩
    intro o ho
    simp only [run] at ho
    rcases List.mem_append.1 ho with ho | ho
    · exact hstep.1 o ho
    · exact ih _ hstep.2 (by omega) (step_inv hi e) (step_err s e hn) o ho

example := C14_quiet dReceive (dFrame dTelRep) (by decide +kernel) (by decide +kernel)

/-! ## Completion -/

/-- A telegram for which `sendTelegram` has returned is completed: whatever has happened since
(`fs`), if the bus object is not paused and from now on there are only timeouts, then a completion
report follows after finitely many of them. -/
theorem C14_completes (es fs : List Ev) (own : Word) (t : Buf) (len : Nat)
    (h : Sending1 es own t len (.kick :: fs))
    (hp : (run (step (run boot es).1 (.queue own t len)).1 (.kick :: fs)).1.paused = false)
    (g : Nat → Irq) (hg : ∀ n, (g n).cap = false ∧ (g n).tmo = true) :
    ∃ n, completions
      (logOf es own t len (.kick :: fs ++ (List.range n).map fun k => .irq (g k))) = 1 := by
  have hi0 := run_inv boot_inv es
  have hn0 := run_err boot es boot_err
  have hi1 := step_inv hi0 (.queue own t len)
  have hn1 := step_err _ (.queue own t len) hn0
  have hi := run_inv hi1 (.kick :: fs)
  have hn := run_err _ (.kick :: fs) hn1
  have hmask : MaskInv (run (step (run boot es).1 (.queue own t len)).1 (.kick :: fs)).1.bus :=
    run_mask _ _ (step_mask _ _ (run_mask _ _ (fun hx => by cases hx)))
  have hacc := h.none
  rw [accepted_cons] at hacc
  have hawake : Awake (run (step (run boot es).1 (.queue own t len)).1 (.kick :: fs)).1 :=
    run_awake _ fs (step_inv hi1 .kick) (step_err _ .kick hn1) (by omega) (kick_awake _)
  have happ : ∀ gs, logOf es own t len (.kick :: fs ++ gs) = logOf es own t len (.kick :: fs) ++
      (run (run (step (run boot es).1 (.queue own t len)).1 (.kick :: fs)).1 gs).2 := by
    intro gs
    unfold logOf
    rw [run_append]
  rcases sending1 h with hr | ho
  · have hsome : (run (step (run boot es).1 (.queue own t len)).1
        (.kick :: fs)).1.bus.sendCur.isSome := by
      obtain ⟨t, ht, _⟩ := hr.cur
      rw [ht]; rfl
    obtain ⟨n, ok, hlast⟩ := silent_run hr hi hn hmask (hawake hsome) hp g
      (fun n => by simp [isTimeout, hg n])
    refine ⟨n, ?_⟩
    have hpos : 1 ≤ completions (logOf es own t len
        (.kick :: fs ++ (List.range n).map fun k => .irq (g k))) := by
      rw [happ, completions_append]
      have hm := List.mem_of_getLast? hlast
      have : 0 < completions (run (run (step (run boot es).1 (.queue own t len)).1
          (.kick :: fs)).1 ((List.range n).map fun k => .irq (g k))).2 := by
        unfold completions
        exact List.countP_pos_iff.2 ⟨_, hm, rfl⟩
      omega
    have hle := (C14_bounded es (.kick :: fs ++ (List.range n).map fun k => .irq (g k)) own t len
      ⟨h.free, by
        rw [accepted_append, h.none, Nat.zero_add]
        have : ∀ (s : Sys) (l : List Nat), accepted s (l.map fun k => .irq (g k)) = 0 := by
          intro s l
          induction l generalizing s with
          | nil => rfl
          | cons a l ih => simp only [List.map_cons, accepted, ih]
        exact this _ _,
       by
        intro e he
        rcases List.mem_append.1 he with he | he
        · exact h.fixed e he
        · obtain ⟨k, _, rfl⟩ := List.mem_map.1 he
          rfl⟩).2.2
    omega
  · exact ⟨0, by simpa using ho.compl⟩

example := C14_completes dReady (dSilence 90) 0x1101#16
  (ofList [0xBC, 0, 0, 0x08, 0x01, 0xE1, 0x00, 0x81]) 8
  ⟨by decide +kernel, by decide +kernel, by decide +kernel⟩ (by decide +kernel)
  (fun _ => dTimeout) (fun _ => ⟨rfl, rfl⟩)

end Verif.Bus
