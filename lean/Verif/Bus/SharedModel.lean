import Verif.Bus.Model

/-!
# The send buffer shared by the main program and the link layer

`Verif.Bus.Model` treats `sendTelegram` as one step that copies the telegram, and lets nothing happen
inside the completion report.  In the code there is one buffer (`TLayer4::sendTelegram`), the link layer
only keeps a pointer to it (`sendCurTelegram`), the main program fills the buffer byte by byte while
interrupts come in between, and the completion report, which runs inside the interrupt, may hand the
same buffer over again.  This file models exactly that:

* `TLayer4::acquireSendBuffer`, `sendPreparedTelegram`, `finishedSendingTelegram`
  (knx_tlayer4.cpp:580-625) and the release without sending (knx_tlayer4.cpp:641-651),
* `Bus::sendTelegram` and `prepareTelegram` (bus.cpp:180-235), one memory access at a time,
* the call of `finishedSendingTelegram` inside `Bus::finishSendingTelegram` (bus.cpp:533-542), inside
  the interrupt.

Simplifications: the main program is the only one that calls the functions above, apart from the
completion report (that is how the library uses them; its other interrupt handlers do not send); the
checksum loop of `prepareTelegram`, which only reads, is one step together with the store of the
result; what the main program writes between acquiring and sending is arbitrary.
-/

namespace Verif.Bus

open Verif.Knx

/-- `TLayer4::SendTelegramBufferState`, knx_tlayer4.h:312-317. -/
inductive BufState
  | free | acquired | sending
  deriving DecidableEq

/-- Where the main program is. -/
inductive Pc
  /-- elsewhere, or in the loop of `acquireSendBuffer`, knx_tlayer4.cpp:597 -/
  | away
  /-- it has read `TELEGRAM_FREE` there and has not yet stored `TELEGRAM_ACQUIRED` -/
  | found
  /-- it has the buffer and fills it -/
  | filling
  /-- `sendTelegram` was called with the length `len`, bus.cpp:206-208 -/
  | high (len : Nat)
  /-- the high byte of the own address is stored, knx_lpdu.h:129 -/
  | low (own : Word) (len : Nat)
  /-- the low byte is stored too, knx_lpdu.h:130 -/
  | sum (len : Nat)
  /-- in the loop of `sendTelegram`, bus.cpp:211 -/
  | spin
  /-- it has read a null pointer there and has not yet stored the pointer, bus.cpp:213 -/
  | point
  /-- the pointer is stored, the state is not yet tested, bus.cpp:229-234 -/
  | kick
  deriving DecidableEq

/-- Main program, transport layer and link layer. -/
structure Shared where
  /-- the link layer; its member `sendCur` is not used, see `cur` and `buf` -/
  bus : Bus
  /-- `Bus::paused` -/
  paused : Bool
  /-- `sendCurTelegram != nullptr` (it points to `buf` then), bus.h:251 -/
  cur : Bool
  /-- `TLayer4::sendTelegram`, knx_tlayer4.h:303 -/
  buf : Buf
  /-- `sendTelegramBufferState`, knx_tlayer4.h:319 -/
  bst : BufState
  /-- `conCtrlRepCount`, knx_tlayer4.h:294 (an `int8_t` that stays between 0 and 3) -/
  rep : Nat
  pc : Pc

/-- The link layer with what its pointer points to. -/
def Shared.view (s : Shared) : Bus := { s.bus with sendCur := if s.cur then some s.buf else none }

/-- The state after a part of the interrupt handler: it changes the buffer only through the pointer. -/
def Shared.back (s : Shared) (b : Bus) : Shared :=
  { s with bus := b, cur := b.sendCur.isSome, buf := b.sendCur.getD s.buf }

/-- `TLayer4::finishedSendingTelegram`, knx_tlayer4.cpp:605-625, called with `sendCurTelegram == nullptr`
inside the interrupt; the waiting loop of `sendTelegram` is not entered then, and the state is not IDLE,
so that `sendTelegram` (bus.cpp:206-235) only prepares the telegram and stores the pointer.
`TL4_MAX_REPETITION_COUNT` is 3 (knx_tlayer4.h:32). -/
def finishedSendingTelegram (own : Word) (ok : Bool) (s : Shared) : Shared :=
  let s1 := { s with bst := .free }
  if (s1.buf 6 &&& 0xc3#8) &&& 0x80#8 ≠ 0#8 then
    if ok = false ∧ s1.rep < 3 then
      { s1 with
        rep := s1.rep + 1, bst := .sending
        buf := prepareTelegram own s1.buf (telegramSize s1.buf), cur := true }
    else { s1 with rep := 0 }
  else s1

/-- The completion report in a log, if there is one. -/
def reported : List Out → Option Bool
  | [] => none
  | .finished ok :: _ => some ok
  | _ :: os => reported os

/-- The rest of WAIT_50BT_FOR_NEXT_RX_OR_PENDING_TX_OR_IDLE after the retry limit test,
bus.cpp:891-948. -/
def startPending (i : Irq) (b : Bus) : Res :=
  match b.sendCur with
  | some t =>
    let len := telegramSize t + 1
    let t1 := if b.repeatTel ∧ t 0 &&& 0x20#8 ≠ 0#8 then markRepeated t len else t
    let time := startDelay i b t1
    ({ b with
        sendTelegramLen := len, sendCur := some t1, mPwm := time, mTime := time + (bitPulseUs - 1)
        tInt := true, tReset := true, nextByteIndex := 0, txError := 0#16, st := .sendStart },
      [.txBegin])
  | none => (idleState b, [])

/-- The failure branch of WAIT_50BT up to the completion report, bus.cpp:883-889 (`tSet` is bookkeeping of
`Verif.Bus.Model`, cleared on entry of the handler). -/
def giveUp (b : Bus) : Bus :=
  (finishSendingTelegram { b with tSet := none, txError := b.txError ||| 128#16 }).1

/-- `sendCurTelegram = telegram`, bus.cpp:213. -/
def withTelegram (b : Bus) (t : Buf) : Bus := { b with sendCur := some t }

/-- `Bus::timerInterruptHandler`, bus.cpp:564-1348, with the call of `finishedSendingTelegram` in it
(bus.cpp:538).  There are two places from where it is reached.  In `handleTelegram` (bus.cpp:467) nothing
that is executed afterwards reads `sendCurTelegram`.  In WAIT_50BT (bus.cpp:888) the handler goes on at
bus.cpp:891 with the telegram handed over again, if any. -/
def isrS (i : Irq) (s : Shared) : Shared × List Out :=
  let r := isr i s.view
  match reported r.2 with
  | none => (s.back r.1, r.2)
  | some ok =>
    let u := finishedSendingTelegram i.own ok (s.back r.1)
    if u.cur = true ∧ s.view.st = .wait50 then
      let r2 := startPending i (withTelegram (giveUp s.view) u.buf)
      (u.back r2.1, r.2 ++ r2.2)
    else (u, r.2)

/-- What can happen. -/
inductive SEv
  /-- the timer interrupt -/
  | irq (i : Irq)
  /-- the main program reads `sendTelegramBufferState` in `acquireSendBuffer` -/
  | test
  /-- it stores `TELEGRAM_ACQUIRED` -/
  | take
  /-- it writes to the buffer it has acquired -/
  | poke (j : Nat) (v : Byte)
  /-- it gives the buffer back without sending, knx_tlayer4.cpp:650 -/
  | drop
  /-- it calls `sendPreparedTelegram`, knx_tlayer4.cpp:582-583 -/
  | send
  /-- it reads the own address and stores the high byte -/
  | high (own : Word)
  /-- it stores the low byte -/
  | low
  /-- it stores the check octet -/
  | sum
  /-- it reads `sendCurTelegram` in the waiting loop of `sendTelegram` -/
  | look
  /-- it stores the pointer -/
  | point
  /-- it tests the state of the link layer, with interrupts disabled -/
  | kick
  /-- `discardReceivedTelegram`, bus.h:302-305 -/
  | discard
  /-- one iteration of the loop of `pause`, bus.cpp:117-141 -/
  | pause (wait : Bool)
  /-- `resume`, bus.cpp:143-152 -/
  | resume
  /-- `maxSendRetries`, bus.h:282-285 -/
  | maxRetries (n : Nat)
  /-- `maxSendBusyRetries`, bus.h:287-290 -/
  | maxBusyRetries (n : Nat)

/-- The calls that do not concern the buffer, as steps of `Verif.Bus.Model`. -/
def Shared.call (s : Shared) (e : Ev) : Shared × List Out :=
  let r := step ⟨s.view, s.paused⟩ e
  ({ s.back r.1.bus with paused := r.1.paused }, r.2)

/-- One step.  A step of the main program that it is not about to do does nothing. -/
def stepS (s : Shared) : SEv → Shared × List Out
  | .irq i => if s.paused then (s, []) else isrS i s
  | .test => if s.pc = .away ∧ s.bst = .free then ({ s with pc := .found }, []) else (s, [])
  | .take => if s.pc = .found then ({ s with pc := .filling, bst := .acquired }, []) else (s, [])
  | .poke j v => if s.pc = .filling then ({ s with buf := upd s.buf j v }, []) else (s, [])
  | .drop => if s.pc = .filling then ({ s with pc := .away, bst := .free }, []) else (s, [])
  | .send =>
    if s.pc = .filling then ({ s with pc := .high (telegramSize s.buf), bst := .sending }, [])
    else (s, [])
  | .high own =>
    match s.pc with
    | .high len => ({ s with pc := .low own len, buf := upd s.buf 1 (highByte own) }, [])
    | _ => (s, [])
  | .low =>
    match s.pc with
    | .low own len => ({ s with pc := .sum len, buf := upd s.buf 2 (lowByte own) }, [])
    | _ => (s, [])
  | .sum =>
    match s.pc with
    | .sum len => ({ s with pc := .spin, buf := upd s.buf len (xorBytes s.buf len 0xff#8) }, [])
    | _ => (s, [])
  | .look => if s.pc = .spin ∧ s.cur = false then ({ s with pc := .point }, []) else (s, [])
  | .point => if s.pc = .point then ({ s with pc := .kick, cur := true }, []) else (s, [])
  | .kick =>
    if s.pc = .kick then ({ (s.call .kick).1 with pc := .away }, (s.call .kick).2) else (s, [])
  | .discard => s.call .discard
  | .pause wait => s.call (.pause wait)
  | .resume => s.call .resume
  | .maxRetries n => s.call (.maxRetries n)
  | .maxBusyRetries n => s.call (.maxBusyRetries n)

/-- A run: final state and log. -/
def runS : Shared → List SEv → Shared × List Out
  | s, [] => (s, [])
  | s, e :: es => ((runS (stepS s e).1 es).1, (stepS s e).2 ++ (runS (stepS s e).1 es).2)

/-- After start-up: `TLayer4::_begin`, knx_tlayer4.cpp:252, and `Bus::begin`. -/
def bootS : Shared := ⟨start, false, false, fun _ => 0#8, .free, 0, .away⟩

end Verif.Bus
