import Verif.Knx.Frame

/-!
# Model of the connection-oriented transport layer

`sblib/src/eib/knx_tlayer4.cpp`, `sblib/inc/sblib/eib/knx_tlayer4.h`.

Conventions and simplifications

* The application (the virtual functions `processApci`, `processBroadCastTelegram`,
  `processGroupAddressTelegram` of the subclass) is an arbitrary function `App σ`.
* `millis()` is the low 32 bits of an unbounded clock (`State.clock`, milliseconds); it is constant
  during one call.
* `acquireSendBuffer` busy-waits until the send-completion interrupt has freed the buffer
  (knx_tlayer4.cpp:597). A call that would have to wait is *not enabled* (`none`): the
  completion (`Op.txDone`) has to be scheduled first. This loses no behaviour, because the
  interrupt routine only touches `txState`, `conCtrlRep` and the frame on the wire, none of which is
  read before the wait.
* Debug output (`dump2`), `telegramCount` are not modelled.
* Reads and writes use constant indices 0..7 and `telegramSize ≤ 22`; buffers have 23 bytes.
-/

namespace Verif.TL4
open Knx

/-- `TL4State`, knx_tlayer4.h:49-54. -/
inductive Phase where
  | closed | openIdle | openWait
  deriving DecidableEq, Repr

/-- `SendTelegramBufferState`, knx_tlayer4.h:312-317. -/
inductive BufState where
  | free | acquired | sending
  deriving DecidableEq, Repr

/-- The subclass' virtual functions. -/
structure App (σ : Type) where
  /-- `processApci(apciCmd, telegram, telLength, sendBuffer)`: new application state, new contents of
  the response buffer and whether a response shall be sent. `apciCmd` is a function of the telegram. -/
  processApci : σ → Buf → Nat → Buf → σ × Buf × Bool
  /-- `processBroadCastTelegram`: may fill and send one telegram. -/
  broadcast : σ → Buf → Nat → σ × Option (Buf → Buf)
  /-- `processGroupAddressTelegram`: may fill and send one telegram. -/
  group : σ → Buf → Nat → σ × Option (Buf → Buf)

/-- Data members, knx_tlayer4.h:289-321 (initial values there and in `_begin`,
knx_tlayer4.cpp:240-265). `seqNoSend`/`seqNoRcv` are `int8_t` with values -1..15. -/
structure State (σ : Type) where
  phase : Phase := .closed
  connectedAddr : Word := 0
  seqNoSend : Int := -1
  seqNoRcv : Int := -1
  repCount : Nat := 0
  conCtrlRep : Nat := 0
  connectedTime : U32 := 0
  sentTime : U32 := 0
  ownAddr : Word
  txBuf : Buf := fun _ => 0
  conBuf1 : Buf := fun _ => 0
  conBuf2 : Buf := fun _ => 0
  tx : BufState := .free
  con1 : BufState := .free
  con2 : BufState := .free
  enabled : Bool := true
  disconnectCount : Word := 0
  repeatedAck : Word := 0
  /-- true time in milliseconds since power up -/
  clock : Nat
  app : σ

/-- What an observer on the bus and in the application sees. -/
inductive Out where
  /-- A connection-control telegram handed to the bus (`sendConControlTelegram`). -/
  | sentControl (frame : List Byte)
  /-- A connection-oriented data telegram handed to the bus (`sendPreparedConnectedTelegram`). -/
  | sentData (frame : List Byte)
  /-- The response to a connectionless telegram handed to the bus (`processDirectTelegram`). -/
  | sentIndividual (frame : List Byte)
  /-- Immediate repetition by `finishedSendingTelegram`. -/
  | resent (frame : List Byte)
  /-- A telegram another part of the BCU placed in the shared buffer and sent. -/
  | userSent (frame : List Byte)
  /-- `processApci` called for a numbered (connection-oriented) telegram. -/
  | apciConnected (telegram : Buf) (len : Nat)
  /-- `processApci` called for a connectionless telegram. -/
  | apciIndividual (telegram : Buf) (len : Nat)
  | broadcastCall (telegram : Buf) (len : Nat)
  | groupCall (telegram : Buf) (len : Nat)

abbrev Res (σ : Type) := Option (State σ × List Out)

variable {σ : Type}

/-- `millis()`. -/
def millis (s : State σ) : U32 := BitVec.ofNat 32 s.clock

/-- `elapsed(ref)`, sblib/src/timer.cpp (`millis() - ref`). -/
def elapsed (s : State σ) (ref : U32) : U32 := millis s - ref

/-- TPDU codes, knx_tpdu.h:33-39. -/
def T_CONNECT : Byte := 0x80#8
def T_DISCONNECT : Byte := 0x81#8
def T_ACK : Byte := 0xc2#8
def T_NACK : Byte := 0xc3#8

/-- `resetConnection`, knx_tlayer4.cpp:959-968. -/
def resetConnection (s : State σ) : State σ := { s with con1 := .free, con2 := .free }

/-- `acquireSendBuffer`, knx_tlayer4.cpp:593-603 (`none`: would busy-wait). -/
def acquire (s : State σ) : Option (State σ) :=
  if s.tx = .free then some { s with tx := .acquired } else none

/-- `sendPreparedTelegram`, knx_tlayer4.cpp:580-584. -/
def sendPrepared (mk : List Byte → Out) (s : State σ) : State σ × List Out :=
  ({ s with tx := .sending }, [mk (bytes s.txBuf (telegramSize s.txBuf))])

/-- The frame built by `sendConControlTelegram`, knx_tlayer4.cpp:555-563. -/
def conControlFrame (b : Buf) (cmd : Byte) (addr : Word) (seq : Int) : Buf :=
  let b := initLpdu b 0#8 false false
  let b := setDestinationAddress b addr
  let b := upd b 5 0x60#8
  let b := upd b 6 cmd
  if cmd &&& 0x40#8 ≠ 0#8 then setSequenceNumber b (BitVec.ofInt 8 seq) else b

/-- `sendConControlTelegram`, knx_tlayer4.cpp:551-578. -/
def sendConControl (s : State σ) (cmd : Byte) (addr : Word) (seq : Int) : Res σ :=
  (acquire s).map fun s => sendPrepared .sentControl { s with txBuf := conControlFrame s.txBuf cmd addr seq }

/-- `sendPreparedConnectedTelegram`, knx_tlayer4.cpp:586-591. -/
def sendPreparedConnected (s : State σ) : Res σ :=
  (acquire s).map fun s =>
    sendPrepared .sentData { s with txBuf := memcpy s.txBuf s.conBuf1 (telegramSize s.conBuf1) }

/-- `finishedSendingTelegram(successful)`, knx_tlayer4.cpp:605-625. Called by the bus interrupt when
the transmission of the buffer handed to `send` has ended; the bus never calls it otherwise, so the
call is not enabled unless the buffer is being sent. -/
def finishedSending (s : State σ) (successful : Bool) : Res σ :=
  if s.tx ≠ .sending then none else
  let s := { s with tx := .free }
  if (s.txBuf 6 &&& 0xc3#8) &&& 0x80#8 ≠ 0#8 then
    if !successful && decide (s.conCtrlRep < 3) then
      some (sendPrepared .resent { s with conCtrlRep := s.conCtrlRep + 1 })
    else some ({ s with conCtrlRep := 0 }, [])
  else some (s, [])

/-- `actionA01Connect`, knx_tlayer4.cpp:738-751. -/
def a01 (s : State σ) (address : Word) : State σ :=
  { resetConnection s with
    connectedAddr := address, seqNoSend := 0, seqNoRcv := 0, connectedTime := millis s,
    phase := .openIdle }

/-- Tail of `actionA02sendAckPduAndProcessApci`, knx_tlayer4.cpp:758-792 (after the T_ACK). -/
def a02Process (A : App σ) (s : State σ) (tel : Buf) (len : Nat) : State σ :=
  let s := { s with seqNoRcv := (s.seqNoRcv + 1) % 16, connectedTime := millis s }
  if s.con1 = .free then
    let r := A.processApci s.app tel len s.conBuf1
    if r.2.2 then
      { s with
        app := r.1, con1 := .acquired
        conBuf1 := setSequenceNumber
          (setDestinationAddress (initLpdu r.2.1 (priority tel) false false) s.connectedAddr)
          (BitVec.ofInt 8 s.seqNoSend) }
    else { s with app := r.1, con1 := .free, conBuf1 := r.2.1 }
  else
    let r := A.processApci s.app tel len s.conBuf2
    if r.2.2 then
      { s with
        app := r.1, con2 := .acquired
        conBuf2 := setSequenceNumber
          (setDestinationAddress (initLpdu r.2.1 (priority tel) false false) s.connectedAddr)
          (BitVec.ofInt 8 ((s.seqNoSend + 1) % 16)) }
    else { s with app := r.1, con2 := .free, conBuf2 := r.2.1 }

/-- `actionA02sendAckPduAndProcessApci`, knx_tlayer4.cpp:753-793. -/
def a02 (A : App σ) (s : State σ) (seqNo : Int) (tel : Buf) (len : Nat) : Res σ :=
  (sendConControl s T_ACK s.connectedAddr seqNo).map fun (s, o) =>
    (a02Process A s tel len, o ++ [.apciConnected tel len])

/-- `actionA03sendAckPduAgain`, knx_tlayer4.cpp:795-801. -/
def a03 (s : State σ) (seqNo : Int) : Res σ :=
  (sendConControl s T_ACK s.connectedAddr seqNo).map fun (s, o) =>
    ({ s with repeatedAck := s.repeatedAck + 1, connectedTime := millis s }, o)

/-- `actionA04SendNAck`, knx_tlayer4.cpp:803-808. -/
def a04 (s : State σ) (seqNo : Int) : Res σ :=
  (sendConControl s T_NACK s.connectedAddr seqNo).map fun (s, o) =>
    ({ s with connectedTime := millis s }, o)

/-- `actionA05DisconnectUser`, knx_tlayer4.cpp:810-817. -/
def a05 (s : State σ) : State σ := resetConnection { s with disconnectCount := s.disconnectCount + 1 }

/-- `actionA06DisconnectAndClose`, knx_tlayer4.cpp:819-828. -/
def a06 (s : State σ) : Res σ :=
  (sendConControl { s with disconnectCount := s.disconnectCount + 1, phase := .closed }
    T_DISCONNECT s.connectedAddr 0).map fun (s, o) => (resetConnection s, o)

/-- `actionA07SendDirectTelegram`, knx_tlayer4.cpp:830-869. -/
def a07 (s : State σ) : Res σ :=
  if s.phase = .closed then some (s, [])
  else if s.con1 ≠ .acquired then some (s, [])
  else
    (sendPreparedConnected { s with phase := .openWait, con1 := .sending }).map fun (s, o) =>
      ({ s with repCount := 0, sentTime := millis s, connectedTime := millis s }, o)

/-- `actionA08IncrementSequenceNumber`, knx_tlayer4.cpp:871-885. -/
def a08 (s : State σ) : State σ :=
  let s := { s with seqNoSend := (s.seqNoSend + 1) % 16, connectedTime := millis s, con1 := .free }
  if s.con2 ≠ .free then
    { s with conBuf1 := memcpy s.conBuf1 s.conBuf2 (telegramSize s.conBuf2), con1 := s.con2, con2 := .free }
  else s

/-- `actionA09RepeatMessage`, knx_tlayer4.cpp:887-898. -/
def a09 (s : State σ) : Res σ :=
  (sendPreparedConnected s).map fun (s, o) =>
    ({ s with repCount := s.repCount + 1, sentTime := millis s, connectedTime := millis s }, o)

/-- `actionA10Disconnect`, knx_tlayer4.cpp:900-907. -/
def a10 (s : State σ) (address : Word) : Res σ :=
  sendConControl { s with disconnectCount := s.disconnectCount + 1 } T_DISCONNECT address 0

/-- `processConControlConnectPDU`, knx_tlayer4.cpp:353-386. -/
def conConnect (s : State σ) (sender : Word) : Res σ :=
  match s.phase with
  | .closed => some (a01 s sender, [])
  | _ => if s.connectedAddr = sender then some (s, []) else a10 s sender

/-- `processConControlDisconnectPDU`, knx_tlayer4.cpp:388-421. -/
def conDisconnect (s : State σ) (sender : Word) : Res σ :=
  match s.phase with
  | .closed => some (s, [])
  | _ => if sender = s.connectedAddr then some (a05 { s with phase := .closed }, []) else some (s, [])

/-- `processConControlAcknowledgmentPDU`, knx_tlayer4.cpp:423-549. The test
`!(tpci & T_ACKNOWLEDGE_Msk)` with mask 0xC2 is part of the model. -/
def conAck (s : State σ) (sender : Word) (tpci : Byte) (tel : Buf) : Res σ :=
  if tpci &&& 0xC2#8 = 0#8 then some (s, [])
  else
    let curSeqNo : Int := (sequenceNumber tel).toNat
    if tpci &&& 0x01#8 = 0#8 then
      if s.phase = .closed ∨ s.phase = .openIdle then some (s, [])
      else if s.connectedAddr ≠ sender then some (s, [])
      else if curSeqNo ≠ s.seqNoSend then a06 s
      else some ({ a08 s with phase := .openIdle }, [])
    else
      if s.phase = .closed ∨ curSeqNo ≠ s.seqNoSend ∨ s.connectedAddr ≠ sender then some (s, [])
      else if s.repCount < 3 ∧ s.phase = .openWait then a09 s
      else a06 s

/-- `processConControlTelegram`, knx_tlayer4.cpp:313-351. -/
def conControl (s : State σ) (sender : Word) (tpci : Byte) (tel : Buf) : Res σ :=
  if tpci = T_CONNECT then conConnect s sender
  else if tpci = T_DISCONNECT then conDisconnect s sender
  else conAck s sender tpci tel

/-- `processDirectTelegram`, knx_tlayer4.cpp:627-717. `seqNo` is a `uint8_t`, compared with the
`int8_t` `seqNoRcv` as `int`. -/
def direct (A : App σ) (s : State σ) (tel : Buf) (len : Nat) : Res σ :=
  let sender := senderAddress tel
  if tel 6 &&& 0xfc#8 = 0#8 then
    (acquire s).map fun s =>
      let b := setDestinationAddress (initLpdu s.txBuf (priority tel) false false) sender
      let r := A.processApci s.app tel len b
      let s := { s with app := r.1, txBuf := r.2.1 }
      if r.2.2 then
        let (s, o) := sendPrepared .sentIndividual s
        (s, [.apciIndividual tel len] ++ o)
      else ({ s with tx := .free }, [.apciIndividual tel len])
  else
    let seqNo : Int := (sequenceNumber tel).toNat
    if s.connectedAddr ≠ sender ∨ s.phase = .closed then some (s, [])
    else if seqNo = s.seqNoRcv then a02 A s seqNo tel len
    else if seqNo = (s.seqNoRcv - 1) % 16 then a03 s seqNo
    else a04 s seqNo

/-- Sending done by other parts of the BCU through `acquireSendBuffer`/`sendPreparedTelegram`
(bcu_base.cpp:144-153, com_objects.cpp:355-395). -/
def userSend (s : State σ) (fill : Buf → Buf) : Res σ :=
  (acquire s).map fun s => sendPrepared .userSent { s with txBuf := fill s.txBuf }

/-- Runs a subclass callback that may send one telegram. -/
def callback (s : State σ) (r : σ × Option (Buf → Buf)) (ev : Out) : Res σ :=
  let s := { s with app := r.1 }
  match r.2 with
  | none => some (s, [ev])
  | some f => (userSend s f).map fun (s, o) => (s, [ev] ++ o)

/-- `processTelegram` / `processTelegramInternal`, knx_tlayer4.cpp:267-311. -/
def processTelegram (A : App σ) (s : State σ) (tel : Buf) (len : Nat) : Res σ :=
  let dest := destinationAddress tel
  if dest = 0#16 then callback s (A.broadcast s.app tel len) (.broadcastCall tel len)
  else if tel 5 &&& 0x80#8 ≠ 0#8 then callback s (A.group s.app tel len) (.groupCall tel len)
  else if dest ≠ s.ownAddr then some (s, [])
  else
    let tpci := tel 6 &&& 0xc3#8
    if tpci &&& 0x80#8 ≠ 0#8 then conControl s (senderAddress tel) tpci tel
    else direct A s tel len

/-- First `if` of `loop`: connection timeout, knx_tlayer4.cpp:919-925. -/
def loopTimeout (s : State σ) : Res σ :=
  if s.phase ≠ .closed ∧ 6000 ≤ (elapsed s s.connectedTime).toNat then a06 s else some (s, [])

/-- Second `if` of `loop`: send a pending response, knx_tlayer4.cpp:927-932. -/
def loopSend (s : State σ) : Res σ :=
  if s.phase = .openIdle ∧ s.con1 = .acquired then a07 s else some (s, [])

/-- Third `if` of `loop`: acknowledge timeout, knx_tlayer4.cpp:934-956. -/
def loopRepeat (s : State σ) : Res σ :=
  if s.phase = .openWait ∧ 3000 ≤ (elapsed s s.sentTime).toNat then
    if s.repCount < 3 then a09 s else a06 s
  else some (s, [])

/-- Sequencing of two parts of one call. -/
def andThen (r : Res σ) (f : State σ → Res σ) : Res σ :=
  r.bind fun (s, o) => (f s).map fun (s', o') => (s', o ++ o')

/-- `TLayer4::loop`, knx_tlayer4.cpp:909-957. -/
def loop (s : State σ) : Res σ :=
  if !s.enabled then some (s, [])
  else if s.tx ≠ .free then some (s, [])
  else andThen (andThen (loopTimeout s) loopSend) loopRepeat

/-- `_begin`, knx_tlayer4.cpp:240-265 (`repCount`, `conCtrlRepCount` and `sentTelegramTime` are not
reset there). -/
def begin_ (s : State σ) : State σ :=
  { s with
    phase := .closed, tx := .free, con1 := .free, con2 := .free, connectedAddr := 0,
    seqNoSend := -1, seqNoRcv := -1, connectedTime := 0, enabled := true,
    disconnectCount := 0, repeatedAck := 0 }

/-- Everything that can happen to the transport layer. -/
inductive Op where
  | rx (tel : Buf) (len : Nat)
  | loop
  | txDone (ok : Bool)
  | userSend (fill : Buf → Buf)
  /-- `disconnect()`, knx_tlayer4.cpp:728-731 -/
  | disconnect
  | setOwnAddress (a : Word)
  /-- time passes -/
  | advance (ms : Nat)

/-- One operation; `none` means the caller is (still) waiting for the send buffer. -/
def exec (A : App σ) (s : State σ) : Op → Res σ
  | .rx tel len => processTelegram A s tel len
  | .loop => loop s
  | .txDone ok => finishedSending s ok
  | .userSend f => userSend s f
  | .disconnect => a06 s
  | .setOwnAddress a => some ({ s with ownAddr := a }, [])
  | .advance ms => some ({ s with clock := s.clock + ms }, [])

/-- A step of the scheduler: an operation that is not enabled is delayed (nothing happens yet). -/
def step (A : App σ) (s : State σ) (op : Op) : State σ × List Out := (exec A s op).getD (s, [])

/-- Execution of a history of operations, collecting the outputs. -/
def run (A : App σ) : State σ → List Op → State σ × List Out
  | s, [] => (s, [])
  | s, op :: ops =>
    let r := step A s op
    let r' := run A r.1 ops
    (r'.1, r.2 ++ r'.2)

/-- State after power-up and `_begin`. -/
def init (own : Word) (clock : Nat) (app : σ) : State σ := { ownAddr := own, clock := clock, app := app }

/-- Reachable states. -/
def Reachable (A : App σ) (s : State σ) : Prop :=
  ∃ own clock app ops, s = (run A (init own clock app) ops).1

end Verif.TL4
