import Verif.Knx.Frame

/-!
# The link layer: `sblib/src/eib/bus.cpp`

The state machine of `Bus::timerInterruptHandler` (bus.cpp:564-1348) together with
`prepareTelegram`, `sendTelegram`, `handleTelegram`, `finishSendingTelegram`,
`encounteredCollision`, `initState`, `idleState`, `pause`, `resume`, `begin` and the inline
accessors of bus.h.  The BUSMONITOR, DUMP_TELEGRAMS and DEBUG_BUS variants are not modelled.

What an interrupt sees is in `Irq`: the two timer flags, the captured timer value, the current
timer value, `millis()`, the reading of the receive pin (spike filter) and the parts of the BCU
the handler queries.  All of these are arbitrary in every interrupt.  Simplification: the flags
are sampled once at entry, while the hardware could set one while the handler runs.

The list of `Out` values is a log of what happens on the line and at the interface to the upper
layer.  The handler has no such log (except `finished`, which is the call of
`bcu->finishedSendingTelegram`, and `deliver`, which is the store to `telegram[]`/`telegramLen`);
it never reads it.

Simplification: `sendTelegram` is one step that copies the telegram, and nothing is handed over inside the
completion report.  `Verif.Bus.SharedModel` models both as the code has them, and C104 proves that this
shows no other behaviour.
-/

namespace Verif.Bus

open Verif.Knx

/-! ## Constants, bus_const.h:20-141 -/

/-- `BIT_TIME`, bus_const.h:100. -/
abbrev bitTimeUs : Nat := 104
/-- `BIT_TIMES_DELAY(x)`, bus_const.h:102. -/
abbrev delayBits (x : Nat) : Nat := (x * 1000000 + 4800) / 9600
/-- `BIT_WAIT_TIME`, bus_const.h:111: `(104 * 4 + 3) / 6 = 69`. -/
abbrev bitWaitUs : Nat := 69
/-- `BIT_PULSE_TIME`, bus_const.h:112. -/
abbrev bitPulseUs : Nat := 35
/-- `PRE_SEND_TIME`, bus_const.h:141. -/
abbrev preSend : Nat := delayBits 1
/-- `SEND_WAIT_TIME`, bus_const.h:134. -/
abbrev sendWait : Nat := delayBits 50
/-- `MAX_INTER_CHAR_TIME`, bus_const.h:121. -/
abbrev maxInterChar : Nat := 2 * bitTimeUs + 30
/-- `ACK_WAIT_TIME_MIN`, bus_const.h:129. -/
abbrev ackWaitMin : Nat := delayBits 15 - 5 - 100
/-- `ACK_WAIT_TIME_MAX`, bus_const.h:130. -/
abbrev ackWaitMax : Nat := delayBits 15 + 30 + 100
/-- `SB_BUS_ACK`, bus_const.h:22. -/
abbrev ackByte : Byte := 0xcc#8
/-- `SB_BUS_NACK`, bus_const.h:23. -/
abbrev nackByte : Byte := 0x0c#8
/-- `SB_BUS_BUSY`, bus_const.h:24. -/
abbrev busyByte : Byte := 0xc0#8
/-- `SB_BUS_NACK_BUSY`, bus_const.h:25. -/
abbrev nackBusyByte : Byte := 0x00#8
/-- `COLLISION_RETRY_MAX`, bus_const.h:92. -/
abbrev collisionMax : Nat := 3
/-- `BcuBase::maxTelegramSize()`, bcu_base.cpp:166-169. -/
abbrev maxTel : Nat := 23

/-- `a - b` on `unsigned int`. -/
def usub (a b : Nat) : Nat := if b ≤ a then a - b else 2 ^ 32 + a - b

/-! ## State -/

/-- `Bus::State`, bus.h:222-239. -/
inductive St
  | init | idle | initRx | waitStart | recvBits | waitAckTx | wait50
  | sendStart | sendBit0 | sendBits | sendEndByte | sendEndTx | ackWindow | waitAck
  deriving DecidableEq, Repr

/-- The log of the link layer (see the header of this file). -/
inductive Out
  /-- reception of a new frame begins -/
  | rxBegin
  /-- a character was received; `ok` is its parity check -/
  | rxChar (b : Byte) (ok : Bool)
  /-- a telegram of `n` bytes was stored for the upper layer -/
  | deliver (frame : List Byte)
  /-- a transmission of the queued telegram begins -/
  | txBegin
  /-- the character `b` (with the parity bit `p`) is put on the line -/
  | txChar (b : Byte) (p : Bool)
  /-- the last character of the queued telegram has been transmitted -/
  | txEnd
  /-- the transmission of the queued telegram was lost to another sender -/
  | collision
  /-- the transmission of an acknowledge frame begins -/
  | ackBegin
  /-- the acknowledge frame has been transmitted -/
  | ackEnd
  /-- the upper layer is told that the queued telegram is done -/
  | finished (ok : Bool)
  deriving DecidableEq, Repr

/-- Members of `Bus`, bus.h:137-146, 213-264, and the timer registers it uses.

`currentByte`, `bitMask` are `int` in the code and never negative; `sendRetriesMax` and
`sendBusyRetriesMax` are `int`s for which a negative value behaves like 0; `checksum` is an `int`
that only ever holds values of the exclusive or of bytes. -/
structure Bus where
  st : St
  /-- match register of the time channel -/
  mTime : Nat
  /-- match register of the PWM channel (falling edge of the pulse we send) -/
  mPwm : Nat
  /-- match mode of the time channel has INTERRUPT -/
  tInt : Bool
  /-- match mode of the time channel has RESET -/
  tReset : Bool
  /-- capture mode has INTERRUPT -/
  capInt : Bool
  /-- value written to the timer counter by the last handler run, if any -/
  tSet : Option Nat
  sendRetries : Nat
  sendRetriesMax : Nat
  sendBusyRetries : Nat
  sendBusyRetriesMax : Nat
  sendAck : Byte
  nextByteIndex : Nat
  currentByte : Nat
  sendTelegramLen : Nat
  /-- `sendCurTelegram`: the buffer it points to, `none` for `nullptr` -/
  sendCur : Option Buf
  /-- `rx_telegram` -/
  rx : Buf
  /-- `telegram` -/
  telegram : Buf
  telegramLen : Nat
  bitMask : Nat
  bitTime : Int
  parity : Bool
  valid : Bool
  checksum : Byte
  rxError : Word
  txError : Word
  waitForAck : Bool
  busyWait : Bool
  repeatTel : Bool
  collisions : Byte

/-- What one run of the handler reads from outside. -/
structure Irq where
  /-- capture flag: a falling edge on the bus -/
  cap : Bool
  /-- time channel flag: timeout -/
  tmo : Bool
  /-- captured timer value -/
  capVal : Nat
  /-- timer value while the handler runs -/
  now : Nat
  /-- the receive pin read high during the spike filter -/
  spike : Bool
  /-- `millis()` -/
  millis : U32
  /-- `bcu->ownAddress()` -/
  own : Word
  /-- `bcu->addrTables != nullptr && bcu->addrTables->indexOfAddr(a) >= 0` -/
  known : Word → Bool
  /-- `userRam->status() & BCU_STATUS_TRANSPORT_LAYER` -/
  tlEnabled : Bool
  /-- `userRam->status() & BCU_STATUS_LINK_LAYER` -/
  llEnabled : Bool

/-- Result of a handler part: new state and log. -/
abbrev Res := Bus × List Out

/-! ## Small helpers of the state machine -/

/-- `Bus::initState`, bus.cpp:237-270. -/
def initState (b : Bus) : Bus :=
  { b with
    capInt := true, tInt := true, tReset := false, tSet := some 0
    mTime := delayBits 2 + delayBits 40, mPwm := 0xffff, st := .init, sendAck := 0#8 }

/-- `Bus::idleState`, bus.cpp:272-283. -/
def idleState (b : Bus) : Bus :=
  { b with
    capInt := true, tInt := false, tReset := true, mTime := 0xfffe, mPwm := 0xffff, st := .idle }

/-- `Bus::startSendingImmediately`, bus.cpp:285-291. -/
def startSendingImmediately (b : Bus) : Bus :=
  { b with st := .wait50, tSet := some 0, mTime := 1, tInt := true, tReset := true }

/-- `Bus::prepareForSending`, bus.cpp:293-304. -/
def prepareForSending (b : Bus) : Bus :=
  { b with
    txError := 0#16, collisions := 0#8, sendRetries := 0, sendBusyRetries := 0
    sendTelegramLen := 0, waitForAck := false, repeatTel := false, busyWait := false }

/-- `Bus::finishSendingTelegram`, bus.cpp:533-542 (`TX_RETRY_ERROR` is 128). -/
def finishSendingTelegram (b : Bus) : Res :=
  match b.sendCur with
  | some _ =>
    (prepareForSending { b with sendCur := none }, [.finished (b.txError &&& 128#16 == 0#16)])
  | none => (prepareForSending b, [])

/-- `Bus::encounteredCollision`, bus.cpp:547-556 (`TX_COLLISION_ERROR` is 64). -/
def encounteredCollision (b : Bus) : Res :=
  if b.sendAck = 0#8 then
    ({ b with collisions := b.collisions + 1#8, txError := b.txError ||| 64#16 }, [.collision])
  else (b, [])

/-! ## `handleTelegram` -/

/-- Destination address of the received frame, bus.cpp:378. -/
def rxDest (b : Bus) : Word := makeWord (b.rx 3) (b.rx 4)

/-- The test of bus.cpp:375-376 (`valid` already includes the checksum test). -/
def isDataFrame (b : Bus) (valid : Bool) : Bool :=
  decide (8 ≤ b.nextByteIndex) && valid && (b.rx 0 &&& 0xD3#8 == 0x90#8)
    && decide (b.nextByteIndex ≤ maxTel)

/-- `processTel`, bus.cpp:379-393. -/
def forUs (i : Irq) (b : Bus) : Bool :=
  (if b.rx 5 &&& 0x80#8 ≠ 0#8 then rxDest b == 0#16 || i.known (rxDest b)
   else rxDest b == i.own)
  || !i.tlEnabled

/-- The comparison loop of bus.cpp:406: all bytes `i .. n-2` equal. -/
def sameBytes (a b : Buf) (n : Nat) : Bool :=
  (List.range (n - 1)).all fun j => j == 0 || a j == b j

/-- `already_received`, bus.cpp:400-411. -/
def alreadyReceived (b : Bus) : Bool :=
  (b.rx 0 &&& 0x20#8 == 0#8) && (b.rx 0 &&& 0xDF#8 == b.telegram 0 &&& 0xDF#8)
    && sameBytes b.rx b.telegram b.nextByteIndex

/-- `telegram[i] = rx_telegram[i]` for `i < nextByteIndex`, bus.cpp:428. -/
def takeTelegram (b : Bus) : Bus :=
  { b with
    telegram := memcpy b.telegram b.rx b.nextByteIndex, telegramLen := b.nextByteIndex
    rxError := 0#16 }

/-- The processing of a data frame that is for us, bus.cpp:398-448.  The last component is the
wait time; `suppressAck` is bus.cpp:434-441 (`rx_telegram[0] & SB_TEL_DATA_FRAME_FLAG`). -/
def processDataFrame (i : Irq) (b : Bus) (time : Nat) : Bus × List Out × Nat :=
  let r : Bus × List Out :=
    if b.telegramLen ≠ 0 then
      ({ b with sendAck := 0#8, rxError := b.rxError ||| 64#16 }, [])
    else if alreadyReceived b then ({ b with sendAck := ackByte }, [])
    else (takeTelegram { b with sendAck := ackByte }, [.deliver (bytes b.rx b.nextByteIndex)])
  let suppress : Bool := !i.llEnabled || (b.rx 0 &&& 0x40#8 != 0#8)
  let b2 : Bus := if suppress then { r.1 with sendAck := 0#8 } else r.1
  if b2.sendAck ≠ 0#8 then ({ b2 with st := .waitAckTx }, r.2, delayBits 15 - preSend)
  else (b2, r.2, time)

/-- The processing of a single character while we wait for an acknowledge, bus.cpp:451-483
(`RX_CHECKSUM_ERROR` 16, `TX_NACK_ERROR` 4, `TX_REMOTE_BUSY_ERROR` 16). -/
def processAck (b : Bus) (time : Nat) : Bus × List Out × Nat :=
  let b1 : Bus := { b with waitForAck := false, rxError := b.rxError &&& ~~~16#16 }
  let isAck : Bool := b1.parity && b1.currentByte == ackByte.toNat
  if isAck || decide (b1.sendRetriesMax ≤ b1.sendRetries)
      || decide (b1.sendBusyRetriesMax ≤ b1.sendBusyRetries) then
    let b2 : Bus := if isAck then b1 else { b1 with txError := b1.txError ||| 128#16 }
    let r := finishSendingTelegram b2
    (r.1, r.2, time)
  else if b1.parity && (b1.currentByte == busyByte.toNat || b1.currentByte == nackBusyByte.toNat)
  then
    ({ b1 with txError := b1.txError ||| 16#16, busyWait := true, repeatTel := true }, [],
      delayBits 150 - preSend)
  else
    ({ b1 with txError := b1.txError ||| 4#16, busyWait := false, repeatTel := true }, [], time)

/-- Anything else, bus.cpp:484-500 (`RX_INVALID_TELEGRAM_ERROR` 128). -/
def processOther (b : Bus) : Bus :=
  if b.nextByteIndex = 1 ∧ (b.currentByte = ackByte.toNat ∨ b.currentByte = nackByte.toNat
      ∨ b.currentByte = busyByte.toNat ∨ b.currentByte = nackBusyByte.toNat) then
    { b with rxError := (b.rxError &&& ~~~128#16) &&& ~~~16#16 }
  else { b with rxError := b.rxError ||| 128#16 }

/-- `Bus::handleTelegram(valid)`, bus.cpp:343-526. -/
def handleTelegram (i : Irq) (b : Bus) (valid : Bool) : Res :=
  let b1 : Bus := { b with sendAck := 0#8, st := .wait50 }
  let time : Nat := sendWait - preSend
  let r : Bus × List Out × Nat :=
    if isDataFrame b1 valid then
      if forUs i b1 then processDataFrame i b1 time else (b1, [], time)
    else if b1.nextByteIndex = 1 ∧ b1.waitForAck then processAck b1 time
    else (processOther b1, [], time)
  let b2 : Bus :=
    if r.1.waitForAck then { r.1 with repeatTel := true, waitForAck := false } else r.1
  ({ b2 with capInt := true, mTime := r.2.2 - 1 }, r.2.1)

/-! ## Receiving states -/

/-- What the bit decoder keeps: `bitTime`, `bitMask`, `currentByte`, `parity`. -/
structure Scan where
  bitTime : Int
  mask : Nat
  cur : Nat
  parity : Bool
  deriving DecidableEq, Repr

/-- The loop that adds high bits, bus.cpp:753-759.  `fuel` bounds the number of iterations; the
value passed by `rxBits` is large enough for every input (`CharLemmas.lean`, `scanHigh_stop`). -/
def scanHigh : Nat → Int → Scan → Scan
  | 0, _, s => s
  | fuel + 1, time, s =>
    if s.bitTime + bitWaitUs ≤ time ∧ s.mask ≤ 0x100 then
      scanHigh fuel time
        { bitTime := s.bitTime + bitTimeUs, mask := s.mask <<< 1, cur := s.cur ||| s.mask,
          parity := !s.parity }
    else s

/-- Number of iterations sufficient for `scanHigh`. -/
def scanFuel (time bitTime : Int) : Nat := (time - bitTime).toNat / bitTimeUs + 1

/-- The decoding part of RECV_BITS_OF_BYTE, bus.cpp:749-775 (the timing error flags aside). -/
def scanEdge (time : Int) (s : Scan) : Scan :=
  if s.bitTime + bitTimeUs - 35 ≤ time then
    let s1 : Scan := { s with bitTime := s.bitTime + bitTimeUs }
    let s2 := scanHigh (scanFuel time s1.bitTime) time s1
    { s2 with mask := s2.mask <<< 1 }
  else s

/-- The timing error test of bus.cpp:761-765, 770-775 (`RX_TIMING_ERROR_SPIKE`). -/
def scanBad (time : Int) (s : Scan) : Bool :=
  if s.bitTime + bitTimeUs - 35 ≤ time then
    let s1 : Scan := { s with bitTime := s.bitTime + bitTimeUs }
    let s2 := scanHigh (scanFuel time s1.bitTime) time s1
    decide (s2.bitTime + 33 < time) && decide (s2.mask ≤ 0x100)
  else true

/-- The decoder part of the state. -/
def scanOf (b : Bus) : Scan := ⟨b.bitTime, b.bitMask, b.currentByte, b.parity⟩

/-- The end of a character, bus.cpp:781-812. -/
def endOfChar (b : Bus) : Res :=
  let c : Nat := b.currentByte &&& 0xff
  let b1 : Bus := { b with
    currentByte := c
    rxError := if b.nextByteIndex = 0 ∧ c &&& 3 ≠ 0 then b.rxError ||| 256#16 else b.rxError }
  let cb : Byte := BitVec.ofNat 8 c
  let b2 : Bus :=
    if b1.nextByteIndex < maxTel then
      { b1 with
        rx := upd b1.rx b1.nextByteIndex cb, nextByteIndex := b1.nextByteIndex + 1
        checksum := b1.checksum ^^^ cb }
    else { b1 with rxError := b1.rxError ||| 32#16 }
  ({ b2 with
      rxError := if b2.parity then b2.rxError else b2.rxError ||| 8#16
      valid := b2.valid && b2.parity
      st := .waitStart, mTime := maxInterChar - 1, tInt := true, tReset := false, capInt := true },
    [.rxChar cb b.parity])

/-- State RECV_BITS_OF_BYTE, bus.cpp:734-816. -/
def recvBits (i : Irq) (b : Bus) : Res :=
  let time : Int := if i.tmo then (b.mTime : Int) + 1 else i.capVal
  let s := scanEdge time (scanOf b)
  let b1 : Bus := { b with
    bitTime := s.bitTime, bitMask := s.mask, currentByte := s.cur, parity := s.parity
    rxError := if scanBad time (scanOf b) then b.rxError ||| 4#16 else b.rxError }
  if i.tmo then endOfChar b1
  else if time > 10 * bitTimeUs then ({ b1 with rxError := b1.rxError ||| 1#16 }, [])
  else (b1, [])

/-- State RECV_WAIT_FOR_STARTBIT_OR_TELEND, bus.cpp:677-728. -/
def waitStart (i : Irq) (b : Bus) : Res :=
  let time := b.mTime
  let b1 : Bus := { b with mTime := 0xfffe, tInt := true, tReset := true }
  if !i.cap then
    let b2 : Bus := if b1.checksum ≠ 0#8 then { b1 with rxError := b1.rxError ||| 16#16 } else b1
    handleTelegram i b2 (b2.valid && b2.checksum == 0#8)
  else
    let dt := if i.capVal ≤ i.now then i.now - i.capVal else time + 1 - i.capVal + i.now
    ({ b1 with
        tSet := some (dt + 2), mTime := 11 * bitTimeUs - 1, capInt := true, st := .recvBits
        currentByte := 0, bitTime := 0, bitMask := 1, parity := true }, [])

/-- State INIT_RX_FOR_RECEIVING_NEW_TEL, bus.cpp:651-671, falling through to `waitStart`. -/
def initRx (i : Irq) (b : Bus) : Res :=
  let b1 : Bus := { b with
    nextByteIndex := 0, rxError := 0#16, checksum := 0xff#8, sendAck := 0#8, valid := true }
  let r := waitStart i b1
  (r.1, .rxBegin :: r.2)

/-- State RECV_WAIT_FOR_ACK_TX_START, bus.cpp:822-850. -/
def waitAckTx (i : Irq) (b : Bus) : Res :=
  if i.cap then initRx i { b with sendAck := 0#8 }
  else
    ({ b with
        sendTelegramLen := 0, mPwm := preSend, mTime := preSend + bitPulseUs - 1
        tInt := true, tReset := true, capInt := true, nextByteIndex := 0, txError := 0#16
        st := .sendStart }, [.ackBegin])

/-! ## Sending states -/

/-- Repeat flag and checksum correction, bus.cpp:899-905. -/
def markRepeated (t : Buf) (len : Nat) : Buf :=
  let t1 := upd t 0 (t 0 &&& 0xDF#8)
  upd t1 (len - 1) (t1 (len - 1) ^^^ 0x20#8)

/-- The delay before the start bit, bus.cpp:907-920. -/
def startDelay (i : Irq) (b : Bus) (t : Buf) : Nat :=
  let base := if t 0 &&& 0x20#8 ≠ 0#8 ∧ t 0 &&& 0x04#8 ≠ 0#8 then preSend + delayBits 3
    else preSend
  let canRepeat : Bool := decide (0 < b.sendRetriesMax) && decide (0 < b.sendBusyRetriesMax)
  let lastRepeat : Bool := b.repeatTel && (decide (b.sendRetriesMax ≤ b.sendRetries + 1)
    || decide (b.sendBusyRetriesMax ≤ b.sendBusyRetries + 1))
  let lastColl : Bool := b.collisions == BitVec.ofNat 8 collisionMax
  if canRepeat && !lastRepeat && !lastColl then
    base + (i.millis * 131#32).toNat % delayBits 3
  else base

/-- The retry limit test, bus.cpp:882-889. -/
def retriesExhausted (b : Bus) : Bool :=
  (b.repeatTel && (decide (b.sendRetriesMax ≤ b.sendRetries)
    || decide (b.sendBusyRetriesMax ≤ b.sendBusyRetries)))
  || decide (BitVec.ofNat 8 collisionMax < b.collisions)

/-- State WAIT_50BT_FOR_NEXT_RX_OR_PENDING_TX_OR_IDLE, bus.cpp:872-949. -/
def wait50 (i : Irq) (b : Bus) : Res :=
  if i.cap then initRx i b
  else
    let r : Res :=
      if retriesExhausted b then finishSendingTelegram { b with txError := b.txError ||| 128#16 }
      else (b, [])
    let b1 := r.1
    match b1.sendCur with
    | some t =>
      let len := telegramSize t + 1
      let t1 := if b1.repeatTel ∧ t 0 &&& 0x20#8 ≠ 0#8 then markRepeated t len else t
      let time := startDelay i b1 t1
      ({ b1 with
          sendTelegramLen := len, sendCur := some t1, mPwm := time, mTime := time + (bitPulseUs - 1)
          tInt := true, tReset := true, nextByteIndex := 0, txError := 0#16, st := .sendStart },
        r.2 ++ [.txBegin])
    | none => (idleState b1, r.2)

/-- The parity computation of SEND_BIT_0, bus.cpp:1045-1050. -/
def withParity (c : Nat) : Nat :=
  (List.range 8).foldl (fun acc k => if acc &&& (1 <<< k) ≠ 0 then acc ^^^ 0x100 else acc) c

/-- The search for the next zero bit, bus.cpp:1194-1200: how many bit times until the end of its
pulse and the new mask.  Nine iterations are enough: the mask is at least 1 and the loop stops when
it exceeds 0x100. -/
def nextZero : Nat → Nat → Nat → Nat → Nat × Nat
  | 0, _, mask, time => (mask, time)
  | fuel + 1, cur, mask, time =>
    if cur &&& mask ≠ 0 ∧ mask ≤ 0x100 then nextZero fuel cur (mask <<< 1) (time + bitTimeUs)
    else (mask, time)

/-- State SEND_END_OF_BYTE, bus.cpp:1229-1246. -/
def sendEndByte (b : Bus) : Res :=
  if b.nextByteIndex < b.sendTelegramLen ∧ b.sendAck = 0#8 then
    ({ b with st := .sendStart, mPwm := delayBits 3 - bitPulseUs, mTime := delayBits 3 - 1 }, [])
  else
    ({ b with st := .sendEndTx, capInt := false, mTime := bitTimeUs - bitPulseUs - 1 }, [])

/-- `for (i = bitMask >> 1; i; i >>= 1) …`, bus.cpp:1164-1172: number of iterations and parity. -/
def recount : Nat → Nat → Nat → Nat × Bool → Nat × Bool
  | 0, _, _, r => r
  | fuel + 1, m, cur, r =>
    if m = 0 then r
    else recount fuel (m >>> 1) cur (r.1 - 1, if cur &&& m ≠ 0 then !r.2 else r.2)

/-- Copy of the bytes sent so far into the receive buffer, bus.cpp:1137-1143. -/
def copyOwn (t : Buf) : Nat → Buf × Byte → Buf × Byte
  | 0, r => r
  | n + 1, r =>
    let r1 := copyOwn t n r
    (upd r1.1 n (t n), r1.2 ^^^ t n)

/-- The switch from sending to receiving after a collision, bus.cpp:1102-1181, up to the
`goto STATE_SWITCH`.

`collisionBitCount` is computed in `unsigned int`; when it underflows the shift distance is about
4·10⁷, which is undefined in C++ and gives 0 on the target (and here).  For `bitMask == 0` the
expression `currentByte & (bitMask - 1)` keeps `currentByte`. -/
def switchToRx (i : Irq) (b : Bus) : Res :=
  let c := encounteredCollision b
  let b1 : Bus := { c.1 with rxError := 0#16, checksum := 0xff#8, valid := true, parity := true }
  let r : Bus × List Out :=
    if b1.sendAck ≠ 0#8 then ({ b1 with sendAck := 0#8 }, [])
    else
      match b1.sendCur with
      | some t =>
        let n := b1.nextByteIndex - 1
        let cp := copyOwn t n (b1.rx, 0xff#8)
        ({ b1 with nextByteIndex := n, rx := cp.1, checksum := cp.2 },
          (bytes t n).map fun x => Out.rxChar x true)
      | none => ({ b1 with nextByteIndex := b1.nextByteIndex - 1 }, [])
  let b2 := r.1
  let cnt := usub (usub b2.mTime i.capVal) 2 / bitTimeUs
  let mask := if cnt + 1 < 32 then b2.bitMask >>> (cnt + 1) else 0
  let cur := if mask = 0 then b2.currentByte else b2.currentByte &&& (mask - 1)
  let rc := recount 32 (mask >>> 1) cur (10, true)
  ({ b2 with
      bitMask := mask, bitTime := (i.capVal : Int) - bitTimeUs, currentByte := cur, parity := rc.2
      mTime := i.capVal + rc.1 * bitTimeUs - 1, tInt := true, tReset := true, mPwm := 0xffff
      st := .recvBits },
    c.2 ++ .rxBegin :: r.2)

/-- State SEND_BITS_OF_BYTE, bus.cpp:1059-1225. -/
def sendBits (i : Irq) (b : Bus) : Res :=
  if !i.tmo then
    if i.capVal < 3 then (b, [])
    else if i.capVal % bitTimeUs < bitWaitUs - 7 then
      let c := encounteredCollision b
      (initState c.1, c.2)
    else if i.capVal < usub b.mPwm 7 then
      let r := switchToRx i b
      let r2 := recvBits i r.1
      (r2.1, r.2 ++ r2.2)
    else (b, [])
  else if b.bitMask ≤ 0x200 then
    let z := nextZero 10 b.currentByte b.bitMask bitTimeUs
    let mask := z.1 <<< 1
    ({ b with
        bitMask := mask
        mPwm := if 0x200 < mask then 0xffff else z.2 - bitPulseUs
        mTime := z.2 - 1 }, [])
  else sendEndByte { b with st := .sendEndByte }

/-- State SEND_BIT_0, bus.cpp:1033-1053, falling through to `sendBits`.  Reading
`sendCurTelegram[..]` through a null pointer is modelled as reading 0; `Inv` in `Lemmas.lean` shows
that it does not happen. -/
def sendBit0 (i : Irq) (b : Bus) : Res :=
  let b1 : Bus × Byte :=
    if b.sendAck ≠ 0#8 then (b, b.sendAck)
    else
      ({ b with nextByteIndex := b.nextByteIndex + 1 },
        match b.sendCur with
        | some t => t b.nextByteIndex
        | none => 0#8)
  let c := withParity b1.2.toNat
  let r := sendBits i { b1.1 with currentByte := c, bitMask := 1, st := .sendBits }
  (r.1, .txChar b1.2 (c.testBit 8) :: r.2)

/-- State SEND_START_BIT, bus.cpp:960-1024 (`TX_PWM_STARTBIT_ERROR` 32). -/
def sendStart (i : Irq) (b : Bus) : Res :=
  if !i.tmo then
    if i.capVal < usub b.mPwm 30 then
      let c : Res := if b.nextByteIndex ≠ 0 then encounteredCollision b else (b, [])
      let r := initRx i { c.1 with mPwm := 0xffff }
      (r.1, c.2 ++ r.2)
    else
      let b1 : Bus :=
        if i.capVal < b.mPwm then
          { b with mPwm := i.now + 1, mTime := i.capVal + (bitPulseUs - 1) }
        else b
      ({ b1 with st := .sendBit0 }, [])
  else sendBit0 i { b with st := .sendBit0, txError := b.txError ||| 32#16 }

/-- State SEND_END_OF_TX, bus.cpp:1251-1305. -/
def sendEndTx (b : Bus) : Res :=
  if b.sendAck ≠ 0#8 then
    ({ b with
        sendAck := 0#8, st := .wait50, capInt := true, mTime := sendWait - preSend - 1 }, [.ackEnd])
  else
    let b1 : Bus := { b with
      waitForAck := true, st := .ackWindow, tInt := true, tReset := false, mTime := ackWaitMin - 1 }
    (if b1.repeatTel then
      if b1.busyWait then { b1 with sendBusyRetries := b1.sendBusyRetries + 1 }
      else { b1 with sendRetries := b1.sendRetries + 1 }
     else b1, [.txEnd])

/-- State SEND_WAIT_FOR_RX_ACK_WINDOW, bus.cpp:1310-1318. -/
def ackWindow (b : Bus) : Res :=
  ({ b with st := .waitAck, capInt := true, mTime := ackWaitMax - 1 }, [])

/-- State SEND_WAIT_FOR_RX_ACK, bus.cpp:1322-1338 (`TX_ACK_TIMEOUT_ERROR` 8). -/
def waitAck (i : Irq) (b : Bus) : Res :=
  if i.cap then initRx i b
  else
    ({ b with
        repeatTel := true, waitForAck := false, txError := b.txError ||| 8#16, st := .wait50
        mTime := sendWait - preSend - 1, tInt := true, tReset := true }, [])

/-- State INIT, bus.cpp:613-633. -/
def initSt (i : Irq) (b : Bus) : Res :=
  if !i.tmo then ({ b with tSet := some (3 + 2) }, [])
  else
    let b1 : Bus := { b with
      mTime := delayBits 2 + sendWait - preSend, tInt := true, tReset := true, st := .wait50 }
    if i.cap then wait50 i b1 else (b1, [])

/-- The `switch (state)` of the handler, bus.cpp:609-1345. -/
def dispatch (i : Irq) (b : Bus) : Res :=
  match b.st with
  | .init => initSt i b
  | .idle => if i.cap then initRx i b else (b, [])
  | .initRx => initRx i b
  | .waitStart => waitStart i b
  | .recvBits => recvBits i b
  | .waitAckTx => waitAckTx i b
  | .wait50 => wait50 i b
  | .sendStart => sendStart i b
  | .sendBit0 => sendBit0 i b
  | .sendBits => sendBits i b
  | .sendEndByte => sendEndByte b
  | .sendEndTx => sendEndTx b
  | .ackWindow => ackWindow b
  | .waitAck => waitAck i b

/-- The spike filter, bus.cpp:576-605: a falling edge that is not ours and after which the pin
soon reads high again is ignored. -/
def isSpike (i : Irq) (b : Bus) : Bool := i.cap && decide (i.capVal < b.mPwm) && i.spike

/-- `Bus::timerInterruptHandler`, bus.cpp:564-1348. -/
def isr (i : Irq) (b : Bus) : Res :=
  if isSpike i b then ({ b with tSet := none }, []) else dispatch i { b with tSet := none }

/-! ## The interface to the upper layer -/

/-- `telegram[length] = checksum` with the exclusive or of all bytes, bus.cpp:184-190. -/
def xorBytes (t : Buf) : Nat → Byte → Byte
  | 0, c => c
  | n + 1, c => xorBytes t n c ^^^ t n

/-- `Bus::prepareTelegram`, bus.cpp:180-191. -/
def prepareTelegram (own : Word) (t : Buf) (len : Nat) : Buf :=
  let t1 := setSenderAddress t own
  upd t1 len (xorBytes t1 len 0xff#8)

/-- `Bus::canPause`, bus.cpp:154-178. -/
def canPause (b : Bus) (wait : Bool) : Bool :=
  match b.st with
  | .idle => true
  | .wait50 => if b.sendCur.isSome then !b.repeatTel && !wait else true
  | _ => false

/-- State after `Bus::begin`, bus.cpp:51-82, of an object built by the constructor, bus.cpp:26-40
(`rx_telegram` and `telegram` are zero initialised; members that are not initialised there and are
written before they are read get 0). -/
def start : Bus :=
  initState (prepareForSending
    { st := .init, mTime := 0, mPwm := 0xffff, tInt := false, tReset := false, capInt := false
      tSet := none, sendRetries := 0, sendRetriesMax := 3, sendBusyRetries := 0
      sendBusyRetriesMax := 3, sendAck := 0#8, nextByteIndex := 0, currentByte := 0
      sendTelegramLen := 0, sendCur := none, rx := fun _ => 0#8, telegram := fun _ => 0#8
      telegramLen := 0, bitMask := 0, bitTime := 0, parity := false, valid := false
      checksum := 0#8, rxError := 0#16, txError := 0#16, waitForAck := false, busyWait := false
      repeatTel := false, collisions := 0#8 })

/-- Everything that can happen to a `Bus` object. -/
inductive Ev
  /-- the timer interrupt -/
  | irq (i : Irq)
  /-- `sendTelegram`, bus.cpp:206-213, up to the assignment of `sendCurTelegram` -/
  | queue (own : Word) (t : Buf) (len : Nat)
  /-- the rest of `sendTelegram`, bus.cpp:229-234 -/
  | kick
  /-- `discardReceivedTelegram`, bus.h:302-305 -/
  | discard
  /-- one iteration of the loop of `pause`, bus.cpp:117-141 -/
  | pause (wait : Bool)
  /-- `resume`, bus.cpp:143-152 -/
  | resume
  /-- `maxSendRetries`, bus.h:282-285 -/
  | maxRetries (n : Nat)
  /-- `maxSendBusyRetries`, bus.h:287-290 -/
  | maxBusyRetries (n : Nat)

/-- The bus object and whether it is paused (no interrupts are enabled then). -/
structure Sys where
  bus : Bus
  paused : Bool

/-- One step.  `queue` does nothing while a telegram is queued: the code waits in a loop there.
`resume` is only called while paused, as bus.h:58-61 says. -/
def step (s : Sys) : Ev → Sys × List Out
  | .irq i => if s.paused then (s, []) else let r := isr i s.bus; ({ s with bus := r.1 }, r.2)
  | .queue own t len =>
    match s.bus.sendCur with
    | some _ => (s, [])
    | none => ({ s with bus := { s.bus with sendCur := some (prepareTelegram own t len) } }, [])
  | .kick =>
    if s.bus.st = .idle then ({ s with bus := startSendingImmediately s.bus }, []) else (s, [])
  | .discard => ({ s with bus := { s.bus with telegramLen := 0 } }, [])
  | .pause wait =>
    if !s.paused && canPause s.bus wait then
      ({ bus := { s.bus with
            capInt := false, tInt := false, tReset := true, mTime := 0xfffe, st := .init }
         paused := true }, [])
    else (s, [])
  | .resume => if s.paused then ({ bus := initState s.bus, paused := false }, []) else (s, [])
  | .maxRetries n => ({ s with bus := { s.bus with sendRetriesMax := n } }, [])
  | .maxBusyRetries n => ({ s with bus := { s.bus with sendBusyRetriesMax := n } }, [])

/-- A run: final state and log. -/
def run : Sys → List Ev → Sys × List Out
  | s, [] => (s, [])
  | s, e :: es =>
    let r := step s e
    let r2 := run r.1 es
    (r2.1, r.2 ++ r2.2)

/-- The state after start-up. -/
def boot : Sys := ⟨start, false⟩

end Verif.Bus
