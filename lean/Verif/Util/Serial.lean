import Verif.Base

/-!
# Model of the serial port driver: sblib/src/serial.cpp, sblib/src/buffered_stream.cpp

A transition system. The main program executes `write`, `read` in steps that are as small as the accesses to
data shared with the interrupt handler; the interrupt handler runs to completion between two such steps (the
main program cannot run during the handler); the UART shifts bytes out of its holding register and puts
received bytes into its 16-byte FIFO at any time.

Not modelled: `begin`/`end` and the port being disabled (`write` then returns 0 and `read` -1 without any other
effect), `SERIAL_WRITE_DIRECT`, baud rates, line errors.
-/

namespace Verif.Serial

/-- `BUFFER_SIZE`, buffered_stream.h:50. -/
def BUFFER_SIZE : Nat := 128

/-- Depth of the receive FIFO of the LPC11xx UART. -/
def FIFO_DEPTH : Nat := 16

/-- Array update. -/
def upd (buf : Nat → Byte) (i : Nat) (b : Byte) : Nat → Byte := fun j => if j = i then b else buf j

/-- Where the main program stands. -/
inductive Pc where
  /-- not inside a call -/
  | idle
  /-- serial.cpp:131, `writeHead == writeTail` found true, line status not yet read -/
  | wLsr (ch : Byte)
  /-- serial.cpp:134, about to store into the holding register -/
  | wDirect (ch : Byte)
  /-- serial.cpp:135, 147, about to enable the transmit interrupt -/
  | wIer
  /-- serial.cpp:142, waiting for space -/
  | wWait (ch : Byte) (next : Nat)
  /-- serial.cpp:145, about to store into the buffer -/
  | wStore (ch : Byte) (next : Nat)
  /-- serial.cpp:146, about to advance the tail -/
  | wTail (ch : Byte) (next : Nat)
  /-- serial.cpp:181, `readFull` computed; at buffered_stream.cpp:16 -/
  | rCheck (full : Bool)
  /-- buffered_stream.cpp:19, buffer found not empty -/
  | rFetch (full : Bool)
  /-- buffered_stream.cpp:21, about to execute `++readHead` -/
  | rInc (full : Bool) (ch : Byte)
  /-- buffered_stream.cpp:22, about to execute `readHead &= MASK` -/
  | rMask (full : Bool) (ch : Byte)
  /-- serial.cpp:184, about to test for pending data; `ch` `none` is -1 -/
  | rPost (full : Bool) (ch : Option Byte)
  deriving DecidableEq, Repr

/-- Driver and UART. -/
structure St where
  readHead : Nat
  readTail : Nat
  writeHead : Nat
  writeTail : Nat
  readBuffer : Nat → Byte
  writeBuffer : Nat → Byte
  /-- transmit holding register; `none`: empty (LSR_THRE) -/
  thr : Option Byte
  /-- receive FIFO; LSR_RDR is set iff it is not empty -/
  fifo : List Byte
  /-- IER: transmit interrupt enabled -/
  ierThre : Bool
  pc : Pc

/-- What can be observed. -/
inductive Out where
  /-- the UART starts sending the byte -/
  | wire (b : Byte)
  /-- `write` returns 1 -/
  | wrote
  /-- `read` returns the byte or -1 -/
  | got (r : Option Byte)
  /-- the handler throws a received byte away -/
  | dropped (b : Byte)
  /-- the FIFO of the UART is full, the received byte is lost -/
  | overrun (b : Byte)
  deriving DecidableEq, Repr

/-- What can happen next. -/
inductive Ev where
  | callWrite (ch : Byte)
  | callRead
  /-- the main program executes its next step -/
  | main
  /-- the interrupt handler runs -/
  | irq
  /-- the UART takes the byte from the holding register -/
  | shift
  /-- a byte has been received -/
  | arrive (b : Byte)
  deriving DecidableEq, Repr

/-- `readBufferFull`, buffered_stream.h:85-88. -/
def readBufferFull (s : St) : Bool := (s.readTail + 1) % BUFFER_SIZE == s.readHead

/-- Transmit part of `interruptHandler`, serial.cpp:204-217. -/
def handlerTx (s : St) : St :=
  if s.thr.isNone then
    if s.writeHead = s.writeTail then { s with ierThre := false }
    else { s with thr := some (s.writeBuffer s.writeHead), writeHead := (s.writeHead + 1) % BUFFER_SIZE }
  else s

/-- Receive part of `interruptHandler`, serial.cpp:219-232. -/
def handlerRx : List Byte → St → St × List Out
  | [], s => ({ s with fifo := [] }, [])
  | b :: bs, s =>
    if readBufferFull s then
      let r := handlerRx bs s
      (r.1, .dropped b :: r.2)
    else
      handlerRx bs { s with readBuffer := upd s.readBuffer s.readTail b, readTail := (s.readTail + 1) % BUFFER_SIZE }

/-- `interruptHandler`, serial.cpp:194-233. -/
def handler (s : St) : St × List Out :=
  let s := handlerTx s
  handlerRx s.fifo s

/-- The next step of the main program. -/
def mainStep (s : St) : St × List Out :=
  match s.pc with
  | .idle => (s, [])
  | .wLsr ch =>
    if s.thr.isNone then ({ s with pc := .wDirect ch }, [])
    else ({ s with pc := .wWait ch ((s.writeTail + 1) % BUFFER_SIZE) }, [])
  | .wDirect ch => ({ s with thr := some ch, pc := .wIer }, [])
  | .wIer => ({ s with ierThre := true, pc := .idle }, [.wrote])
  | .wWait ch next => if s.writeHead = next then (s, []) else ({ s with pc := .wStore ch next }, [])
  | .wStore ch next => ({ s with writeBuffer := upd s.writeBuffer s.writeTail ch, pc := .wTail ch next }, [])
  | .wTail _ next => ({ s with writeTail := next, pc := .wIer }, [])
  | .rCheck full =>
    if s.readTail = s.readHead then ({ s with pc := .rPost full none }, []) else ({ s with pc := .rFetch full }, [])
  | .rFetch full => ({ s with pc := .rInc full (s.readBuffer s.readHead) }, [])
  | .rInc full ch => ({ s with readHead := s.readHead + 1, pc := .rMask full ch }, [])
  | .rMask full ch => ({ s with readHead := s.readHead % BUFFER_SIZE, pc := .rPost full (some ch) }, [])
  | .rPost full ch =>
    if full && !s.fifo.isEmpty then
      -- the interrupt is disabled around this call: serial.cpp:186-188
      let r := handler { s with pc := .idle }
      (r.1, r.2 ++ [.got ch])
    else ({ s with pc := .idle }, [.got ch])

/-- One step. A call is possible only when the main program is not inside another call. -/
def step (s : St) : Ev → St × List Out
  | .callWrite ch =>
    match s.pc with
    | .idle =>
      if s.writeHead = s.writeTail then ({ s with pc := .wLsr ch }, [])
      else ({ s with pc := .wWait ch ((s.writeTail + 1) % BUFFER_SIZE) }, [])
    | _ => (s, [])
  | .callRead =>
    match s.pc with
    | .idle => ({ s with pc := .rCheck (readBufferFull s) }, [])
    | _ => (s, [])
  | .main => mainStep s
  | .irq => handler s
  | .shift =>
    match s.thr with
    | some b => ({ s with thr := none }, [.wire b])
    | none => (s, [])
  | .arrive b =>
    if s.fifo.length < FIFO_DEPTH then ({ s with fifo := s.fifo ++ [b] }, []) else (s, [.overrun b])

/-- Run a schedule. -/
def run : List Ev → St → St × List Out
  | [], s => (s, [])
  | e :: es, s =>
    let r := step s e
    let q := run es r.1
    (q.1, r.2 ++ q.2)

/-- State after `begin`: empty buffers, nothing pending (serial.cpp:93-105, `clearBuffers`). -/
def init (rb wb : Nat → Byte) : St :=
  { readHead := 0, readTail := 0, writeHead := 0, writeTail := 0, readBuffer := rb, writeBuffer := wb,
    thr := none, fifo := [], ierThre := false, pc := .idle }

/-- `available()`, buffered_stream.cpp:34-40. -/
def available (s : St) : Int :=
  let num : Int := (s.readTail : Int) - s.readHead
  if num < 0 then num + BUFFER_SIZE else num

/-- `peek()`, buffered_stream.cpp:27-32; `none` is -1. -/
def peek (s : St) : Option Byte := if s.readTail = s.readHead then none else some (s.readBuffer s.readHead)

end Verif.Serial
