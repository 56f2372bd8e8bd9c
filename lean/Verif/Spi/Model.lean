import Verif.Base

/-!
# Model of the SPI master

`sblib/src/spi.cpp` over an explicit model of the two SSP controllers of the LPC11xx (UM10398 chapter 14):

* a transmit FIFO (together with the shift register it holds `Env.room` words), a receive FIFO of 8 words;
* a frame takes the first word of the transmit FIFO to the wire and puts the word the slave shifts out at
  the same time into the receive FIFO; if that is full, the received word is lost (receive overrun);
* frames complete at any time: before each register access, `Env.ticks` says how many. Time is counted in
  register accesses of the program; a program that is held up by interrupts sees many frames between
  two accesses.

Simplifications: words are not cut to the configured data size; `errors` (never read by anything) is
not kept; the slave select pin is not modelled (the code does not handle it); accesses to ICR,
IMSC and NVIC take no time.
-/

namespace Verif.Spi

/-- The two SSP controllers, spi.cpp:59. -/
inductive Port where
  | p0 | p1
deriving DecidableEq, Repr

/-- The hardware and the slave: `ticks p t` is the number of frames port `p` may complete before the
`t`-th register access, `slave p sent` the word the slave shifts out during the frame after the frames
`sent`, `room` the number of words that fit into transmit FIFO and shift register. -/
structure Env where
  ticks : Port → Nat → Nat
  slave : Port → List Word → Word
  room : Nat

/-- One SSP controller: words waiting for transmission (first one first), words received and not yet read,
all frames ever sent (a history, not a register) and the number of received words lost (likewise). -/
structure Ssp where
  tx : List Word
  rx : List Word
  wire : List Word
  lost : Nat

/-- Both controllers and the number of register accesses so far. -/
structure Hw where
  ssp : Port → Ssp
  t : Nat

/-- One frame of a controller (hardware, UM10398 14.7). -/
def frame (E : Env) (p : Port) (s : Ssp) : Ssp :=
  match s.tx with
  | [] => s
  | w :: rest =>
    if s.rx.length < 8 then { s with tx := rest, wire := s.wire ++ [w], rx := s.rx ++ [E.slave p s.wire] }
    else { s with tx := rest, wire := s.wire ++ [w], lost := s.lost + 1 }

def frames (E : Env) (p : Port) : Nat → Ssp → Ssp
  | 0, s => s
  | n + 1, s => frames E p n (frame E p s)

/-- The time up to the next register access. -/
def advance (E : Env) (hw : Hw) : Hw :=
  { ssp := fun p => frames E p (E.ticks p hw.t) (hw.ssp p), t := hw.t + 1 }

def setSsp (hw : Hw) (p : Port) (s : Ssp) : Hw := { hw with ssp := fun q => if q = p then s else hw.ssp q }

/-- The bits of the status register SR that are used, spi.cpp:36-44. -/
structure Sr where
  tnf : Bool
  rne : Bool
  bsy : Bool

/-- Read access to SR. -/
def readSR (E : Env) (p : Port) (hw : Hw) : Sr × Hw :=
  let hw := advance E hw
  let s := hw.ssp p
  (⟨decide (s.tx.length < E.room), !s.rx.isEmpty, !s.tx.isEmpty⟩, hw)

/-- Read access to DR: takes a word out of the receive FIFO. -/
def readDR (E : Env) (p : Port) (hw : Hw) : Word × Hw :=
  let hw := advance E hw
  let s := hw.ssp p
  (s.rx.headD 0#16, setSsp hw p { s with rx := s.rx.tail })

/-- Write access to DR: puts a word into the transmit FIFO; ignored if that is full. -/
def writeDR (E : Env) (p : Port) (w : Word) (hw : Hw) : Hw :=
  let hw := advance E hw
  let s := hw.ssp p
  if s.tx.length < E.room then setSsp hw p { s with tx := s.tx ++ [w] } else hw

/-- Read access to RIS. -/
def readRIS (E : Env) (hw : Hw) : Hw := advance E hw

/-- The loop that empties the receive FIFO, spi.cpp:127-128 and 149-150. The number of rounds is
bounded by the words the controller can still deliver, so that the first argument is not a limit. -/
def drainLoop (E : Env) (p : Port) : Nat → Hw → Hw
  | 0, hw => hw
  | f + 1, hw =>
    let r := readSR E p hw
    if r.1.rne then drainLoop E p f (readDR E p r.2).2 else r.2

def drain (E : Env) (p : Port) (hw : Hw) : Hw :=
  drainLoop E p ((hw.ssp p).tx.length + (hw.ssp p).rx.length + 1) hw

/-! ## transfer -/

/-- `while (port.SR & SSP_SR_BSY);`, spi.cpp:137-138: `none` if still busy after `k` looks. -/
def waitIdle (E : Env) (p : Port) : Nat → Hw → Option Hw
  | 0, _ => none
  | k + 1, hw =>
    let r := readSR E p hw
    if r.1.bsy then waitIdle E p k r.2 else some r.2

/-- `SPI::transfer`, spi.cpp:124-142: `none` if it has not returned after `k` looks at the busy bit. -/
def transfer (E : Env) (p : Port) (val : Word) (k : Nat) (hw : Hw) : Option (Word × Hw) :=
  let hw := drain E p hw
  let hw := writeDR E p val hw
  (waitIdle E p k hw).map fun hw => readDR E p hw

/-! ## transferBlock -/

/-- The members of an SPI object (spi.h:216-226) and the hardware: `snd` are the `sndCount` words from
`sndData` on, `got` the words read so far (they are in the caller's buffer if `recData` is not null);
`irq`: the interrupt of the port is enabled and `instances` points to this object. -/
structure State where
  port : Port
  snd : List Word
  got : List Word
  recCount : Int
  finished : Bool
  irq : Bool
  hw : Hw

/-- Take a word out of the receive FIFO, spi.cpp:191-193 and 200-202. -/
def takeWord (E : Env) (s : State) : State :=
  let r := readDR E s.port s.hw
  { s with recCount := s.recCount - 1, got := s.got ++ [r.1], hw := r.2 }

/-- The body of the sending loop, spi.cpp:187-196. The word goes to port 0, whatever port the object is
for (line 195). -/
def sendWord (E : Env) (s : State) (w : Word) (rest : List Word) : State :=
  let s := { s with snd := rest }
  let r := readSR E s.port s.hw
  let s := { s with hw := r.2 }
  let s := if r.1.rne then takeWord E s else s
  { s with hw := readRIS E (writeDR E .p0 w s.hw) }

/-- The sending loop, spi.cpp:185-197; the first argument is `maxCount`. -/
def sendLoop (E : Env) : Nat → State → State
  | m, s =>
    match s.snd with
    | [] => s
    | w :: rest =>
      let r := readSR E s.port s.hw
      let s := { s with hw := r.2 }
      if r.1.tnf then
        match m with
        | 0 => s
        | m + 1 => sendLoop E m (sendWord E s w rest)
      else s

/-- The receiving loop, spi.cpp:198-204. The first argument bounds the number of rounds by the words the
controller can still deliver, so that it is not a limit. -/
def recvLoop (E : Env) : Nat → State → State
  | 0, s => s
  | f + 1, s =>
    if s.recCount ≠ 0 then
      let r := readSR E s.port s.hw
      let s := { s with hw := r.2 }
      if r.1.rne then
        let s := takeWord E s
        recvLoop E f { s with hw := readRIS E s.hw }
      else s
    else s

/-- `SPI::continueBlockTransfer`, spi.cpp:181-220. -/
def continueBlock (E : Env) (s : State) : State :=
  let s := sendLoop E 8 s
  let s := recvLoop E ((s.hw.ssp s.port).tx.length + (s.hw.ssp s.port).rx.length + 1) s
  if s.snd.isEmpty then { s with irq := false, finished := true } else s

/-- `SPI::finalizeBlockTransfer`, spi.cpp:222-226, after at most `k` rounds: it has returned if `recCount`
is 0. -/
def finalize (E : Env) : Nat → State → State
  | 0, s => s
  | k + 1, s => if s.recCount ≠ 0 then finalize E k (continueBlock E s) else s

/-- `SPI::transferBlock` up to the first call of `continueBlockTransfer`, spi.cpp:148-160. `bytes` is the
number of words of `snd`. -/
def startBlock (E : Env) (p : Port) (snd : List Word) (hw : Hw) : State :=
  let hw := drain E p hw
  continueBlock E ⟨p, snd, [], snd.length, false, false, hw⟩

/-- A synchronous `SPI::transferBlock`, spi.cpp:146-179, after at most `k` rounds of `finalizeBlockTransfer`. -/
def transferBlock (E : Env) (p : Port) (snd : List Word) (k : Nat) (hw : Hw) : State :=
  finalize E k (startBlock E p snd hw)

/-- `SSP0_IRQHandler`, `SSP1_IRQHandler`, spi.cpp:231-239: called only while the interrupt is enabled. -/
def irqHandler (E : Env) (s : State) : State := if s.irq then continueBlock E s else s

def irqs (E : Env) : Nat → State → State
  | 0, s => s
  | m + 1, s => irqs E m (irqHandler E s)

/-- An asynchronous `SPI::transferBlock`, spi.cpp:146-179, then `m` interrupts, then
`finalizeBlockTransfer` (at most `k` rounds). -/
def transferAsync (E : Env) (p : Port) (snd : List Word) (m k : Nat) (hw : Hw) : State :=
  finalize E k (irqs E m { startBlock E p snd hw with irq := true })

/-! ## Configuration -/

/-- `SPI::setClockDivider`, spi.cpp:104-107, as a function of CR0. -/
def setClockDivider (cr0 : U32) (div : U32) : U32 :=
  (cr0 &&& ~~~ 0xff00#32) ||| (((div - 1#32) &&& 255#32) <<< 8)

/-- `SPI::setDataSize`, spi.cpp:109-112 (`SPI_DATA_SIZE_OFFS`, spi.cpp:55). -/
def setDataSize (cr0 : U32) (size : U32) : U32 :=
  (cr0 &&& ~~~ 15#32) ||| ((size - 1#32) &&& 15#32)

end Verif.Spi
