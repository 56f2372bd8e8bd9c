import Verif.Base

/-!
# The I2C master (sblib/src/i2c.cpp)

The master functions in polling mode, the mode `i2c_app_init` selects (i2c.cpp:108 calls `i2c_set_mode` with
`polling` true), over a model of the controller and of the bus.

The controller (`hwStep`) is that of the LPC11xx manual: it acts only while SI is clear, reports what happened by a
status code with SI set, and holds the clock until SI is cleared. It is part of the trusted base.

The bus: `Env` says, for everything that happened on the bus so far, whether the addressed slave acknowledges the next
byte, which byte a slave sends next, and whether arbitration is lost or a bus error occurs in the next byte.

Not modelled: interrupt mode, the device as an I2C slave (no slave is registered: `sXfer` is 0 and `flags` is 0), bit
timing, clock stretching without end, setting up pins. Sizes are not negative. Pointers are lists: what is left to be
sent, and what has been received; `oob` becomes true when a byte is stored beyond the given size.
-/

namespace Verif.I2c

open Verif

/-- What is seen on the bus. -/
inductive BusEv
  | start
  | restart
  /-- a byte from the master, and whether it was acknowledged -/
  | out (b : Byte) (ack : Bool)
  /-- a byte from the slave, and whether the master acknowledged it -/
  | inp (b : Byte) (ack : Bool)
  | stop
  /-- another master has taken the bus -/
  | lost
  /-- START or STOP at an illegal place -/
  | error
  deriving DecidableEq

inductive Fault
  | lost
  | error

/-- The other participants, as functions of everything that happened before. -/
structure Env where
  ack : List BusEv → Bool
  data : List BusEv → Byte
  fault : List BusEv → Option Fault

/-- The registers of the controller (i2c.h:60-75): STAT, the bits of CONSET, DAT. `trace`: the bus until now. -/
structure Hw where
  stat : Nat
  si : Bool
  sta : Bool
  sto : Bool
  aa : Bool
  dat : Byte
  trace : List BusEv

/-- The master is not active: no information, or arbitration lost. -/
def Hw.released (h : Hw) : Bool := h.stat == 0xf8 || h.stat == 0x38

/-- A byte goes out: status codes `a` with acknowledge, `n` without. -/
def sendByte (E : Env) (h : Hw) (a n : Nat) : Hw :=
  match E.fault h.trace with
  | some .lost => { h with stat := 0x38, si := true, trace := h.trace ++ [.lost] }
  | some .error => { h with stat := 0x00, si := true, trace := h.trace ++ [.error] }
  | none => { h with stat := if E.ack h.trace then a else n, si := true, trace := h.trace ++ [.out h.dat (E.ack h.trace)] }

/-- A byte comes in; it is acknowledged if AA is set. -/
def recvByte (E : Env) (h : Hw) : Hw :=
  match E.fault h.trace with
  | some .lost => { h with stat := 0x38, si := true, trace := h.trace ++ [.lost] }
  | some .error => { h with stat := 0x00, si := true, trace := h.trace ++ [.error] }
  | none => { h with stat := if h.aa then 0x50 else 0x58, si := true, dat := E.data h.trace,
                     trace := h.trace ++ [.inp (E.data h.trace) h.aa] }

/-- The controller (LPC11xx manual, master transmitter and receiver mode). It does nothing while SI is set. STO: a STOP
is sent and STO is cleared by the controller; after a bus error only the controller is reset. STA: START if the master
is not active, else repeated START. -/
def hwStep (E : Env) (h : Hw) : Hw :=
  if h.si then h
  else if h.sto then
    { h with sto := false, stat := 0xf8, trace := if h.stat = 0x00 then h.trace else h.trace ++ [.stop] }
  else if h.sta then
    if h.released then { h with stat := 0x08, si := true, trace := h.trace ++ [.start] }
    else { h with stat := 0x10, si := true, trace := h.trace ++ [.restart] }
  else if h.stat = 0x08 ∨ h.stat = 0x10 then
    if h.dat.getLsbD 0 then sendByte E h 0x40 0x48 else sendByte E h 0x18 0x20
  else if h.stat = 0x18 ∨ h.stat = 0x28 ∨ h.stat = 0x20 ∨ h.stat = 0x30 then sendByte E h 0x28 0x30
  else if h.stat = 0x40 ∨ h.stat = 0x50 then recvByte E h
  else h

/-- `I2C_STATUS_T`, i2c.h:268-274. -/
inductive Status
  | done | nak | arbLost | busErr | busy
  deriving DecidableEq

/-- `I2C_XFER_T`, i2c.h:280-289. `tx`: the `txSz` bytes at `txBuff`; `rx`: the bytes stored at the original `rxBuff`. -/
structure Xfer where
  addr : Byte
  tx : List Byte
  rx : List Byte
  rxSz : Int
  status : Status
  oob : Bool

/-- The controller and the transfer. -/
structure St where
  h : Hw
  x : Xfer

/-- i2c.cpp:337-338: the flags kept out of `cclr` are set, the others and SI are cleared. -/
def control (h : Hw) (aa sto sta : Bool) : Hw := { h with si := false, aa := aa, sto := sto, sta := sta }

/-- `*xfer->rxBuff++ = pI2C->DAT; xfer->rxSz--`, i2c.cpp:313-314. -/
def storeByte (s : St) : Xfer :=
  { s.x with rx := s.x.rx ++ [s.h.dat], rxSz := s.x.rxSz - 1, oob := s.x.oob || decide (s.x.rxSz ≤ 0) }

/-- i2c.cpp:341-344: a stop ends the transfer. -/
def finish (x : Xfer) : Xfer := if x.status = .busy then { x with status := .done } else x

/-- `handleMasterXferState`, i2c.cpp:285-351; the result of the function is used for the event `I2C_EVENT_DONE` only,
which the handler for polling ignores. -/
def handle (s : St) : St :=
  if s.h.stat = 0x08 ∨ s.h.stat = 0x10 then
    { s with h := control { s.h with dat := s.x.addr <<< 1 ||| (if s.x.tx = [] then 1#8 else 0#8) } false false false }
  else if s.h.stat = 0x18 ∨ s.h.stat = 0x28 then
    match s.x.tx with
    | [] => if s.x.rxSz ≠ 0 then { s with h := control s.h false false true }
            else { h := control s.h false true false, x := finish s.x }
    | b :: bs => { h := control { s.h with dat := b } false false false, x := { s.x with tx := bs } }
  else if s.h.stat = 0x58 then
    let x := storeByte s
    { h := control s.h (decide (x.rxSz > 1)) true false, x := finish x }
  else if s.h.stat = 0x50 then
    let x := storeByte s
    { h := control s.h (decide (x.rxSz > 1)) false false, x := x }
  else if s.h.stat = 0x40 then
    { s with h := control s.h (decide (s.x.rxSz > 1)) false false }
  else if s.h.stat = 0x20 ∨ s.h.stat = 0x30 ∨ s.h.stat = 0x48 then
    { h := control s.h false true false, x := { s.x with status := .nak } }
  else if s.h.stat = 0x38 then
    { h := control s.h false false false, x := { s.x with status := .arbLost } }
  else if s.h.stat = 0x00 then
    { h := control s.h false true false, x := { s.x with status := .busErr } }
  else { s with h := control s.h false false false }

/-- The loop of `Chip_I2C_EventHandlerPolling`, i2c.cpp:464-469 (`Chip_I2C_IsStateChanged`: :676-679,
`Chip_I2C_MasterStateHandler`: :613-618); the controller runs while SI is clear. `none`: not finished within
these steps. -/
def poll (E : Env) : Nat → St → Option St
  | 0, _ => none
  | n + 1, s =>
    if s.x.status ≠ .busy then some s
    else if s.h.si then poll E n (handle s)
    else poll E n { s with h := hwStep E s.h }

/-- i2c.cpp:542 (`isI2CBusFree`: :223-226): wait until the controller has cleared STO. -/
def waitStop (E : Env) : Nat → St → Option St
  | 0, _ => none
  | n + 1, s => if s.h.sto then waitStop E n { s with h := hwStep E s.h } else some s

/-- `startMasterXfer`, i2c.cpp:203-210. -/
def startMaster (h : Hw) : Hw := { h with si := false, sto := false, sta := true, aa := false }

/-- `Chip_I2C_MasterTransfer`, i2c.cpp:527-552. -/
def transfer (E : Env) (fuel : Nat) (h : Hw) (x : Xfer) : Option St :=
  (poll E fuel ⟨startMaster h, { x with status := .busy }⟩).bind (waitStop E fuel)

/-- `while (Chip_I2C_MasterTransfer(id, &xfer) == I2C_STATUS_ARBLOST) {}`, i2c.cpp:561, 576, 591, 602. -/
def retry (E : Env) (fuel : Nat) : Nat → Hw → Xfer → Option St
  | 0, _, _ => none
  | n + 1, h, x =>
    match transfer E fuel h x with
    | none => none
    | some s => if s.x.status = .arbLost then retry E fuel n s.h s.x else some s

/-- The `I2C_XFER_T` of a call, i2c.cpp:557-560, 570-575, 585-590, 598-601. -/
def xfer (addr : Byte) (tx : List Byte) (n : Nat) : Xfer := ⟨addr, tx, [], n, .done, false⟩

/-- What a call leaves behind: the controller, the result, the bytes stored at `buff`, and whether a byte was stored
beyond the size given by the caller. -/
structure Result where
  h : Hw
  ret : Int
  rx : List Byte
  oob : Bool

/-- `Chip_I2C_MasterSend`, i2c.cpp:555-563. -/
def masterSend (E : Env) (h : Hw) (addr : Byte) (buff : List Byte) (fuel : Nat) : Option Result :=
  (retry E fuel fuel h (xfer addr buff 0)).map fun s =>
    ⟨s.h, (buff.length : Int) - s.x.tx.length, s.x.rx, s.x.oob⟩

/-- `Chip_I2C_MasterWriteRead`, i2c.cpp:583-593. -/
def masterWriteRead (E : Env) (h : Hw) (addr : Byte) (cmd : List Byte) (n : Nat) (fuel : Nat) : Option Result :=
  (retry E fuel fuel h (xfer addr cmd n)).map fun s => ⟨s.h, (n : Int) - s.x.rxSz, s.x.rx, s.x.oob⟩

/-- `Chip_I2C_MasterCmdRead`, i2c.cpp:568-578: the same code with one byte to send. -/
def masterCmdRead (E : Env) (h : Hw) (addr cmd : Byte) (n : Nat) (fuel : Nat) : Option Result :=
  (retry E fuel fuel h (xfer addr [cmd] n)).map fun s => ⟨s.h, (n : Int) - s.x.rxSz, s.x.rx, s.x.oob⟩

/-- `Chip_I2C_MasterRead`, i2c.cpp:596-604. -/
def masterRead (E : Env) (h : Hw) (addr : Byte) (n : Nat) (fuel : Nat) : Option Result :=
  (retry E fuel fuel h (xfer addr [] n)).map fun s => ⟨s.h, (n : Int) - s.x.rxSz, s.x.rx, s.x.oob⟩

/-- `Chip_I2C_SetClockRate`, i2c.cpp:495-502: SCLH and SCLL. -/
def setClockRate (clk rate : Nat) : Nat × Nat := (clk / rate / 2, clk / rate - clk / rate / 2)

/-- `Chip_I2C_GetClockRate`, i2c.cpp:505-508. -/
def getClockRate (clk : Nat) (r : Nat × Nat) : Nat := clk / (r.1 + r.2)

end Verif.I2c
