import Verif.Base

/-!
# The device as an I2C slave (sblib/src/i2c.cpp)

The slave functions over a model of the controller. `Chip_I2C_SlaveStateHandler` is called after every change of the
controller's state (from the interrupt, i2c.cpp:72-80 and :117-120, or by the program), before anything else happens on
the bus: the controller holds the clock while SI is set.

The controller is that of the LPC11xx manual, slave receiver and slave transmitter mode; it is part of the trusted
base. It answers to its addresses while AA is set. A register ADRn that contains 0 answers to no address. A general
call is answered if bit 0 of one of the registers is set.

Not modelled: a master transfer of the device at the same time (`mXfer` is 0, so the states 0x68, 0x78 and 0xB0 do not
occur), the event handlers of the program (they are told what happened and do nothing), bus errors. A master ends a
read with a NAK, but this is not required: a STOP is taken in every state.
-/

namespace Verif.I2c.Slave

open Verif

/-- `I2C_XFER_T` of a slave, i2c.h:280-289. `txMem i`: the memory at `i` bytes after the original `txBuff`, `txPos`: how
far the pointer has moved; `rx`: the bytes stored at the original `rxBuff`; `done`: `status` is `I2C_STATUS_DONE`. `oob`: a
byte was stored although `rxSz` was not positive; `over`: a byte was sent although `txSz` was not positive. -/
structure Xfer where
  addr : Byte
  txMem : Nat → Byte
  txPos : Nat
  txSz : Int
  rx : List Byte
  rxSz : Int
  done : Bool
  oob : Bool
  over : Bool

/-- What the controller is addressed as. -/
inductive Mode
  | idle | receiver (gc : Bool) | transmitter
  deriving DecidableEq

/-- The events a program is told: `I2C_EVENT_DONE`, `I2C_EVENT_SLAVE_RX`, `I2C_EVENT_SLAVE_TX` (i2c.h:307-314; the values
2, 5 and 6 are those of `RET_SLAVE_*`, i2c.h:86-88). -/
inductive Event
  | done | rx | tx
  deriving DecidableEq

/-- Controller and driver. `adr`, `mask`: the registers ADR0-ADR3 and MASK (i2c.h:65-79); `slaves`: `i2c_slave`
(i2c.cpp:161-172), number 0 for general calls (i2c.h:257-264); `cur`: `sXfer`; `active`: `SLAVE_ACTIVE`, i2c.cpp:148;
`undef`: a pointer that was never set is used. -/
structure St where
  adr : Nat → Byte
  mask : Nat → Byte
  aa : Bool
  sta : Bool
  stat : Nat
  dat : Byte
  mode : Mode
  slaves : Nat → Option Xfer
  cur : Option Nat
  active : Bool
  events : List (Nat × Event)
  undef : Bool

/-- After `Chip_I2C_Init`: nothing is set up. -/
def St.init : St where
  adr := fun _ => 0#8
  mask := fun _ => 0#8
  aa := false
  sta := false
  stat := 0xf8
  dat := 0#8
  mode := .idle
  slaves := fun _ => none
  cur := none
  active := false
  events := []
  undef := false

/-- `isSlaveAddrMatching`, i2c.cpp:255-259. -/
def matching (addr1 addr2 mask : Byte) : Bool := (addr1 &&& ~~~(mask ||| 1#8)) == (addr2 &&& ~~~(mask ||| 1#8))

/-- `lookupSlaveIndex`, i2c.cpp:262-282. -/
def lookup (s : St) (a : Byte) : Nat :=
  if a >>> 1 = 0#8 then 0
  else if matching (s.adr 0) a (s.mask 0) then 1
  else if matching (s.adr 1) a (s.mask 1) then 2
  else if matching (s.adr 2) a (s.mask 2) then 3
  else if matching (s.adr 3) a (s.mask 3) then 4
  else 0

/-- `getSlaveIndex`, i2c.cpp:354-368. -/
def slaveIndex (s : St) : Nat :=
  if s.stat = 0x60 ∨ s.stat = 0x68 ∨ s.stat = 0x70 ∨ s.stat = 0x78 ∨ s.stat = 0xA8 ∨ s.stat = 0xB0 then lookup s s.dat else 0

/-- What `handleSlaveXferState` does: the transfer, the data register, the flags AA and STA, the event. -/
structure Handled where
  x : Xfer
  dat : Byte
  aa : Bool
  sta : Bool
  ev : Option Event

/-- `handleSlaveXferState`, i2c.cpp:371-430 (i2c.cpp:425-427: the flags kept out of `cclr` are set, the others and SI are
cleared). -/
def handleXfer (stat : Nat) (dat : Byte) (x0 : Xfer) : Handled :=
  let x := { x0 with done := false }
  if stat = 0x80 ∨ stat = 0x90 then
    let x := { x with rx := x.rx ++ [dat], rxSz := x.rxSz - 1, oob := x.oob || decide (x.rxSz ≤ 0) }
    ⟨x, dat, decide (x.rxSz > 1), false, some .rx⟩
  else if stat = 0x60 ∨ stat = 0x68 ∨ stat = 0x70 ∨ stat = 0x78 then
    ⟨{ x with addr := dat &&& 0xfe#8 }, dat, decide (x.rxSz > 1), false, none⟩
  else if stat = 0xA8 ∨ stat = 0xB0 ∨ stat = 0xB8 then
    let a := if stat = 0xB8 then x.addr else dat &&& 0xfe#8
    let x := { x with addr := a, txPos := x.txPos + 1, txSz := x.txSz - 1, over := x.over || decide (x.txSz ≤ 0) }
    ⟨x, x0.txMem x0.txPos, decide (x.txSz > 0), false, some .tx⟩
  else if stat = 0xC0 ∨ stat = 0xC8 ∨ stat = 0x88 ∨ stat = 0x98 ∨ stat = 0xA0 then
    ⟨{ x with done := true }, dat, true, x.addr.getLsbD 0, some .done⟩
  else ⟨x, dat, false, false, none⟩

/-- `Chip_I2C_SlaveStateHandler`, i2c.cpp:644-667. -/
def stateHandler (s : St) : St :=
  let k := s.cur.getD (slaveIndex s)
  match s.slaves k with
  | none => { s with undef := true }
  | some x =>
    let r := handleXfer s.stat s.dat x
    { s with
      slaves := fun j => if j = k then some r.x else s.slaves j
      dat := r.dat, aa := r.aa, sta := r.sta
      cur := if r.ev.isSome ∧ r.x.done then none else some k
      events := s.events ++ (r.ev.map fun e => (k, e)).toList }

/-- `Chip_I2C_SlaveSetup`, i2c.cpp:621-641, with `setSlaveAddr`, i2c.cpp:241-252, and `startSlaverXfer`, i2c.cpp:213-220,
for the first slave. `sid`: 0 for general calls, 1-4. -/
def setup (s : St) (sid : Nat) (x : Xfer) (m : Byte) : St :=
  { s with
    slaves := fun j => if j = sid then some x else s.slaves j
    mask := if sid = 0 then s.mask else fun j => if j = sid - 1 then m else s.mask j
    adr := if sid = 0 then s.adr else fun j => if j = sid - 1 then x.addr else s.adr j
    aa := if s.active then s.aa else true
    sta := if s.active then s.sta else false
    active := true }

/-- What a master does. -/
inductive BusOp
  /-- START or repeated START and an address byte -/
  | call (a : Byte)
  /-- a byte for the slave -/
  | write (b : Byte)
  /-- a byte from the slave, acknowledged or not -/
  | read (ack : Bool)
  | stop

/-- What is seen on the bus: with the acknowledge of the slave, and with the byte read. -/
inductive Seen
  | call (a : Byte) (ack : Bool)
  | write (b : Byte) (ack : Bool)
  | read (b : Byte) (ack : Bool)
  | stop
  deriving DecidableEq

/-- The controller's own addresses (LPC11xx manual, ADRn and MASKn registers). -/
def ownAddress (s : St) (a : Byte) : Bool :=
  (List.range 4).any fun k => s.adr k != 0#8 && (s.adr k &&& ~~~(s.mask k ||| 1#8)) == (a &&& ~~~(s.mask k ||| 1#8))

/-- General calls are answered. -/
def generalCall (s : St) : Bool := (List.range 4).any fun k => (s.adr k).getLsbD 0

/-- The state code after an address byte, if the controller answers. -/
def called (s : St) (a : Byte) : Option (Nat × Mode) :=
  if !s.aa then none
  else if a >>> 1 = 0#8 then if a = 0#8 && generalCall s then some (0x70, .receiver true) else none
  else if ownAddress s a then some (if a.getLsbD 0 then (0xA8, .transmitter) else (0x60, .receiver false))
  else none

/-- STOP or repeated START while addressed. -/
def release (s : St) : St :=
  if s.mode = .idle then s else stateHandler { s with stat := 0xA0, mode := .idle }

/-- One action of a master: the controller, then the driver. -/
def step (s : St) : BusOp → St × Seen
  | .stop => (release s, .stop)
  | .call a =>
    let s := release s
    match called s a with
    | none => (s, .call a false)
    | some (st, md) => (stateHandler { s with stat := st, mode := md, dat := a }, .call a true)
  | .write b =>
    match s.mode with
    | .receiver gc =>
      if s.aa then (stateHandler { s with stat := if gc then 0x90 else 0x80, dat := b }, .write b true)
      else (stateHandler { s with stat := if gc then 0x98 else 0x88, dat := b, mode := .idle }, .write b false)
    | _ => (s, .write b false)
  | .read ack =>
    match s.mode with
    | .transmitter =>
      if !ack then (stateHandler { s with stat := 0xC0, mode := .idle }, .read s.dat ack)
      else if s.aa then (stateHandler { s with stat := 0xB8 }, .read s.dat ack)
      else (stateHandler { s with stat := 0xC8, mode := .idle }, .read s.dat ack)
    | _ => (s, .read 0xff#8 ack)

/-- A history. -/
def run (s : St) : List BusOp → St × List Seen
  | [] => (s, [])
  | o :: os => ((run (step s o).1 os).1, (step s o).2 :: (run (step s o).1 os).2)

end Verif.I2c.Slave
