import Verif.Dev.System
import Verif.Dev.SysLemmas
import Verif.Util.TimeModel

/-!
# The main loop of a device

`BcuDefault::loop` with `BcuBase::loop`: transport layer, received telegram, programming button,
restart, group telegrams, saving (sblib/src/eib/bcu_default.cpp, bcu_base.cpp).

Simplifications

* `bus->sendingFrame()` (bus.h:292-295) is true while a telegram of the transport layer is being sent
  (`sendCurTelegram`; set and cleared together with `TELEGRAM_SENDING`, bus.cpp:206-213 and :535-539)
  or while an acknowledge frame is pending.  The latter is an input, chosen freely for each query.
* The end of a transmission is an interrupt.  It can come between the loops (`MainEv.txDone`) or at
  four places inside a loop (`In.irq1` … `In.irq4`), wherever the next statement depends on it.
* `millis()` does not change during one loop.
* What the communication objects want to send (`sendNextGroupTelegram`, with its rate limit) is an
  input; see `Verif.Com` for how it is chosen.
* `usrCallback`, and `bus->pause()`/`resume()` around the saving, are not modelled.
* The contents of the flash after `writeUserEeprom` are the contents of the EEPROM array (that is C28,
  `Verif.Eeprom`); `flash` is its abstraction. That `writeUserEeprom` sets the last byte of the array to 0
  (userEeprom.cpp:93) is left out here.
* `writeDelayElapsed()` (userEeprom.cpp:163-168) is true whenever the EEPROM is modified (that is part of C58);
  the condition in bcu_default.cpp:151 is written without it.
-/

namespace Verif.Dev

open Verif.Knx

/-- A device with the variables of its loop, bcu_base.h:117-135. -/
structure Main where
  tl : TL4.State Dev
  /-- `restartType` -/
  restart : RestartType
  /-- `restartSendDisconnect` -/
  sendDisc : Bool
  /-- `restartTimeout` -/
  timeout : Time.Timeout
  /-- `progButtonDebouncer` -/
  deb : Time.Debouncer
  /-- the level last written to the programming pin -/
  led : Bool
  /-- the saved image of the EEPROM -/
  flash : Nat → Byte
  /-- `NVIC_SystemReset` was called (`some true`: the magic word for the bootloader is in place) -/
  off : Option Bool

/-- What one loop finds. -/
structure In where
  /-- `bus->telegram`, `bus->telegramLen`, if a telegram has been received -/
  rx : Option (Buf × Nat)
  /-- `digitalRead(progPin)`: 1 released, 0 pressed -/
  pin : Int
  /-- the next group telegram to send, if the communication objects have one and may send it -/
  grp : Option (Buf → Buf)
  ack1 : Bool := false
  ack2 : Bool := false
  ack3 : Bool := false
  irq1 : Option Bool := none
  irq2 : Option Bool := none
  irq3 : Option Bool := none
  irq4 : Option Bool := none

/-- What can be observed. -/
inductive MainOut
  /-- telegrams sent and telegrams processed -/
  | bus (o : TL4.Out)
  /-- the EEPROM is written to flash -/
  | save (ee : Nat → Byte)
  /-- the processor is reset; into the bootloader or not -/
  | reset (boot : Bool)

abbrev MRes := Main × List MainOut

/-- One statement after the other. -/
def MRes.then (r : MRes) (f : Main → MRes) : MRes := ((f r.1).1, r.2 ++ (f r.1).2)

section
variable (W : World) (group : Dev → Buf → Nat → Dev × Option (Buf → Buf))

/-- `bus->sendingFrame()`, bus.h:292-295. -/
def sendingFrame (m : Main) (ack : Bool) : Bool := decide (m.tl.tx = .sending) || ack

/-- A call into the transport layer.  `Dev.restart` is cleared before: it shows afterwards whether
`scheduleRestart` (bcu_base.cpp:181-186) was called by a service, and with which type.
`directConnection()`: knx_tlayer4.h:324-327. -/
def tlOp (m : Main) (op : TL4.Op) : MRes :=
  let r := sysStep W group { m.tl with app := { m.tl.app with restart := .none } } (.tl op)
  let m1 := { m with tl := r.1 }
  (if r.1.app.restart ≠ .none then
    { m1 with
      restart := r.1.app.restart
      sendDisc := decide (m.tl.phase ≠ .closed)
      timeout := Time.Timeout.start m.tl.clock 250#32 }
   else m1, r.2.map .bus)

/-- The interrupt at the end of a transmission, bus.cpp:535-539. -/
def irq (x : Option Bool) (m : Main) : MRes :=
  match x with
  | none => (m, [])
  | some ok => tlOp W group m (.txDone ok)

/-- bcu_base.cpp:62-65 (`BCU_STATUS_TRANSPORT_LAYER`: userRam.h:22). -/
def receive (rx : Option (Buf × Nat)) (ack : Bool) (m : Main) : MRes :=
  match rx with
  | none => (m, [])
  | some (t, len) =>
    if !sendingFrame m ack && m.tl.app.status.getLsbD 2 then tlOp W group m (.rx t len) else (m, [])

/-- bcu_base.cpp:67-78, for a device with a programming pin. -/
def pollButton (pin : Int) (m : Main) : MRes :=
  let old := m.deb.valid
  let deb := m.deb.debounce m.tl.clock pin 50#32
  let d := if deb.valid = 0 ∧ old ≠ 0 then toggleProg m.tl.app else m.tl.app
  ({ m with deb := deb, tl := { m.tl with app := d }, led := !programmingMode d }, [])

/-- `flushUserMemory`, bcu_default.cpp:591-612; `writeUserEeprom` does nothing if nothing was
modified (userEeprom.cpp:62-67). -/
def flush (m : Main) : MRes :=
  let d := m.tl.app
  let mp := d.mapper.map (MemMap.doFlash W.E W.mc)
  if d.eeModified then
    ({ m with tl := { m.tl with app := { d with eeModified := false, mapper := mp } }, flash := d.ee },
      [.save d.ee])
  else ({ m with tl := { m.tl with app := { d with mapper := mp } } }, [])

/-- `BcuDefault::softSystemReset`, bcu_default.cpp:585-589, and `BcuBase::softSystemReset`,
bcu_base.cpp:188-204. -/
def softReset (m : Main) : MRes :=
  let boot := decide (m.restart = .masterIntoBootloader)
  (flush W m).then fun m => ({ m with off := some boot }, [.reset boot])

/-- bcu_base.cpp:80-112. -/
def pollRestart (ack : Bool) (m : Main) : MRes :=
  if sendingFrame m ack then (m, [])
  else if m.restart = .none then (m, [])
  else if m.sendDisc then
    (tlOp W group m .disconnect).then fun m => ({ m with sendDisc := false }, [])
  else
    let r := m.timeout.expired m.tl.clock
    if r.2 then softReset W { m with timeout := r.1 } else ({ m with timeout := r.1 }, [])

/-- bcu_default.cpp:125-154, after a `BcuBase::loop` that returned. -/
def loopTail (i : In) (m : Main) : MRes :=
  if m.off.isSome || sendingFrame m i.ack3 then (m, [])
  else
    let r : MRes := match i.grp with
      | none => (m, [])
      | some f => if applicationRunning W.kind m.tl.app then tlOp W group m (.userSend f) else (m, [])
    r.then fun m =>
      if m.tl.app.eeModified && decide (m.tl.phase = .closed) then flush W m else (m, [])

/-- `BcuBase::loop` up to the restart handling, bcu_base.cpp:46-78. -/
def loopHead (i : In) (m : Main) : MRes :=
  (((((irq W group i.irq1 m).then (tlOp W group · .loop)).then (irq W group i.irq2)).then
    (receive W group i.rx i.ack1)).then (pollButton i.pin)).then (irq W group i.irq3)

/-- `BcuDefault::loop`, bcu_default.cpp:118-155. -/
def mainLoop (i : In) (m : Main) : MRes :=
  if m.off.isSome || !m.tl.enabled then (m, [])
  else (((loopHead W group i m).then (pollRestart W group i.ack2)).then (irq W group i.irq4)).then
    (loopTail W group i)

/-- What happens to a device. -/
inductive MainEv
  | loop (i : In)
  /-- time passes outside the loop -/
  | advance (ms : Nat)
  /-- the end of a transmission, outside the loop -/
  | txDone (ok : Bool)
  /-- the application sends a telegram -/
  | userSend (f : Buf → Buf)
  /-- `setOwnAddress` called by the application -/
  | setOwnAddress (a : Word)
  /-- `setProgrammingMode`, bcu_base.cpp:115-129 -/
  | setProgMode (on : Bool)

/-- One event; nothing happens any more after the reset. -/
def mainStep (m : Main) (e : MainEv) : MRes :=
  if m.off.isSome then (m, [])
  else match e with
    | .loop i => mainLoop W group i m
    | .advance ms => tlOp W group m (.advance ms)
    | .txDone ok => tlOp W group m (.txDone ok)
    | .userSend f => tlOp W group m (.userSend f)
    | .setOwnAddress a => tlOp W group m (.setOwnAddress a)
    | .setProgMode on =>
      let r := sysStep W group m.tl (.setProgMode on)
      ({ m with tl := r.1, led := !programmingMode r.1.app }, r.2.map .bus)

/-- A history. -/
def mainRun : Main → List MainEv → MRes
  | m, [] => (m, [])
  | m, e :: es => (mainStep W group m e).then (mainRun · es)

end

/-- The loop variables after `BcuBase::_begin`, bcu_base.cpp:23-44. -/
def Main.begin (tl : TL4.State Dev) (deb : Time.Debouncer) (flash : Nat → Byte) (led : Bool) : Main :=
  { tl := tl, restart := .none, sendDisc := false, timeout := .stop, deb := deb.init 1, led := led,
    flash := flash, off := none }

end Verif.Dev
