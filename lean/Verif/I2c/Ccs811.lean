import Verif.I2c.Sensors

/-!
# The CCS811 driver as a whole (sblib/src/i2c/CCS811.cpp)

Every function of the driver with the WAKE pin, the waiting and the I2C transfers, over the I2C master of
`I2c/Model.lean`. The transfers of `getData`, `getBaseline` and `setBaseline` are those of `I2c/Sensors.lean`.

The members `_I2C_ADDR` and `_WAKE_PIN` are set by `begin` and used by all other functions; the model has one sensor, so
the address is an argument and the pin has no number. `i2c_lpcopen_init` does nothing on an initialised bus (as in
`Sensors.lean`). Local variables without initial value hold `junk`. `reset` is declared (CCS811.h:63) but not defined.
-/

namespace Verif.I2c

open Verif

/-- What the driver does, in order. -/
inductive CcsEv
  /-- `pinMode(_WAKE_PIN, OUTPUT)` -/
  | output
  /-- the WAKE pin is set to this level -/
  | wake (level : Bool)
  /-- waiting, in microseconds -/
  | wait (us : Nat)
  /-- an I2C transfer: what was on the bus -/
  | bus (ev : List BusEv)
  deriving DecidableEq

/-- The I2C controller and what the driver has done. -/
structure CcsW where
  h : Hw
  log : List CcsEv

def CcsW.put (w : CcsW) (l : List CcsEv) : CcsW := ⟨w.h, w.log ++ l⟩

/-- `digitalWrite(_WAKE_PIN, v)`, e.g. CCS811.cpp:60. -/
def ccsPin (v : Bool) (w : CcsW) : CcsW := w.put [.wake v]

/-- `CCS811Class::_digitalWrite`, CCS811.cpp:233-237. -/
def ccsSlowPin (v : Bool) (w : CcsW) : CcsW := w.put [.wake v, .wait 60]

/-- `delayMicroseconds`, e.g. CCS811.cpp:57. -/
def ccsDelay (us : Nat) (w : CcsW) : CcsW := w.put [.wait us]

/-- A transfer that leaves the controller as `h`. -/
def CcsW.moved (w : CcsW) (h : Hw) : CcsW := ⟨h, w.log ++ [.bus (h.trace.drop w.h.trace.length)]⟩

/-- `CCS811Class::readStatus`, CCS811.cpp:93-101; the register: CCS811.h:37. -/
def ccsStatus (E : Env) (addr junk : Byte) (w : CcsW) (fuel : Nat) : Option (CcsW × Byte) :=
  let w := ccsDelay 50 (ccsSlowPin false (ccsDelay 20 w))
  (masterCmdRead E w.h addr 0x00#8 1 fuel).map fun r => (ccsPin true (w.moved r.h), byteAt (over r.rx [junk]) 0)

/-- `CCS811Class::readHW_ID`, CCS811.cpp:103-112; the register: CCS811.h:43. -/
def ccsHwId (E : Env) (addr junk : Byte) (w : CcsW) (fuel : Nat) : Option (CcsW × Byte) :=
  let w := ccsDelay 50 (ccsSlowPin false w)
  (masterCmdRead E w.h addr 0x20#8 1 fuel).map fun r =>
    (ccsPin true (w.moved r.h), if r.ret ≠ 1 then 0#8 else byteAt (over r.rx [junk]) 0)

/-- `CCS811Class::readErrorID`, CCS811.cpp:143-154; the register: CCS811.h:44. -/
def ccsErrorId (E : Env) (addr junk status : Byte) (w : CcsW) (fuel : Nat) : Option (CcsW × Byte) :=
  let w := ccsDelay 50 (ccsSlowPin false w)
  (masterCmdRead E w.h addr 0xe0#8 1 fuel).map fun r =>
    (ccsPin true (w.moved r.h), if status &&& 1#8 ≠ 0#8 then byteAt (over r.rx [junk]) 0 else 0#8)

/-- CCS811.cpp:156-162, 169-175: WAKE, one transfer, WAKE off. -/
def ccsSend (E : Env) (addr : Byte) (data : List Byte) (w : CcsW) (fuel : Nat) : Option CcsW :=
  let w := ccsDelay 50 (ccsSlowPin false w)
  (masterSend E w.h addr data fuel).map fun r => ccsPin true (w.moved r.h)

/-- `CCS811Class::sleep`, CCS811.cpp:156-162; the register: CCS811.h:38. -/
def ccsSleep (E : Env) (addr : Byte) (w : CcsW) (fuel : Nat) : Option CcsW := ccsSend E addr [0x01#8, 0x00#8] w fuel

/-- `CCS811Class::setMode`, CCS811.cpp:169-175. -/
def ccsSetMode (E : Env) (addr mode : Byte) (w : CcsW) (fuel : Nat) : Option CcsW :=
  ccsSend E addr [0x01#8, mode <<< 4] w fuel

/-- `CCS811Class::compensate`, CCS811.cpp:206-231, from the two bytes that are computed from the temperature and the
humidity (`Sht/Convert.lean`); the register: CCS811.h:40. -/
def ccsCompensate (E : Env) (addr rh t : Byte) (w : CcsW) (fuel : Nat) : Option CcsW :=
  ccsSend E addr [0x05#8, rh, 0x00#8, t, 0x00#8] w fuel

/-- `CCS811Class::getBaseline`, CCS811.cpp:121-132. -/
def ccsReadBaseline (E : Env) (addr : Byte) (junk : List Byte) (w : CcsW) (fuel : Nat) : Option (CcsW × Word) :=
  let w := ccsDelay 50 (ccsSlowPin false w)
  (ccsGetBaseline E w.h addr junk fuel).map fun r => (ccsPin true (w.moved r.1), r.2)

/-- `CCS811Class::setBaseline`, CCS811.cpp:135-141. -/
def ccsWriteBaseline (E : Env) (addr : Byte) (b : Word) (w : CcsW) (fuel : Nat) : Option CcsW :=
  let w := ccsDelay 50 (ccsSlowPin false w)
  (ccsSetBaseline E w.h addr b fuel).map fun h => ccsPin true (w.moved h)

/-- `CCS811Class::getData`, CCS811.cpp:178-196. -/
def ccsGetData (E : Env) (addr : Byte) (w : CcsW) (fuel : Nat) : Option (CcsW × Option (Word × Word)) :=
  let w := ccsDelay 50 (ccsSlowPin false (ccsDelay 20 w))
  (ccsData E w.h addr fuel).map fun r => (ccsPin true (w.moved r.1), r.2)

/-- `CCS811Class::begin`, CCS811.cpp:35-91. `junk`: the uninitialised variables of the readings of the identification, of
the two readings of the status, and of the error. -/
def ccsBegin (E : Env) (addr : Byte) (junk : Byte × Byte × Byte × Byte) (w : CcsW) (fuel : Nat) : Option (CcsW × Bool) :=
  (ccsHwId E addr junk.1 (w.put [.wait 70000, .output]) fuel).bind fun (w, id) =>
  if id ≠ 0x81#8 then some (w, false)
  else (ccsStatus E addr junk.2.1 w fuel).bind fun (w, status) =>
    if status &&& 0x10#8 = 0#8 then (ccsErrorId E addr junk.2.2.2 status w fuel).map fun (w, _) => (w, false)
    else (ccsSend E addr [0xf4#8] (ccsDelay 20 w) fuel).bind fun w =>
      (ccsStatus E addr junk.2.2.1 w fuel).bind fun (w, status) =>
      if status &&& 0x80#8 = 0#8 then (ccsErrorId E addr junk.2.2.2 status w fuel).map fun (w, _) => (w, false)
      else (ccsSend E addr [0x01#8, 0x20#8] (ccsDelay 20 w) fuel).map fun w => (w, true)

/-- A call of the driver, CCS811.h:51-64, with what the uninitialised variables hold. -/
inductive CcsCall
  | begin (junk : Byte × Byte × Byte × Byte)
  | status (junk : Byte)
  | hwId (junk : Byte)
  | errorId (junk status : Byte)
  | getBaseline (j0 j1 : Byte)
  | setBaseline (b : Word)
  | setMode (mode : Byte)
  | getData
  | compensate (rh t : Byte)
  | sleep

/-- A call; its result is dropped. -/
def ccsCall (E : Env) (addr : Byte) (w : CcsW) (fuel : Nat) : CcsCall → Option CcsW
  | .begin j => (ccsBegin E addr j w fuel).map (·.1)
  | .status j => (ccsStatus E addr j w fuel).map (·.1)
  | .hwId j => (ccsHwId E addr j w fuel).map (·.1)
  | .errorId j s => (ccsErrorId E addr j s w fuel).map (·.1)
  | .getBaseline j0 j1 => (ccsReadBaseline E addr [j0, j1] w fuel).map (·.1)
  | .setBaseline b => ccsWriteBaseline E addr b w fuel
  | .setMode m => ccsSetMode E addr m w fuel
  | .getData => (ccsGetData E addr w fuel).map (·.1)
  | .compensate rh t => ccsCompensate E addr rh t w fuel
  | .sleep => ccsSleep E addr w fuel

/-- A program: calls one after the other, and anything from no time on between them. -/
def ccsCalls (E : Env) (addr : Byte) (w : CcsW) (fuel : Nat) : List (CcsCall × Nat) → Option CcsW
  | [] => some w
  | (c, us) :: cs => (ccsCall E addr w fuel c).bind fun w => ccsCalls E addr (ccsDelay us w) fuel cs

end Verif.I2c
