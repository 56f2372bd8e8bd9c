import Verif.Util.Bytes
import Verif.Gas.Model

/-!
# The SHT1x temperature and humidity sensor: the driver

Model of sblib/src/i2c/SHT1x.cpp: the pins DATA and SCK, the sensor behind them as any automaton
that sees the two lines and the time, and the float arithmetic as any arithmetic.
Simplifications: writing a pin takes no time; the values left in a variable that was not written
(after `return false`) are not modelled.
-/

namespace Verif.Sht

open Verif.Bytes

/-- What is connected to the pins.  `lines s free clk`: the device sees that the driver lets DATA
free (`true`) or pulls it low, and the level of SCK.  `pull s`: the device pulls DATA low.
`wait s n`: `n` microseconds pass. -/
structure Device (σ : Type) where
  lines : σ → Bool → Bool → σ
  pull : σ → Bool
  wait : σ → Nat → σ

/-- The pins and the device.  `out` is the output latch of the data pin, `dir` whether it is an
(open drain) output, `clk` the clock pin; `waits` counts the delays. -/
structure World (σ : Type) where
  dev : σ
  out : Bool
  dir : Bool
  clk : Bool
  waits : Nat

section
variable {σ : Type} (D : Device σ)

/-- The driver does not pull DATA. -/
def World.free (w : World σ) : Bool := !(w.dir && !w.out)

/-- The device sees the pins. -/
def settle (w : World σ) : World σ := { w with dev := D.lines w.dev w.free w.clk }

/-- `digitalWrite(dataPin, v)`, as used in sblib/src/i2c/SHT1x.cpp:43-270 (the pin itself: C74). -/
def setData (v : Bool) (w : World σ) : World σ := settle D { w with out := v }

/-- `digitalWrite(clockPin, v)`, as used in SHT1x.cpp:32-270. -/
def setClock (v : Bool) (w : World σ) : World σ := settle D { w with clk := v }

/-- `digitalRead(dataPin)`, as used in SHT1x.cpp:190-262. -/
def readData (w : World σ) : Bool := w.free && !D.pull w.dev

/-- `delay` and `delayMicroseconds`, as used in SHT1x.cpp:218 and 238; `dur` gives the time that
really passes (C72). -/
def pass (dur : Nat → Nat → Nat) (usec : Nat) (w : World σ) : World σ :=
  { w with dev := D.wait w.dev (dur w.waits usec), waits := w.waits + 1 }

/-- `SHT1x::activateDataPin` (SHT1x.cpp:43-47). -/
def activateDataPin (w : World σ) : World σ := setData D true (settle D { w with dir := true })

/-- `SHT1x::releaseDataPin` (SHT1x.cpp:49-52). -/
def releaseDataPin (w : World σ) : World σ := settle D { w with dir := false }

/-- `SHT1x::clockCycle` (SHT1x.cpp:54-59). -/
def clockCycle (w : World σ) : World σ := setClock D false (setClock D true w)

/-- The constructor `SHT1x::SHT1x` (SHT1x.cpp:32-41), which leaves the latch of DATA as it is. -/
def construct (dev : σ) (out : Bool) : World σ :=
  releaseDataPin D (setClock D false ⟨dev, out, false, false, 0⟩)

/-- `SHT1x::sendTransmissionStart` (SHT1x.cpp:173-188). -/
def sendTransmissionStart (w : World σ) : World σ :=
  let w := setData D true w
  let w := setClock D true w
  let w := setData D false w
  let w := setClock D false w
  let w := setClock D true w
  let w := setData D true w
  setClock D false w

/-- One turn of `shiftOut(dataPin, clockPin, MSBFIRST, val)`
(sblib/src/digital_pin_shift.cpp:34-43). -/
def shiftOutTurn (val : Byte) (w : World σ) (i : Nat) : World σ :=
  (shiftOutBit .msbFirst val i).foldl (fun w e => match e with
    | .data l => setData D l w
    | .clock l => setClock D l w) w

/-- `shiftOut(dataPin, clockPin, MSBFIRST, val)` (digital_pin_shift.cpp:30-44). -/
def shiftOut (val : Byte) (w : World σ) : World σ := (List.range 8).foldl (shiftOutTurn D val) w

/-- One turn of `shiftIn(dataPin, clockPin, MSBFIRST)` (digital_pin_shift.cpp:17-26). -/
def shiftInTurn (p : World σ × BitVec 32) (i : Nat) : World σ × BitVec 32 :=
  let w := setClock D true p.1
  let value := shiftInBit .msbFirst p.2 i (readData D w)
  (setClock D false w, value)

/-- `shiftIn(dataPin, clockPin, MSBFIRST)` (digital_pin_shift.cpp:12-28). -/
def shiftIn (w : World σ) : World σ × Byte :=
  let p := (List.range 8).foldl (shiftInTurn D) (w, 0#32)
  (p.1, p.2.setWidth 8)

variable (dur : Nat → Nat → Nat)

/-- The loop at the end of `sendByteToSHT` (SHT1x.cpp:211-222) with `n` turns left;
`MAX_DELAY_MICROSECONDS` is 4000 (sblib/inc/sblib/timer.h:36). -/
def waitHigh : Nat → World σ → World σ × Bool
  | 0, w => (w, false)
  | n + 1, w => if readData D w then (w, true) else waitHigh n (pass D dur 4000 w)

/-- `SHT1x::sendByteToSHT` (SHT1x.cpp:190-223). -/
def sendByteToSHT (toSend : Byte) (isCommand : Bool) (w : World σ) : World σ × Bool :=
  let w := activateDataPin D w
  let w := if isCommand then sendTransmissionStart D w else w
  let w := shiftOut D toSend w
  let w := releaseDataPin D w
  let w := setClock D true w
  if readData D w then (w, false)
  else
    let w := setClock D false w
    waitHigh D dur 25 w

/-- The loop of `waitForResultSHT` (SHT1x.cpp:228-242) with `n` turns left. -/
def waitLow : Nat → World σ → World σ × Bool
  | 0, w => (w, false)
  | n + 1, w => if readData D w then waitLow n (pass D dur 20000 w) else (w, true)

/-- `SHT1x::waitForResultSHT` (SHT1x.cpp:225-243): the turns with `i` from 0 to
`MAX_WAIT_MS / WAIT_STEP_MS` (sblib/inc/sblib/i2c/SHT1x.h:33-34). -/
def waitForResultSHT (w : World σ) : World σ × Bool :=
  waitLow D dur (340 / 20 + 1) (releaseDataPin D w)

/-- `SHT1x::getData16SHT` (SHT1x.cpp:245-262). -/
def getData16SHT (w : World σ) : World σ × Word :=
  let w := releaseDataPin D w
  let (w, high) := shiftIn D w
  let val : Word := high.setWidth 16 <<< 8
  let w := activateDataPin D w
  let w := setData D false w
  let w := clockCycle D w
  let w := releaseDataPin D w
  let (w, low) := shiftIn D w
  (w, val ||| low.setWidth 16)

/-- `SHT1x::skipCrcSHT` (SHT1x.cpp:264-270). -/
def skipCrcSHT (w : World σ) : World σ := releaseDataPin D (clockCycle D (activateDataPin D w))

/-- A command with a result of 16 bits: the part common to `readHumidity` (SHT1x.cpp:134-145),
`readTemperatureRaw` (158-168) and `getStatusRegister` (333-343). -/
def measure (command : Byte) (w : World σ) : World σ × Option Word :=
  let (w, ok) := sendByteToSHT D dur command true w
  if ok then
    let (w, ok) := waitForResultSHT D dur w
    if ok then
      let (w, val) := getData16SHT D w
      (skipCrcSHT D w, some val)
    else (w, none)
  else (w, none)

/-- `SHT1x::getStatusRegister` (SHT1x.cpp:325-346); command 0x07 (SHT1x.h:149). -/
def getStatusRegister (w : World σ) : World σ × Option Word :=
  let w := activateDataPin D w
  let w := (List.range 10).foldl (fun w _ => clockCycle D w) w
  measure D dur 0x07#8 w

/-- `SHT1x::setStatusRegister` (SHT1x.cpp:348-360); command 0x06 (SHT1x.h:150).  The argument of
`sendByteToSHT` is a byte. -/
def setStatusRegister (status : Word) (w : World σ) : World σ × Bool :=
  let (w, ok) := sendByteToSHT D dur 0x06#8 true w
  if ok then sendByteToSHT D dur (status.setWidth 8) false w else (w, false)

/-- `SHT1x::softReset` (SHT1x.cpp:362-369); command 0x1e (SHT1x.h:151). -/
def softReset (w : World σ) : World σ × Bool := sendByteToSHT D dur 0x1e#8 true w

end

/-! ## The values -/

section
variable {σ α : Type} (D : Device σ) (A : Gas.Arith α) (dur : Nat → Nat → Nat)

/-- The object: the pins and the last values, `lastTemperatureC` and `lastHumidity`
(SHT1x.h:181-184); `none` is an undefined value. -/
structure Sensor (σ : Type) where
  world : World σ
  lastTemperature : Option Int
  lastHumidity : Option Int

/-- The conversion of a float to `int16_t`: towards zero, undefined if it does not fit. -/
def toInt16 (x : α) : Option Int :=
  if -32768 ≤ A.toInt x ∧ A.toInt x ≤ 32767 then some (A.toInt x) else none

/-- The conversion of a float to `uint16_t`: towards zero, undefined if it does not fit. -/
def toUInt16 (x : α) : Option Int :=
  if 0 ≤ A.toInt x ∧ A.toInt x ≤ 65535 then some (A.toInt x) else none

/-- `SHT1x::convertRawTemperature` (SHT1x.cpp:61-80) with the factor of the scale. -/
def convertRawTemperature (temperature : α) (d2 : Rat) : α :=
  A.add (A.mul temperature (A.lit d2)) (A.neg (A.lit (397 / 10)))

/-- `SHT1x::readTemperatureRaw` (SHT1x.cpp:155-171); command 0x03 (SHT1x.h:147).  `int16_t` is
the number in the 16 bits as a signed one; INVALID_TEMPERATURE is -27300 (SHT1x.h:36). -/
def readTemperatureRaw (s : Sensor σ) : Sensor σ × Option Int :=
  let s := { s with lastTemperature := some (-27300) }
  let (w, r) := measure D dur 0x03#8 s.world
  ({ s with world := w }, r.map BitVec.toInt)

/-- `SHT1x::readTemperatureC` (SHT1x.cpp:82-92). -/
def readTemperatureC (s : Sensor σ) : Sensor σ × Option α :=
  match readTemperatureRaw D dur s with
  | (s, none) => (s, none)
  | (s, some val) =>
    let t := convertRawTemperature A (A.ofInt val) (1 / 100)
    ({ s with lastTemperature := toInt16 A (A.mul t (A.ofInt 100)) }, some t)

/-- `SHT1x::readTemperatureF` (SHT1x.cpp:94-106). -/
def readTemperatureF (s : Sensor σ) : Sensor σ × Option α :=
  match readTemperatureRaw D dur s with
  | (s, none) => (s, none)
  | (s, some val) =>
    let t := convertRawTemperature A (A.ofInt val) (1 / 100)
    let s := { s with lastTemperature := toInt16 A (A.mul t (A.ofInt 100)) }
    (s, some (convertRawTemperature A (A.ofInt val) (18 / 1000)))

/-- The formula of `readHumidity` (SHT1x.cpp:120-125 and 147-151). -/
def humidityOf (t : α) (val : Int) : α :=
  let v := A.ofInt val
  let linear := A.add (A.add (A.neg (A.lit (20468 / 10000))) (A.mul (A.lit (367 / 10000)) v))
    (A.mul (A.mul (A.neg (A.lit (15955 / 10000000000))) v) v)
  A.add (A.mul (A.sub t (A.ofInt 25))
    (A.add (A.lit (1 / 100)) (A.mul (A.lit (8 / 100000)) v))) linear

/-- `SHT1x::readHumidity` (SHT1x.cpp:108-153); command 0x05 (SHT1x.h:148). -/
def readHumidity (s : Sensor σ) : Sensor σ × Option α :=
  let s := { s with lastHumidity := some 0 }
  match readTemperatureC D A dur s with
  | (s, none) => (s, none)
  | (s, some t) =>
    match measure D dur 0x05#8 s.world with
    | (w, none) => ({ s with world := w }, none)
    | (w, some val) =>
      let h := humidityOf A t val.toNat
      ({ s with world := w, lastHumidity := toUInt16 A (A.mul h (A.ofInt 100)) }, some h)

/-- `SHT1x::GetHumidity` (SHT1x.cpp:277-288). -/
def GetHumidity (s : Sensor σ) : Sensor σ × Option Int :=
  match readHumidity D A dur s with
  | (s, some h) => (s, toUInt16 A (A.mul h (A.ofInt 100)))
  | (s, none) => (s, some 0)

/-- `SHT1x::GetTemperature` (SHT1x.cpp:290-301): the value is converted to `uint16_t` first. -/
def GetTemperature (s : Sensor σ) : Sensor σ × Option Int :=
  match readTemperatureC D A dur s with
  | (s, some t) =>
    (s, (toUInt16 A (A.mul t (A.ofInt 100))).map fun n => (BitVec.ofInt 16 n).toInt)
  | (s, none) => (s, some (-27300))

end

end Verif.Sht
