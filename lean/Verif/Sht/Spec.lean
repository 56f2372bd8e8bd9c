import Verif.Sht.Model

/-!
# The sensor

The sensor as its data sheet describes it, seen from the two lines.  A transmission start is: DATA
falls while SCK is high, SCK goes low and high again, DATA rises while SCK is high.  Bits are
taken over when SCK rises, and put out when SCK falls.  A command is acknowledged by pulling DATA
low for the ninth clock.  After a command to measure the sensor pulls DATA low when it is done.
-/

namespace Verif.Sht

/-- A measurement: the two values the sensor would find, the time the measurement takes, and for
how long DATA stays low after the acknowledge (SHT1x.cpp:218), in microseconds. -/
structure Reading where
  temperature : Nat
  humidity : Nat
  time : Nat
  low : Nat

/-- What the sensor is doing. -/
inductive Phase where
  | idle
  /-- DATA has fallen while SCK was high, then SCK fell, then it rose. -/
  | start0 | start1 | start2
  /-- Bits of a command received so far. -/
  | command (n : Nat) (bits : Byte)
  /-- Acknowledging a command. -/
  | ack (c : Byte)
  /-- Bits of the new status received so far. -/
  | status (n : Nat) (bits : Byte)
  /-- Acknowledging the new status. -/
  | statusAck (v : Byte)
  /-- Measuring: time for which DATA stays low, time left, bytes of the result. -/
  | measuring (low left : Nat) (result : List Byte)
  /-- Sending bits of a byte, then the bytes left. -/
  | sending (bits : List Bool) (rest : List Byte)
  /-- A byte is sent, the acknowledge of the driver is awaited. -/
  | sent (rest : List Byte)
  /-- The driver acknowledged. -/
  | more (rest : List Byte)
  /-- The driver did not acknowledge. -/
  | last

/-- The sensor: levels seen last, phase, status register, number of measurements begun. -/
structure Chip where
  clk : Bool
  line : Bool
  phase : Phase
  status : Byte
  count : Nat

/-- The sensor pulls DATA low. -/
def Chip.pull (c : Chip) : Bool :=
  match c.phase with
  | .ack _ => true
  | .statusAck _ => true
  | .measuring low _ _ => decide (0 < low)
  | .sending (b :: _) _ => !b
  | _ => false

/-- The bits of a byte, highest first. -/
def bitsOf (b : Byte) : List Bool := (List.range 8).map fun i => b.getLsbD (7 - i)

/-- The bytes of a result of 16 bits with its check byte. -/
def resultOf (v : Nat) (check : Byte) : List Byte :=
  [BitVec.ofNat 8 (v / 256), BitVec.ofNat 8 (v % 256), check]

/-- The first byte of a result is put out. -/
def Phase.send : List Byte → Phase
  | [] => .idle
  | b :: rest => .sending (bitsOf b) rest

section
variable (script : Nat → Reading) (check : List Byte → Byte)

/-- After the acknowledge of a command: what the command asks for. -/
def Chip.execute (s : Chip) (c : Byte) : Chip :=
  let r := script s.count
  let result (v : Nat) := resultOf v (check [c, BitVec.ofNat 8 (v / 256), BitVec.ofNat 8 (v % 256)])
  if c = 0x03#8 then
    { s with phase := .measuring r.low r.time (result r.temperature), count := s.count + 1 }
  else if c = 0x05#8 then
    { s with phase := .measuring r.low r.time (result r.humidity), count := s.count + 1 }
  else if c = 0x06#8 then { s with phase := .status 0 0#8 }
  else if c = 0x07#8 then { s with phase := .send [s.status, check [c, s.status]] }
  else { s with phase := .idle, status := 0#8 }

/-- The commands the sensor knows. -/
def known (c : Byte) : Bool := [0x03#8, 0x05#8, 0x06#8, 0x07#8, 0x1e#8].contains c

/-- A bit is taken over. -/
def shifted (bits : Byte) (level : Bool) : Byte := bits <<< 1 ||| (if level then 1#8 else 0#8)

/-- SCK rises while DATA has a level. -/
def Chip.rise (s : Chip) (level : Bool) : Chip :=
  match s.phase with
  | .start1 => { s with phase := .start2 }
  | .command n bits => { s with phase := .command (n + 1) (shifted bits level) }
  | .status n bits => { s with phase := .status (n + 1) (shifted bits level) }
  | .sent rest => { s with phase := if level then .last else .more rest }
  | _ => s

/-- SCK falls. -/
def Chip.fall (s : Chip) : Chip :=
  match s.phase with
  | .start0 => { s with phase := .start1 }
  | .start2 => { s with phase := .idle }
  | .command n bits =>
    if n = 8 then { s with phase := if known bits then .ack bits else .idle } else s
  | .ack c => s.execute script check c
  | .status n bits => if n = 8 then { s with phase := .statusAck bits } else s
  | .statusAck v => { s with phase := .idle, status := v }
  | .sending (_ :: []) rest => { s with phase := .sent rest }
  | .sending (_ :: b :: bits) rest => { s with phase := .sending (b :: bits) rest }
  | .more rest => { s with phase := .send rest }
  | .last => { s with phase := .idle }
  | _ => s

/-- The lines as the sensor sees them. -/
def Chip.lines (s : Chip) (free clk : Bool) : Chip :=
  let level := free && !s.pull
  let t :=
    if clk && !s.clk then s.rise level
    else if !clk && s.clk then s.fall script check
    else if clk && s.line && !level then { s with phase := .start0 }
    else if clk && !s.line && level then
      match s.phase with
      | .start0 => { s with phase := .idle }
      | .start2 => { s with phase := .command 0 0#8 }
      | _ => s
    else s
  { t with clk := clk, line := free && !t.pull }

/-- Time passes.  The check of the level is left to the next change of the lines. -/
def Chip.wait (s : Chip) (n : Nat) : Chip :=
  match s.phase with
  | .measuring low left result =>
    let phase := if left ≤ n then .send result else .measuring (low - n) (left - n) result
    { s with phase := phase }
  | _ => s

/-- The sensor on the pins. -/
def chip : Device Chip := ⟨Chip.lines script check, Chip.pull, Chip.wait⟩

/-- The measurements are within the data sheet: values of 14 and 12 bit, at most 320 ms
(SHT1x.h:168), and DATA is high for 5 ms at least before the result, and after 95 ms at most. -/
def Conforming : Prop := ∀ k,
  (script k).temperature < 2 ^ 14 ∧ (script k).humidity < 2 ^ 12 ∧
  (script k).low ≤ 95000 ∧ (script k).low + 5000 ≤ (script k).time ∧ (script k).time ≤ 320000

end

/-- The delays take as long as they should (C72): `delayMicroseconds(4000)` 3998 microseconds to
5 ms, `delay(20)` more than 19 ms. -/
def Delays (dur : Nat → Nat → Nat) : Prop := ∀ k,
  3998 ≤ dur k 4000 ∧ dur k 4000 ≤ 5000 ∧ 19000 ≤ dur k 20000

/-- The calls of the API. -/
inductive Call where
  | readTemperatureC
  | readTemperatureF
  | readHumidity
  | getTemperature
  | getHumidity
  | softReset
  | setStatusRegister (v : Word)

/-- What a call returns. -/
inductive Answer (α : Type) where
  | float (v : Option α)
  | int (v : Option Int)
  | bool (v : Bool)

section
variable {σ α : Type} (D : Device σ) (A : Gas.Arith α) (dur : Nat → Nat → Nat)

/-- A call. -/
def Sensor.call (s : Sensor σ) : Call → Sensor σ × Answer α
  | .readTemperatureC => ((readTemperatureC D A dur s).1, .float (readTemperatureC D A dur s).2)
  | .readTemperatureF => ((readTemperatureF D A dur s).1, .float (readTemperatureF D A dur s).2)
  | .readHumidity => ((readHumidity D A dur s).1, .float (readHumidity D A dur s).2)
  | .getTemperature => ((GetTemperature D A dur s).1, .int (GetTemperature D A dur s).2)
  | .getHumidity => ((GetHumidity D A dur s).1, .int (GetHumidity D A dur s).2)
  | .softReset =>
    ({ s with world := (softReset D dur s.world).1 }, .bool (softReset D dur s.world).2)
  | .setStatusRegister v =>
    ({ s with world := (setStatusRegister D dur v s.world).1 },
      .bool (setStatusRegister D dur v s.world).2)

/-- A history of calls: the answers, and the object afterwards. -/
def Sensor.calls (s : Sensor σ) : List Call → Sensor σ × List (Answer α)
  | [] => (s, [])
  | c :: cs =>
    let (s, a) := s.call D A dur c
    let (s, as) := s.calls cs
    (s, a :: as)

/-- A new object. -/
def Sensor.new (dev : σ) (out : Bool) : Sensor σ := ⟨construct D dev out, some (-27300), some 0⟩

end

/-! ## What the user expects -/

section
variable {α : Type} (A : Gas.Arith α)

/-- The temperature for a raw value, in degrees Celsius and Fahrenheit. -/
def celsius (raw : Nat) : α := convertRawTemperature A (A.ofInt raw) (1 / 100)
@[inherit_doc celsius]
def fahrenheit (raw : Nat) : α := convertRawTemperature A (A.ofInt raw) (18 / 1000)

/-- The sensor as the user sees it: number of measurements, status register, last values. -/
structure View where
  count : Nat
  status : Byte
  lastTemperature : Option Int
  lastHumidity : Option Int

/-- What a call does and answers: `readTemperatureC` hands out the next temperature of the sensor,
`readHumidity` the next humidity, compensated with the temperature before it. -/
def View.call (script : Nat → Reading) (v : View) : Call → View × Answer α
  | .readTemperatureC =>
    let t := celsius A (script v.count).temperature
    ({ v with count := v.count + 1, lastTemperature := toInt16 A (A.mul t (A.ofInt 100)) },
      .float (some t))
  | .readTemperatureF =>
    let raw := (script v.count).temperature
    ({ v with
        count := v.count + 1
        lastTemperature := toInt16 A (A.mul (celsius A raw) (A.ofInt 100)) },
      .float (some (fahrenheit A raw)))
  | .readHumidity =>
    let t := celsius A (script v.count).temperature
    let h := humidityOf A t (script (v.count + 1)).humidity
    ({ v with
        count := v.count + 2
        lastTemperature := toInt16 A (A.mul t (A.ofInt 100))
        lastHumidity := toUInt16 A (A.mul h (A.ofInt 100)) }, .float (some h))
  | .getTemperature =>
    let t := celsius A (script v.count).temperature
    ({ v with count := v.count + 1, lastTemperature := toInt16 A (A.mul t (A.ofInt 100)) },
      .int ((toUInt16 A (A.mul t (A.ofInt 100))).map fun n => (BitVec.ofInt 16 n).toInt))
  | .getHumidity =>
    let t := celsius A (script v.count).temperature
    let h := humidityOf A t (script (v.count + 1)).humidity
    ({ v with
        count := v.count + 2
        lastTemperature := toInt16 A (A.mul t (A.ofInt 100))
        lastHumidity := toUInt16 A (A.mul h (A.ofInt 100)) },
      .int (toUInt16 A (A.mul h (A.ofInt 100))))
  | .softReset => ({ v with status := 0#8 }, .bool true)
  | .setStatusRegister s => ({ v with status := s.setWidth 8 }, .bool true)

/-- A history of calls. -/
def View.calls (script : Nat → Reading) (v : View) : List Call → View × List (Answer α)
  | [] => (v, [])
  | c :: cs =>
    let (v, a) := v.call A script c
    let (v, as) := v.calls script cs
    (v, a :: as)

/-- The user's view of an object on a sensor. -/
def Sensor.view (s : Sensor Chip) : View :=
  ⟨s.world.dev.count, s.world.dev.status, s.lastTemperature, s.lastHumidity⟩

end

end Verif.Sht
