import Verif.I2c.Model
import Verif.Crc.Model

/-!
# Sensors on the I2C bus (sblib/src/i2c/SHT4x.cpp, SHT2x.cpp, SGP4x.cpp, CCS811.cpp, bh1750.cpp)

The functions of the drivers up to the integers read from the sensor, over the I2C master of `I2c/Model.lean`.

`clk n` is the time in milliseconds (not reduced) at the `n`-th call of `millis()`; `millis` returns it modulo 2^32.
Not modelled: the conversions to floating point, the gas index algorithm, the waiting with `delay` (it only lets time
pass), the WAKE pin of the CCS811 (it is in `Ccs811.lean`). `i2c_lpcopen_init` (i2c.cpp:125-130) does nothing once the bus is initialised, and
that is presupposed; so its calls after an error have no effect. Every function takes the number of steps it may make
and is `none` if it has not returned by then.
-/

namespace Verif.I2c

open Verif

/-- The time at each call of `millis()`. -/
abbrev Clk := Nat → Nat

/-- The `n`-th result of `millis()`. -/
def millis (clk : Clk) (n : Nat) : U32 := BitVec.ofNat 32 (clk n)

/-- The controller, and how often `millis()` was called. -/
structure Wd where
  h : Hw
  n : Nat

/-- A byte of a buffer. -/
def byteAt (l : List Byte) (i : Nat) : Byte := l.getD i 0#8

/-- `(a << 8) | b`, as in SHT4x.cpp:83-88. -/
def wordOf (a b : Byte) : Word := a.zeroExtend 16 <<< 8 ||| b.zeroExtend 16

/-! ## SHT4x -/

/-- `SHT4xClass::writeCommand`, SHT4x.cpp:149-154; the address: SHT4x.h:91. -/
def sht4xWrite (E : Env) (w : Wd) (cmd : Byte) (fuel : Nat) : Option (Wd × Bool) :=
  (masterSend E w.h 0x44#8 [cmd] fuel).map fun r => (⟨r.h, w.n⟩, decide (r.ret = 1))

/-- The loop SHT4x.cpp:174-184. `none`: the time is up, else `resultLength` (8 bits) and the bytes read. -/
def sht4xLoop (E : Env) (clk : Clk) (timeout : U32) (fuel : Nat) : Nat → Wd → Option (Wd × Option (Byte × List Byte))
  | 0, _ => none
  | k + 1, w =>
    if millis clk w.n > timeout then some (⟨w.h, w.n + 1⟩, none)
    else match masterRead E w.h 0x44#8 6 fuel with
      | none => none
      | some r =>
        if BitVec.ofInt 8 r.ret = 0#8 then sht4xLoop E clk timeout fuel k ⟨r.h, w.n + 1⟩
        else some (⟨r.h, w.n + 1⟩, some (BitVec.ofInt 8 r.ret, r.rx))

/-- SHT4x.cpp:186-189. -/
def sht4xCheck (n : Byte) (b : List Byte) : Bool :=
  decide (n = 6#8) && decide (byteAt b 2 = Crc.sht4xCrc8 [byteAt b 0, byteAt b 1]) &&
    decide (byteAt b 5 = Crc.sht4xCrc8 [byteAt b 3, byteAt b 4])

/-- `SHT4xClass::readSensor`, SHT4x.cpp:156-190, with a buffer of six bytes: `some` bytes if it returns true. -/
def sht4xRead (E : Env) (clk : Clk) (w : Wd) (cmd : Byte) (fuel : Nat) : Option (Wd × Option (List Byte)) :=
  match sht4xWrite E w cmd fuel with
  | none => none
  | some (w, false) => some (w, none)
  | some (w, true) =>
    (sht4xLoop E clk (millis clk w.n + 300#32) fuel fuel ⟨w.h, w.n + 1⟩).map fun
      | (w, none) => (w, none)
      | (w, some (n, b)) => (w, if sht4xCheck n b then some b else none)

/-- `SHT4xClass::measureHighPrecisionTicks`, SHT4x.cpp:74-90; the command: SHT4x.h:42. -/
def sht4xMeasure (E : Env) (clk : Clk) (w : Wd) (fuel : Nat) : Option (Wd × Option (Word × Word)) :=
  (sht4xRead E clk w 0xfd#8 fuel).map fun (w, b) => (w, b.map fun b => (wordOf (byteAt b 0) (byteAt b 1), wordOf (byteAt b 3) (byteAt b 4)))

/-- `SHT4xClass::getSerialnumber`, SHT4x.cpp:129-144; the command: SHT4x.h:45. -/
def sht4xSerial (E : Env) (clk : Clk) (w : Wd) (fuel : Nat) : Option (Wd × U32) :=
  (sht4xRead E clk w 0x89#8 fuel).map fun
    | (w, none) => (w, 0#32)
    | (w, some b) => (w, (byteAt b 0).zeroExtend 32 <<< 24 ||| (byteAt b 1).zeroExtend 32 <<< 16 |||
        (byteAt b 3).zeroExtend 32 <<< 8 ||| (byteAt b 4).zeroExtend 32)

/-- `SHT4xClass::init`, SHT4x.cpp:50-57; the command: SHT4x.h:46. -/
def sht4xInit (E : Env) (w : Wd) (fuel : Nat) : Option (Wd × Bool) := sht4xWrite E w 0x94#8 fuel

/-! ## SHT2x -/

/-- `SHT2xClass::Init`, SHT2x.cpp:52-63; the address and the commands: :39-50. The new value of `initialized`. -/
def sht2xInit (E : Env) (w : Wd) (inited : Bool) (fuel : Nat) : Option (Wd × Bool) :=
  match masterCmdRead E w.h 0x40#8 0xe7#8 1 fuel with
  | none => none
  | some r =>
    if r.ret = 1 then (masterSend E r.h 0x40#8 [0xe6#8, byteAt r.rx 0 &&& 0x7e#8] fuel).map fun r => (⟨r.h, w.n⟩, true)
    else some (⟨r.h, w.n⟩, inited)

/-- The loop SHT2x.cpp:120-125 and what follows, :127-134. -/
def sht2xLoop (E : Env) (clk : Clk) (timeout : U32) (cmd : Byte) (fuel : Nat) : Nat → Wd → Option (Wd × Word)
  | 0, _ => none
  | k + 1, w =>
    match masterCmdRead E w.h 0x40#8 cmd 3 fuel with
    | none => none
    | some r =>
      if r.ret < 3 then
        if millis clk w.n - timeout > 0#32 then some (⟨r.h, w.n + 1⟩, 0#16)
        else sht2xLoop E clk timeout cmd fuel k ⟨r.h, w.n + 1⟩
      else if Crc.sht2xCrc8 [byteAt r.rx 0, byteAt r.rx 1] ≠ byteAt r.rx 2 then some (⟨r.h, w.n⟩, 0#16)
      else some (⟨r.h, w.n⟩, wordOf (byteAt r.rx 0) (byteAt r.rx 1))

/-- `SHT2xClass::readSensor`, SHT2x.cpp:106-140: the value, and `initialized`. -/
def sht2xRead (E : Env) (clk : Clk) (w : Wd) (inited : Bool) (cmd : Byte) (fuel : Nat) : Option (Wd × Bool × Word) :=
  let timeout := millis clk w.n + 300#32
  let w : Wd := ⟨w.h, w.n + 1⟩
  (if inited then some (w, true) else sht2xInit E w false fuel).bind fun (w, inited) =>
    if inited then (sht2xLoop E clk timeout cmd fuel fuel w).map fun (w, v) => (w, true, v)
    else some (w, false, 0#16)

/-- SHT2x.cpp:68-76 (`GetHumidity` without the reading). `unsigned int`, then converted to `int`. -/
def sht2xHumidity (v : Word) : Int :=
  let value : U32 := v.zeroExtend 32
  if value = 0#32 ∨ value &&& 0x2#32 = 0#32 then 0
  else ((12500#32 * (value &&& 0xfffc#32)) / 65536#32 - 600#32).toInt

/-- SHT2x.cpp:82-90 (`GetTemperature` without the reading). `int` with the division rounding towards zero. -/
def sht2xTemperature (v : Word) : Int :=
  let value : Int := v.toNat
  if value = 0 ∨ v &&& 0x2#16 ≠ 0#16 then -27300
  else Int.tdiv (17572 * ((v &&& 0xfffc#16).toNat : Int)) 65536 - 4685

/-! ## SGP4x -/

/-- `SGP4xResult`, SGP4x.h:20-29. -/
inductive Sgp
  | invalidByteCount | invalidCommandBuffer | vocPixelError | noxPixelError | crc8Mismatch | sendError | readError | success
  deriving DecidableEq

/-- The loop SGP4x.cpp:76-82 from index `i`, with an 8 bit index; `k` bounds the number of rounds. -/
def sgpCheck (b : List Byte) (n : Int) : Nat → Byte → Option Bool
  | 0, _ => none
  | k + 1, i =>
    if (i.toNat : Int) < n then
      if Crc.sgp4xCrc8 [byteAt b i.toNat, byteAt b (i.toNat + 1)] ≠ byteAt b (i.toNat + 2) then some false
      else sgpCheck b n k (i + 3#8)
    else some true

/-- `SGP4xClass::readSensor`, SGP4x.cpp:36-85: `par` are the bytes after the two of the command in `commandBuffer` (at
least two bytes long in every call in the file), `size` is `readBufferSize` (0 with `readBuffer` null). -/
def sgpRead (E : Env) (h : Hw) (cmd : Word) (par : List Byte) (size : Byte) (fuel : Nat) : Option (Hw × Sgp × List Byte) :=
  let c := [(cmd >>> 8).truncate 8, cmd.truncate 8] ++ par
  (masterSend E h 0x59#8 c fuel).bind fun r =>
    if r.ret ≠ c.length then some (r.h, .sendError, [])
    else if size = 0#8 then some (r.h, .success, [])
    else (masterRead E r.h 0x59#8 size.toNat fuel).bind fun r =>
      if r.ret ≠ size.toNat then some (r.h, .readError, r.rx)
      else if r.ret = 0 ∨ Int.tmod r.ret 3 ≠ 0 then some (r.h, .invalidByteCount, r.rx)
      else (sgpCheck r.rx r.ret fuel 0#8).map fun ok => (r.h, if ok then .success else .crc8Mismatch, r.rx)

/-- The values kept by the object, SGP4x.h:59-63 (without the index values). -/
structure SgpSt where
  voc : Word
  nox : Word
  feature : Word

/-- The parameters SGP4x.cpp:153, 168-173: `none` without compensation, else the ticks. -/
def sgpParams : Option (Word × Word) → List Byte
  | none => [0x80#8, 0x00#8, 0xa2#8, 0x66#8, 0x66#8, 0x93#8]
  | some (rh, t) =>
    let a : List Byte := [(rh >>> 8).truncate 8, rh.truncate 8]
    let b : List Byte := [(t >>> 8).truncate 8, t.truncate 8]
    a ++ [Crc.sgp4xCrc8 a] ++ b ++ [Crc.sgp4xCrc8 b]

/-- `SGP4xClass::measureRawSignal`, SGP4x.cpp:146-190. -/
def sgpMeasure (E : Env) (h : Hw) (s : SgpSt) (comp : Option (Word × Word)) (fuel : Nat) : Option (Hw × SgpSt × Sgp) :=
  (sgpRead E h 0x2619#16 (sgpParams comp) 6#8 fuel).map fun (h, res, b) =>
    if res ≠ .success then (h, s, res)
    else (h, { s with voc := wordOf (byteAt b 0) (byteAt b 1), nox := wordOf (byteAt b 3) (byteAt b 4) }, .success)

/-- `SGP4xClass::executeSelfTest`, SGP4x.cpp:115-144. -/
def sgpSelfTest (E : Env) (h : Hw) (fuel : Nat) : Option (Hw × Sgp) :=
  (sgpRead E h 0x280e#16 [] 3#8 fuel).map fun (h, res, b) =>
    (h, if res ≠ .success then res
      else if byteAt b 1 &&& 0x1#8 ≠ 0#8 then .vocPixelError
      else if byteAt b 1 &&& 0x2#8 ≠ 0#8 then .noxPixelError
      else .success)

/-- `SGP4xClass::readFeatureSet`, SGP4x.cpp:238-254. -/
def sgpFeature (E : Env) (h : Hw) (s : SgpSt) (fuel : Nat) : Option (Hw × SgpSt × Sgp) :=
  (sgpRead E h 0x202f#16 [] 3#8 fuel).map fun (h, res, b) =>
    if res ≠ .success then (h, s, res)
    else (h, { s with feature := wordOf (byteAt b 0) (byteAt b 1) }, .success)

/-- The loop SGP4x.cpp:211-223: the bytes written to `serialNumber`, from index `idx` of the buffer with `left` bytes of
room. `k` bounds the number of rounds. -/
def sgpCopy (b : List Byte) : Nat → Nat → Nat → List Byte
  | 0, _, _ => []
  | k + 1, idx, left =>
    if idx < 9 ∧ 0 < left then
      byteAt b idx :: sgpCopy b k (if (idx + 1) % 3 = 2 then idx + 2 else idx + 1) (left - 1)
    else []

/-- `SGP4xClass::getSerialnumber`, SGP4x.cpp:197-226: the bytes written to `serialNumber`. -/
def sgpSerial (E : Env) (h : Hw) (length : Byte) (fuel : Nat) : Option (Hw × Sgp × List Byte) :=
  (sgpRead E h 0x3682#16 [] 9#8 fuel).map fun (h, res, b) =>
    if res ≠ .success then (h, res, []) else (h, .success, sgpCopy b 10 0 length.toNat)

/-! ## CCS811 -/

/-- `CCS811Class::getData`, CCS811.cpp:178-196: `some` (CO2, TVOC) if it returns true. -/
def ccsData (E : Env) (h : Hw) (addr : Byte) (fuel : Nat) : Option (Hw × Option (Word × Word)) :=
  (masterCmdRead E h addr 0x02#8 4 fuel).map fun r =>
    (r.h, if BitVec.ofInt 8 r.ret ≠ 4#8 then none
      else some (wordOf (byteAt r.rx 0) (byteAt r.rx 1), wordOf (byteAt r.rx 2) (byteAt r.rx 3)))

/-- A local buffer without initial value: what was on the stack, `junk`, where nothing was read. -/
def over (rx junk : List Byte) : List Byte := rx ++ junk.drop rx.length

/-- `CCS811Class::getBaseline`, CCS811.cpp:121-132. -/
def ccsGetBaseline (E : Env) (h : Hw) (addr : Byte) (junk : List Byte) (fuel : Nat) : Option (Hw × Word) :=
  (masterCmdRead E h addr 0x11#8 2 fuel).map fun r =>
    (r.h, wordOf (byteAt (over r.rx junk) 0) (byteAt (over r.rx junk) 1))

/-- `CCS811Class::setBaseline`, CCS811.cpp:135-141. -/
def ccsSetBaseline (E : Env) (h : Hw) (addr : Byte) (b : Word) (fuel : Nat) : Option Hw :=
  (masterSend E h addr [0x11#8, (b >>> 8).truncate 8, b.truncate 8] fuel).map fun r => r.h

/-! ## BH1750 -/

/-- `BH1750::Mode`, bh1750.h:50-65. -/
inductive BhMode
  | unconfigured | contHigh | contHigh2 | contLow | onceHigh | onceHigh2 | onceLow
  deriving DecidableEq

/-- The values, bh1750.h:50-65. -/
def BhMode.code : BhMode → Byte
  | .unconfigured => 0x00#8 | .contHigh => 0x10#8 | .contHigh2 => 0x11#8 | .contLow => 0x13#8
  | .onceHigh => 0x20#8 | .onceHigh2 => 0x21#8 | .onceLow => 0x23#8

/-- The object, bh1750.h:75-82. -/
structure Bh where
  addr : Byte
  mtreg : Byte
  mode : BhMode
  last : U32

/-- `while ((ack = Chip_I2C_MasterTransfer(I2C0, &xfer)) == I2C_STATUS_ARBLOST)`, bh1750.cpp:94-96, 146-148: one byte. -/
def bhSend (E : Env) (h : Hw) (addr b : Byte) (fuel : Nat) : Option (Hw × Status) :=
  (retry E fuel fuel h (xfer addr [b] 0)).map fun s => (s.h, s.x.status)

/-- `BH1750::configure`, bh1750.cpp:74-117. -/
def bhConfigure (E : Env) (clk : Clk) (w : Wd) (s : Bh) (mode : BhMode) (fuel : Nat) : Option (Wd × Bh × Bool) :=
  if mode = .unconfigured then some (w, s, false)
  else (bhSend E w.h s.addr mode.code fuel).map fun (h, ack) =>
    if ack = .done then (⟨h, w.n + 1⟩, { s with mode := mode, last := millis clk w.n }, true) else (⟨h, w.n⟩, s, false)

/-- `BH1750::setMTreg`, bh1750.cpp:126-163. Each `buf[i]` is sent as its lowest byte. -/
def bhSetMTreg (E : Env) (h : Hw) (s : Bh) (mt : Byte) (fuel : Nat) : Option (Hw × Bh × Bool) :=
  if mt ≤ 31#8 ∨ mt > 254#8 then some (h, s, false)
  else
    (bhSend E h s.addr (0b01000000#8 ||| mt >>> 5) fuel).bind fun (h, _) =>
    (bhSend E h s.addr (0b01100000#8 ||| (mt &&& 0b11111#8)) fuel).bind fun (h, _) =>
    (bhSend E h s.addr s.mode.code fuel).map fun (h, ack) =>
      if ack = .done then (h, { s with mtreg := mt }, true) else (h, s, false)

/-- The waiting time of `BH1750::measurementReady`, bh1750.cpp:171-189. -/
def bhDelay (mode : BhMode) (mt : Byte) (maxWait : Bool) : Nat :=
  match mode with
  | .contHigh | .contHigh2 | .onceHigh | .onceHigh2 => (if maxWait then 180 else 120) * mt.toNat / 69
  | .contLow | .onceLow => (if maxWait then 24 else 16) * mt.toNat / 69
  | .unconfigured => 0

/-- `BH1750::measurementReady`, bh1750.cpp:171-202. -/
def bhReady (now : U32) (s : Bh) (maxWait : Bool) : Bool := decide (now - s.last ≥ BitVec.ofNat 32 (bhDelay s.mode s.mtreg maxWait))

/-- The raw value of `BH1750::readLightLevel`, bh1750.cpp:212-228: -2 not configured, -1 no value. -/
def bhRaw (E : Env) (clk : Clk) (w : Wd) (s : Bh) (fuel : Nat) : Option (Wd × Bh × Int) :=
  if s.mode = .unconfigured then some (w, s, -2)
  else (masterRead E w.h s.addr 2 fuel).map fun r =>
    (⟨r.h, w.n + 1⟩, { s with last := millis clk w.n },
      if r.ret = 2 then ((wordOf (byteAt r.rx 0) (byteAt r.rx 1)).toNat : Int) else -1)

end Verif.I2c
