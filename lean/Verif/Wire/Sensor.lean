import Verif.Wire.Model
import Verif.Crc.Model

/-!
# DS18x20 temperature sensors

Models `DS18x20` (`sblib/src/sensors/ds18x20.cpp`) on a 1-Wire bus.  Temperatures are counted in sixteenths of a
degree: `(float)raw / 16.0f` of a 16-bit number is exact.  Not modelled: parasite power, `TypeStr`,
`ConvertTemperature`.
-/

namespace Verif.Wire

/-- Byte `i` of a ROM code: `addr[i]`. -/
def romByte (x : Rom) (i : Nat) : BitVec 8 := (x >>> (8 * i)).setWidth 8

/-- `enum eDsType`, ds18x20.h:29-34. -/
def DS18S20 : BitVec 8 := 0x10#8
def DS18B20 : BitVec 8 := 0x28#8
def DS1822 : BitVec 8 := 0x22#8
def DS_UNKNOWN : BitVec 8 := 0x00#8

/-- `MAX_DS_DEVICES`, ds18x20.h:22. -/
def maxDsDevices : Nat := 10

/-- `leadTime`, ds18x20.h:73. -/
def leadTime : BitVec 32 := 800#32

/-- `struct sDS18x20`, ds18x20.h:38-55. -/
structure Sensor where
  type : BitVec 8
  /-- `res_type` -/
  nineBit : Bool
  data : Nat → BitVec 8
  addr : Rom
  crcOK : Bool
  lastReadOK : Bool
  /-- `current_temperature`, in sixteenths -/
  current : Int
  /-- `last_temperature`, in sixteenths -/
  last : Int
  started : Bool
  readyAt : BitVec 32

/-- The members of `DS18x20`, ds18x20.h:74-75. -/
structure Driver where
  /-- `m_foundDevices` -/
  found : Nat
  /-- `m_dsDev`; only the indices below 10 exist -/
  dev : Nat → Sensor

/-- `m_dsDev[i] = x`. -/
def setDev (d : Driver) (i : Nat) (x : Sensor) : Driver :=
  { d with dev := fun j => if j = i then x else d.dev j }

/-- The body of the loop of `Search`, ds18x20.cpp:73-91, for the device `tmp.addr`; `none`: the store is outside
of `m_dsDev`.  Result: `sDevTmp`, the object, `bRet`. -/
def searchBody (j : Nat) (tmp : Sensor) (d : Driver) : Option (Sensor × Driver × BitVec 8) :=
  let tmp := { tmp with
    crcOK := Crc.oneWireCRC8 ((List.range 7).map (romByte tmp.addr)) == romByte tmp.addr 7 }
  if tmp.crcOK then
    let tmp := { tmp with
      type := if romByte tmp.addr 0 = DS18S20 then DS18S20
        else if romByte tmp.addr 0 = DS18B20 then DS18B20
        else if romByte tmp.addr 0 = DS1822 then DS1822
        else DS_UNKNOWN }
    if tmp.type ≠ DS_UNKNOWN then
      let tmp := { tmp with nineBit := tmp.type == DS18S20, started := false }
      if j < maxDsDevices then some (tmp, { setDev d j tmp with found := d.found + 1 }, 0#8) else none
    else some (tmp, d, 1#8)
  else some (tmp, d, 2#8)

/-- The loop of `Search`, ds18x20.cpp:71-92, with `k` = `uMaxDeviceSearch - j` rounds left. -/
def searchFrom (devs : List Rom) : Nat → Nat → Search → Sensor → Driver → BitVec 8 →
    Option (Driver × BitVec 8)
  | 0, _, _, _, d, ret => some (d, ret)
  | k + 1, j, s, tmp, d, ret =>
    let r := search devs s tmp.addr
    if r.2.2 then
      match searchBody j { tmp with addr := r.2.1 } d with
      | none => none
      | some (tmp', d', ret') => searchFrom devs k (j + 1) r.1 tmp' d' ret'
    else some (d, ret)

/-- `Search(uMaxDeviceSearch)`, ds18x20.cpp:65-94, on a bus with the devices `devs`; `tmp`: the initial content of
the local variable `sDevTmp`.  (The call of `OneWireSearch` that precedes the last test of `j` only changes
the state of the search, which the next `Search` resets.) -/
def dsSearch (devs : List Rom) (max : Nat) (tmp : Sensor) (d : Driver) : Option (Driver × BitVec 8) :=
  searchFrom devs max 0 resetSearch tmp { d with found := 0 } 4#8

/-- The devices on the bus: the scratchpad of each. -/
abbrev Pads := Rom → Option (Nat → BitVec 8)

/-- `startConversion(deviceIdx)`, ds18x20.cpp:110-126; `presence`: the result of `OneWireReset`.  Result: the
object, the ROM code of the device that gets the command, the result. -/
def startConversion (d : Driver) (i : Nat) (presence : Bool) (now : BitVec 32) : Driver × Option Rom × Bool :=
  if d.found ≤ i then (d, none, false)
  else
    let x := d.dev i
    if (x.type ≠ DS_UNKNOWN ∨ romByte x.addr 0 ≠ 0#8) ∧ presence = true then
      (setDev d i { x with started := true, readyAt := now + leadTime }, some x.addr, true)
    else (d, none, false)

/-- What nine calls of `OneWireRead` give after the selection of the device `addr`, onewire.cpp:219-228: its
scratchpad, or ones if there is no such device. -/
def readPad (pads : Pads) (addr : Rom) (i : Nat) : BitVec 8 :=
  match pads addr with
  | some p => p i
  | none => 0xFF#8

/-- The conversion, ds18x20.cpp:147-163. -/
def rawOf (nineBit : Bool) (data : Nat → BitVec 8) : BitVec 16 :=
  let raw : BitVec 16 := ((data 1).setWidth 16 <<< 8) ||| (data 0).setWidth 16
  if nineBit then
    let raw := raw <<< 3
    if data 7 = 0x10#8 then (raw &&& 0xFFF0#16) + 12#16 - (data 6).setWidth 16 else raw
  else
    let cfg := data 4 &&& 0x60#8
    if cfg = 0x00#8 then raw &&& ~~~7#16
    else if cfg = 0x20#8 then raw &&& ~~~3#16
    else if cfg = 0x40#8 then raw &&& ~~~1#16
    else raw

/-- `readResult(deviceIdx)`, ds18x20.cpp:128-171. -/
def readResult (pads : Pads) (d : Driver) (i : Nat) (presence : Bool) (now : BitVec 32) : Driver × Bool :=
  if d.found ≤ i then (d, false)
  else
    let x := d.dev i
    if x.started = false ∨ now < x.readyAt then (d, false)
    else if presence = false then (d, false)
    else
      let x := { x with data := fun n => if n < 9 then readPad pads x.addr n else x.data n }
      let x := { x with current := (rawOf x.nineBit x.data).toInt }
      let x := { x with lastReadOK := decide (-55 * 16 ≤ x.current ∧ x.current ≤ 125 * 16) }
      let x := if x.lastReadOK then { x with last := x.current } else x
      (setDev d i { x with started := false }, true)

/-- `lastReadOk(deviceIdx)`, ds18x20.cpp:173-177. -/
def lastReadOk (d : Driver) (i : Nat) : Bool :=
  if d.found ≤ i then false else (d.dev i).lastReadOK

/-- `temperature(deviceIdx)`, ds18x20.cpp:179-183, in sixteenths; `none` is -999.9. -/
def temperature (d : Driver) (i : Nat) : Option Int :=
  if d.found ≤ i then none else some (d.dev i).last

/-- `startConversionAll`, ds18x20.cpp:194-206, from index `j` on with `k` devices left: the object and the ROM codes
of the devices that get the command. -/
def startAll (presence : Bool) (now : BitVec 32) : Nat → Nat → Driver → Driver × List Rom
  | 0, _, d => (d, [])
  | k + 1, j, d =>
    let r := startConversion d j presence now
    let r' := startAll presence now k (j + 1) r.1
    (r'.1, r.2.1.toList ++ r'.2)

/-- `readResultAll`, ds18x20.cpp:220-232, from index `j` on with `k` devices left. -/
def readAll (pads : Pads) (presence : Bool) (now : BitVec 32) : Nat → Nat → Driver → Driver
  | 0, _, d => d
  | k + 1, j, d => readAll pads presence now k (j + 1) (readResult pads d j presence now).1

end Verif.Wire
