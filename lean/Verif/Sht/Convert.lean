import Verif.Sht.Model

/-!
# Measured values as floats: the other sensors

The float expressions of the sensor drivers, over any arithmetic.  How the raw values get here is
C60, C61 (DS18x20), C71 (I2C sensors) and C75 (DHT).
-/

namespace Verif.Sht

variable {α : Type} (A : Gas.Arith α)

/-- `SHT4xClass::convertTicksToCelsius` (sblib/src/i2c/SHT4x.cpp:93-96). -/
def sht4xCelsius (ticks : Nat) : α :=
  A.sub (A.div (A.mul (A.ofInt ticks) (A.ofInt 175)) (A.ofInt 65535)) (A.ofInt 45)

/-- `SHT4xClass::convertTicksToPercentRH` (sblib/src/i2c/SHT4x.cpp:98-101). -/
def sht4xPercentRH (ticks : Nat) : α :=
  A.sub (A.div (A.mul (A.ofInt ticks) (A.ofInt 125)) (A.ofInt 65535)) (A.ofInt 6)

/-- The temperature of `DHT::readData` from the bytes 2 and 3, for DHT22 and DHT11
(sblib/src/sensors/dht.cpp:133-138, 141-145 and 148). -/
def dhtTemperature (dht22 : Bool) (d2 d3 : Byte) : α :=
  let t : Int :=
    if dht22 then
      if d2.toNat ≥ 128 then ((d2.toNat % 128 * 256 + d3.toNat : Nat) : Int) * -10
      else ((d2.toNat * 256 + d3.toNat : Nat) : Int) * 10
    else
      if d2.toNat ≥ 128 then ((d2.toNat % 128 : Nat) : Int) * -100
      else (d2.toNat : Int) * 100
  A.div (A.ofInt t) (A.ofInt 100)

/-- The humidity of `DHT::readData` from the bytes 0 and 1 (sblib/src/sensors/dht.cpp:139, 146
and 149). -/
def dhtHumidity (dht22 : Bool) (d0 d1 : Byte) : α :=
  let h : Int := if dht22 then ((d0.toNat * 256 + d1.toNat : Nat) : Int) * 10
    else (d0.toNat : Int) * 100
  A.div (A.ofInt h) (A.ofInt 100)

/-- `ConvertTemperature(FARENHEIT)` of `DHT` (sblib/src/sensors/dht.cpp:167) and `DS18x20`
(sblib/src/sensors/ds18x20.cpp:267). -/
def toFahrenheit (t : α) : α :=
  A.add (A.div (A.mul t (A.ofInt 9)) (A.ofInt 5)) (A.ofInt 32)

/-- `ConvertTemperature(KELVIN)` of `DHT` (sblib/src/sensors/dht.cpp:168) and `DS18x20`
(sblib/src/sensors/ds18x20.cpp:268). -/
def toKelvin (t : α) : α := A.add t (A.lit (27315 / 100))

/-- The temperature from the raw value in `DS18x20::readTemperature`
(sblib/src/sensors/ds18x20.cpp:164). -/
def ds18x20Temperature (raw : Int) : α := A.div (A.ofInt raw) (A.ofInt 16)

/-- The conversion in `BH1750::readLightLevel` (sblib/src/i2c/bh1750.cpp:226 and 236-249) of the
raw value, with the measurement time register and whether the mode is a HIGH_RES_MODE_2. -/
def bh1750Lux (raw mtreg : Nat) (mode2 : Bool) : α :=
  let level := A.ofInt raw
  let level := if mtreg ≠ 69 then A.mul level (A.div (A.ofInt 69) (A.ofInt mtreg)) else level
  let level := if mode2 then A.div level (A.ofInt 2) else level
  A.div level (A.lit (12 / 10))

/-- The relative humidity sent to the sensor in `SGP4xClass::measureRawSignal`
(sblib/src/i2c/SGP4x.cpp:161). -/
def sgp4xHumidityTicks (rh : α) : Option Int :=
  toUInt16 A (A.div (A.mul rh (A.ofInt 65535)) (A.ofInt 100))

/-- The temperature sent to the sensor in `SGP4xClass::measureRawSignal`
(sblib/src/i2c/SGP4x.cpp:162). -/
def sgp4xTemperatureTicks (t : α) : Option Int :=
  toUInt16 A (A.div (A.mul (A.add t (A.ofInt 45)) (A.ofInt 65535)) (A.ofInt 175))

/-- The temperature byte in `CCS811Class::compensate` (sblib/src/i2c/CCS811.cpp:210-216 and 224).
The sum of the `int` and 0.5f is a float again. -/
def ccs811Temperature (t : α) : Byte :=
  let temp : Int :=
    if A.lt (A.ofInt 0) t then A.toInt (A.add (A.ofInt (A.toInt t)) (A.lit (1 / 2)))
    else if A.lt t (A.ofInt 0) then A.toInt (A.sub (A.ofInt (A.toInt t)) (A.lit (1 / 2)))
    else 0
  BitVec.ofInt 8 ((temp + 25) * 2)

/-- The humidity byte in `CCS811Class::compensate` (sblib/src/i2c/CCS811.cpp:217 and 222). -/
def ccs811Humidity (rh : α) : Byte :=
  BitVec.ofInt 8 (A.toInt (A.add (A.ofInt (A.toInt rh)) (A.lit (1 / 2))) * 2)

end Verif.Sht
