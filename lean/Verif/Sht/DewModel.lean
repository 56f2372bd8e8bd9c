import Verif.Sht.Model
import Verif.I2c.Sensors

/-!
# Dew points

The functions of the sensor drivers that give a dew point, over any arithmetic and any function
for `logf`.
-/

namespace Verif.Sht

variable {α : Type} (A : Gas.Arith α) (log : α → α)

/-- `DHT::CalcdewPointFast` (sblib/src/sensors/dht.cpp:205-209). -/
def dhtDewPoint (celsius humidity : α) : α :=
  let temp := A.add (A.div (A.mul (A.lit (17271 / 1000)) celsius)
    (A.add (A.lit (2377 / 10)) celsius)) (log (A.div humidity (A.ofInt 100)))
  A.div (A.mul (A.lit (2377 / 10)) temp) (A.sub (A.lit (17271 / 1000)) temp)

/-- The formula common to `SHT1x::GetDewPoint` (sblib/src/i2c/SHT1x.cpp:313-322) and
`SHT2xClass::GetDewPoint` (sblib/src/i2c/SHT2x.cpp:36-37 and 98-103). -/
def shtDewPoint (humidity temperature : α) : α :=
  let gamma := A.add (log (A.div humidity (A.ofInt 100)))
    (A.div (A.mul (A.lit (1762 / 100)) temperature) (A.add (A.lit (2435 / 10)) temperature))
  A.div (A.mul (A.lit (2435 / 10)) gamma) (A.sub (A.lit (1762 / 100)) gamma)

/-- `SHT1x::GetDewPoint` (SHT1x.cpp:303-323).  `getLastTemperature` (sblib/inc/sblib/i2c/SHT1x.h:117)
returns an `int16_t`, which is divided by 100 as an integer; INVALID_TEMPERATURE is -27300 and
INVALID_DEW_POINT 0 (SHT1x.h:36 and 38).  `none`: the last temperature is undefined. -/
def sht1xDewPoint {σ : Type} (D : Device σ) (dur : Nat → Nat → Nat) (s : Sensor σ) :
    Sensor σ × Option α :=
  match readHumidity D A dur s with
  | (s, none) => (s, some (A.ofInt 0))
  | (s, some humidity) =>
    (s, s.lastTemperature.map fun last =>
      if last = -27300 then A.ofInt 0
      else shtDewPoint A log humidity (A.ofInt (Int.tdiv last 100)))

/-- `SHT2xClass::GetDewPoint` (SHT2x.cpp:93-104), from the two words the sensor answered: the
results of `GetHumidity` and `GetTemperature` (SHT2x.cpp:65-91), converted to float. -/
def sht2xDewPoint (humidity temperature : Word) : α :=
  shtDewPoint A log (A.ofInt (I2c.sht2xHumidity humidity)) (A.ofInt (I2c.sht2xTemperature temperature))

/-- `SHT4xClass::getDewPoint` (sblib/src/i2c/SHT4x.cpp:113-127). -/
def sht4xDewPoint : α := A.neg (A.ofInt 1)

end Verif.Sht
