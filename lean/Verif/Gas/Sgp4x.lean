import Verif.Gas.Spec
import Verif.I2c.Sensors

/-!
# The air quality sensor SGP4x: the object (sblib/src/i2c/SGP4x.cpp)

The functions of `SGP4xClass`, with the I2C bus of `I2c/Model.lean` and the gas index algorithm of `Gas/Model.lean`.  The
arguments of `measureRawSignal` are the ticks of SGP4x.cpp:161-162 (their computation is `sgp4xHumidityTicks` and
`sgp4xTemperatureTicks` in `Sht/Convert.lean`).  As in `I2c/Sensors.lean`, the waiting is not modelled and
`i2c_lpcopen_init` does nothing, because the bus is presupposed to be initialised.
-/

namespace Verif.Gas

open Verif Verif.I2c

/-- The object, SGP4x.h:59-66. -/
structure Air (α : Type) where
  st : SgpSt
  vocIndex : Int
  noxIndex : Int
  voc : Par α
  nox : Par α

variable {α : Type}

/-- `SGP4xClass::SGP4xClass`, SGP4x.cpp:23-34; `p` and `q` are the contents of the memory before. The default sampling
interval: sensirion_gas_index_algorithm.h:60. -/
def airNew (A : Arith α) (p q : Par α) : Air α :=
  { st := ⟨0#16, 0#16, 0#16⟩, vocIndex := -1, noxIndex := -1,
    voc := initWith A p false (A.ofInt 1), nox := initWith A q true (A.ofInt 1) }

/-- `SGP4xClass::executeConditioning`, SGP4x.cpp:101-112. -/
def airCondition (E : Env) (h : Hw) (fuel : Nat) : Option (Hw × Sgp) :=
  (sgpRead E h 0x2612#16 [0x80#8, 0x00#8, 0xa2#8, 0x66#8, 0x66#8, 0x93#8] 3#8 fuel).map fun (h, res, _) => (h, res)

/-- `SGP4xClass::init`, SGP4x.cpp:87-99. -/
def airInit (A : Arith α) (E : Env) (h : Hw) (a : Air α) (ms : U32) (fuel : Nat) : Option (Hw × Air α × Sgp) :=
  let dt := A.div (A.ofInt ms.toNat) (A.ofInt 1000)
  let a : Air α :=
    { st := ⟨0#16, 0#16, a.st.feature⟩, vocIndex := -1, noxIndex := -1,
      voc := initWith A a.voc false dt, nox := initWith A a.nox true dt }
  (airCondition E h fuel).map fun (h, res) => (h, a, res)

/-- `SGP4xClass::measureRawSignal`, SGP4x.cpp:146-195: `sgpMeasure` with the gas index algorithm. -/
def airMeasure (A : Arith α) (E : Env) (h : Hw) (a : Air α) (comp : Option (Word × Word)) (fuel : Nat) :
    Option (Hw × Air α × Sgp) :=
  (sgpMeasure E h a.st comp fuel).map fun (h, st, res) =>
    if res ≠ .success then (h, a, res)
    else
      let v := process A a.voc st.voc.toNat
      let n := process A a.nox st.nox.toNat
      (h, { st := st, vocIndex := v.2, noxIndex := n.2, voc := v.1, nox := n.1 }, res)

/-- `SGP4xClass::turnHeaterOffAndReturnToIdle`, SGP4x.cpp:228-236. -/
def airHeaterOff (E : Env) (h : Hw) (fuel : Nat) : Option (Hw × Sgp) :=
  (sgpRead E h 0x3615#16 [] 0#8 fuel).map fun (h, res, _) => (h, res)

/-- The functions of the object that use the bus, SGP4x.h:103-167. -/
inductive AirCall
  | init (ms : U32)
  | condition
  | selfTest
  | measure (comp : Option (Word × Word))
  | serial (length : Byte)
  | heaterOff
  | feature

/-- One call: the object afterwards and the result. -/
def airCall (A : Arith α) (E : Env) (h : Hw) (a : Air α) (fuel : Nat) : AirCall → Option (Hw × Air α × Sgp)
  | .init ms => airInit A E h a ms fuel
  | .condition => (airCondition E h fuel).map fun (h, res) => (h, a, res)
  | .selfTest => (sgpSelfTest E h fuel).map fun (h, res) => (h, a, res)
  | .measure comp => airMeasure A E h a comp fuel
  | .serial l => (sgpSerial E h l fuel).map fun (h, res, _) => (h, a, res)
  | .heaterOff => (airHeaterOff E h fuel).map fun (h, res) => (h, a, res)
  | .feature => (sgpFeature E h a.st fuel).map fun (h, st, res) => (h, { a with st := st }, res)

/-- A history of calls. -/
def airRun (A : Arith α) (E : Env) (h : Hw) (a : Air α) (fuel : Nat) : List AirCall → Option (Hw × Air α × List Sgp)
  | [] => some (h, a, [])
  | c :: cs => (airCall A E h a fuel c).bind fun (h, a, res) =>
      (airRun A E h a fuel cs).map fun (h, a, rs) => (h, a, res :: rs)

/-- `getVocIndexValue`, `getNoxIndexValue`, `getRawVocValue`, `getRawNoxValue`, SGP4x.cpp:256-274. -/
def airValues (a : Air α) : Int × Int × Int × Int := (a.vocIndex, a.noxIndex, a.st.voc.toNat, a.st.nox.toNat)

/-- `getFeatureSet`, SGP4x.cpp:276-279. -/
def airFeature (a : Air α) : Word := a.st.feature

end Verif.Gas
