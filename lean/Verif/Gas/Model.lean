/-!
# The gas index algorithm

Model of `sblib/src/i2c/sensirion_gas_index_algorithm.cpp`, function by function, over an
abstract float arithmetic `Arith`.  The arithmetic itself (rounding, invalid operations) is
fixed in `Verif/Gas/Spec.lean`.
-/

namespace Verif.Gas

/-- The float operations the algorithm uses.  `lit` is a decimal literal of the source,
`ofInt` the conversion of an `int32_t` (or an integral literal such as `500.f`). -/
structure Arith (α : Type) where
  ofInt : Int → α
  lit : Rat → α
  neg : α → α
  add : α → α → α
  sub : α → α → α
  mul : α → α → α
  div : α → α → α
  sqrt : α → α
  exp : α → α
  lt : α → α → Bool
  le : α → α → Bool
  eq : α → α → Bool
  toInt : α → Int

/-- The parameters and the state of the algorithm
(sblib/inc/sblib/i2c/sensirion_gas_index_algorithm.h:117-159).  `nox` stands for
`mAlgorithm_Type == GasIndexAlgorithm_ALGORITHM_TYPE_NOX`; the only other type is VOC
(sensirion_gas_index_algorithm.h:58-59). -/
structure Par (α : Type) where
  nox : Bool
  dt : α
  off : α
  min : Int
  gateMax : α
  initMean : α
  initVar : α
  gateThr : α
  gain : α
  tauMean : α
  tauVar : α
  stdInit : α
  uptime : α
  sraw : α
  idx : α
  eInit : Bool
  eMean : α
  eOff : α
  eStd : α
  bMean : α
  bVar : α
  iMean : α
  iVar : α
  gMean : α
  gVar : α
  upGamma : α
  upGating : α
  gateDur : α
  sK : α
  sX0 : α
  moxStd : α
  moxMean : α
  scK : α
  scX0 : α
  scDef : α
  a1 : α
  a2 : α
  lpInit : Bool
  x1 : α
  x2 : α
  x3 : α

variable {α : Type} (A : Arith α)

/-- `GasIndexAlgorithm__mean_variance_estimator___sigmoid__set_parameters`
(sblib/src/i2c/sensirion_gas_index_algorithm.cpp:448-453). -/
def sigmoidSet (P : Par α) (X0 K : α) : Par α := { P with sK := K, sX0 := X0 }

/-- The logistic function of `GasIndexAlgorithm__mean_variance_estimator___sigmoid__process`
(sensirion_gas_index_algorithm.cpp:455-469), as a function of the two parameters and the
sample. -/
def sigmoid (K X0 sample : α) : α :=
  let x := A.mul K (A.sub sample X0)
  if A.lt x (A.ofInt (-50)) then A.ofInt 1
  else if A.lt (A.ofInt 50) x then A.ofInt 0
  else A.div (A.ofInt 1) (A.add (A.ofInt 1) (A.exp x))

/-- `GasIndexAlgorithm__mean_variance_estimator___sigmoid__process`
(sensirion_gas_index_algorithm.cpp:455-469). -/
def sigmoidProcess (P : Par α) (sample : α) : α := sigmoid A P.sK P.sX0 sample

/-- The common form of the four smoothing factors
(sensirion_gas_index_algorithm.cpp:243-246, 248-250, 253-257, 267-269): a scale times a time,
divided by a time constant plus that time. -/
def gammaOf (scale tau t : α) : α := A.div (A.mul scale t) (A.add tau t)

/-- `GasIndexAlgorithm__mean_variance_estimator__set_parameters`
(sensirion_gas_index_algorithm.cpp:235-275).  The scales 64 and 8 are those of
sensirion_gas_index_algorithm.h:109-111, the time constants those of lines 68-69 and 73. -/
def estSet (P : Par α) : Par α :=
  let h := A.div P.dt (A.ofInt 3600)
  let s64 := A.ofInt 64
  let s512 := A.mul (A.ofInt 8) (A.ofInt 64)
  { P with
    eInit := false
    eMean := A.ofInt 0
    eOff := A.ofInt 0
    eStd := P.stdInit
    bMean := gammaOf A s512 P.tauMean h
    bVar := gammaOf A s64 P.tauVar h
    iMean := gammaOf A s512 (if P.nox then A.ofInt 1200 else A.ofInt 20) P.dt
    iVar := gammaOf A s64 (A.ofInt 2500) P.dt
    gMean := A.ofInt 0
    gVar := A.ofInt 0
    upGamma := A.ofInt 0
    upGating := A.ofInt 0
    gateDur := A.ofInt 0 }

/-- `GasIndexAlgorithm__mean_variance_estimator__set_states`
(sensirion_gas_index_algorithm.cpp:277-285). -/
def estSetStates (P : Par α) (mean std up : α) : Par α :=
  { P with eMean := mean, eStd := std, upGamma := up, eInit := true }

/-- `GasIndexAlgorithm__mean_variance_estimator__get_std`
(sensirion_gas_index_algorithm.cpp:287-291). -/
def getStd (P : Par α) : α := P.eStd

/-- `GasIndexAlgorithm__mean_variance_estimator__get_mean`
(sensirion_gas_index_algorithm.cpp:293-298). -/
def getMean (P : Par α) : α := A.add P.eMean P.eOff

/-- `GasIndexAlgorithm__mox_model__set_parameters`
(sensirion_gas_index_algorithm.cpp:471-477). -/
def moxSet (P : Par α) (std mean : α) : Par α := { P with moxStd := std, moxMean := mean }

/-- `GasIndexAlgorithm__mox_model__process` (sensirion_gas_index_algorithm.cpp:479-493). -/
def moxProcess (P : Par α) (sraw : α) : α :=
  if P.nox then
    A.mul (A.div (A.sub sraw P.moxMean) (A.ofInt 2000)) P.gain
  else
    A.mul (A.div (A.sub sraw P.moxMean)
      (A.mul (A.ofInt (-1)) (A.add P.moxStd (A.ofInt 220)))) P.gain

/-- `GasIndexAlgorithm__sigmoid_scaled__set_parameters`
(sensirion_gas_index_algorithm.cpp:495-501). -/
def scaledSet (P : Par α) (X0 K d : α) : Par α := { P with scK := K, scX0 := X0, scDef := d }

/-- The variable `shift` of `GasIndexAlgorithm__sigmoid_scaled__process`
(sensirion_gas_index_algorithm.cpp:517-523). -/
def shiftOf (P : Par α) : α :=
  if A.eq P.scDef (A.ofInt 1) then
    A.mul (A.div (A.ofInt 500) (A.ofInt 499)) (A.sub (A.ofInt 1) P.off)
  else
    A.div (A.sub (A.ofInt 500) (A.mul (A.ofInt 5) P.off)) (A.ofInt 4)

/-- `GasIndexAlgorithm__sigmoid_scaled__process`
(sensirion_gas_index_algorithm.cpp:503-532). -/
def scaledProcess (P : Par α) (sample : α) : α :=
  let x := A.mul P.scK (A.sub sample P.scX0)
  if A.lt x (A.ofInt (-50)) then A.ofInt 500
  else if A.lt (A.ofInt 50) x then A.ofInt 0
  else if A.le (A.ofInt 0) sample then
    let shift := shiftOf A P
    A.sub (A.div (A.add (A.ofInt 500) shift) (A.add (A.ofInt 1) (A.exp x))) shift
  else
    A.mul (A.div P.off P.scDef) (A.div (A.ofInt 500) (A.add (A.ofInt 1) (A.exp x)))

/-- `GasIndexAlgorithm__adaptive_lowpass__set_parameters`
(sensirion_gas_index_algorithm.cpp:534-544). -/
def lowpassSet (P : Par α) : Par α :=
  { P with
    a1 := A.div P.dt (A.add (A.ofInt 20) P.dt)
    a2 := A.div P.dt (A.add (A.ofInt 500) P.dt)
    lpInit := false }

/-- One step `(1 - a) * x + a * sample` of a low pass
(sensirion_gas_index_algorithm.cpp:561-564, 565-568, 579-580). -/
def blend (a x sample : α) : α :=
  A.add (A.mul (A.sub (A.ofInt 1) a) x) (A.mul a sample)

/-- The factor `a3` of the third low pass from the other two
(sensirion_gas_index_algorithm.cpp:569-578). -/
def adaptA (dt x1 x2 : α) : α :=
  let d := A.sub x1 x2
  let d := if A.lt d (A.ofInt 0) then A.mul (A.ofInt (-1)) d else d
  let F1 := A.exp (A.mul (A.neg (A.lit (2 / 10))) d)
  let tau := A.add (A.mul (A.sub (A.ofInt 500) (A.ofInt 20)) F1) (A.ofInt 20)
  A.div dt (A.add dt tau)

/-- `GasIndexAlgorithm__adaptive_lowpass__process`
(sensirion_gas_index_algorithm.cpp:546-582).  The result is the new `x3`. -/
def lowpassProcess (P : Par α) (sample : α) : Par α :=
  let P := if P.lpInit then P
    else { P with x1 := sample, x2 := sample, x3 := sample, lpInit := true }
  let x1 := blend A P.a1 P.x1 sample
  let x2 := blend A P.a2 P.x2 sample
  { P with x1 := x1, x2 := x2, x3 := blend A (adaptA A P.dt x1 x2) P.x3 sample }

/-- `GasIndexAlgorithm__init_instances` (sensirion_gas_index_algorithm.cpp:116-134). -/
def initInstances (P : Par α) : Par α :=
  let P := estSet A P
  let P := moxSet P (getStd P) (getMean A P)
  let P := if P.nox then
      scaledSet P (A.ofInt 614) (A.neg (A.lit (101 / 10000))) (A.ofInt 1)
    else
      scaledSet P (A.ofInt 213) (A.neg (A.lit (65 / 10000))) (A.ofInt 100)
  lowpassSet A P

/-- `GasIndexAlgorithm_reset` (sensirion_gas_index_algorithm.cpp:109-114). -/
def reset (P : Par α) : Par α :=
  initInstances A { P with uptime := A.ofInt 0, sraw := A.ofInt 0, idx := A.ofInt 0 }

/-- `GasIndexAlgorithm_init_with_sampling_interval`
(sensirion_gas_index_algorithm.cpp:72-101); the constants are those of
sensirion_gas_index_algorithm.h:62-90 and 94-95. -/
def initWith (P : Par α) (nox : Bool) (dt : α) : Par α :=
  let P := { P with nox := nox, dt := dt }
  let P := if nox then
      { P with
        off := A.ofInt 1
        min := 10000
        gateMax := A.mul (A.ofInt 60) (A.ofInt 12)
        initMean := A.mul (A.ofInt 3600) (A.lit (475 / 100))
        initVar := A.mul (A.ofInt 3600) (A.lit (570 / 100))
        gateThr := A.ofInt 30 }
    else
      { P with
        off := A.ofInt 100
        min := 20000
        gateMax := A.mul (A.ofInt 60) (A.ofInt 3)
        initMean := A.mul (A.ofInt 3600) (A.lit (75 / 100))
        initVar := A.mul (A.ofInt 3600) (A.lit (145 / 100))
        gateThr := A.ofInt 340 }
  reset A { P with
    gain := A.ofInt 230
    tauMean := A.ofInt 12
    tauVar := A.ofInt 12
    stdInit := A.ofInt 50 }

/-- `GasIndexAlgorithm_init` (sensirion_gas_index_algorithm.cpp:103-107). -/
def init (P : Par α) (nox : Bool) : Par α := initWith A P nox (A.ofInt 1)

/-- `GasIndexAlgorithm_get_sampling_interval`
(sensirion_gas_index_algorithm.cpp:136-139). -/
def getInterval (P : Par α) : α := P.dt

/-- `GasIndexAlgorithm_get_states` (sensirion_gas_index_algorithm.cpp:141-147). -/
def getStates (P : Par α) : α × α := (getMean A P, getStd P)

/-- `GasIndexAlgorithm_set_states` (sensirion_gas_index_algorithm.cpp:149-158); the uptime is
`GasIndexAlgorithm_PERSISTENCE_UPTIME_GAMMA`, 3 * 3600 s
(sensirion_gas_index_algorithm.h:96). -/
def setStates (P : Par α) (s0 s1 : α) : Par α :=
  let P := estSetStates P s0 s1 (A.mul (A.ofInt 3) (A.ofInt 3600))
  let P := moxSet P (getStd P) (getMean A P)
  { P with sraw := s0 }

/-- The six arguments of `GasIndexAlgorithm_set_tuning_parameters`
(sensirion_gas_index_algorithm.cpp:160-164). -/
structure Tuning where
  offset : Int
  learnOffset : Int
  learnGain : Int
  gating : Int
  std : Int
  gain : Int
deriving DecidableEq, Repr

/-- `GasIndexAlgorithm_set_tuning_parameters`
(sensirion_gas_index_algorithm.cpp:160-174). -/
def setTuning (P : Par α) (t : Tuning) : Par α :=
  initInstances A { P with
    off := A.ofInt t.offset
    tauMean := A.ofInt t.learnOffset
    tauVar := A.ofInt t.learnGain
    gateMax := A.ofInt t.gating
    stdInit := A.ofInt t.std
    gain := A.ofInt t.gain }

/-- `GasIndexAlgorithm_get_tuning_parameters`
(sensirion_gas_index_algorithm.cpp:176-190). -/
def getTuning (P : Par α) : Tuning :=
  { offset := A.toInt P.off
    learnOffset := A.toInt P.tauMean
    learnGain := A.toInt P.tauVar
    gating := A.toInt P.gateMax
    std := A.toInt P.stdInit
    gain := A.toInt P.gain }

/-- `t + dt` while `t` is below the limit 32767 - `dt`
(sensirion_gas_index_algorithm.cpp:319-330). -/
def advance (dt t : α) : α :=
  if A.lt t (A.sub (A.ofInt 32767) dt) then A.add t dt else t

/-- The gating threshold (sensirion_gas_index_algorithm.cpp:341-346, 366-371) from the value
of the sigmoid. -/
def threshold (P : Par α) (s : α) : α :=
  A.add P.gateThr (A.mul (A.sub (A.ofInt 510) P.gateThr) s)

/-- The gating duration before it is cut at zero
(sensirion_gas_index_algorithm.cpp:380-385) from the gating sigmoid. -/
def gateStep (P : Par α) (s : α) : α :=
  A.add P.gateDur (A.mul (A.div P.dt (A.ofInt 60))
    (A.sub (A.mul (A.sub (A.ofInt 1) s) (A.add (A.ofInt 1) (A.lit (3 / 10)))) (A.lit (3 / 10))))

/-- `GasIndexAlgorithm__mean_variance_estimator___calculate_gamma`
(sensirion_gas_index_algorithm.cpp:306-393). -/
def calculateGamma (P : Par α) : Par α :=
  let P := { P with
    upGamma := advance A P.dt P.upGamma
    upGating := advance A P.dt P.upGating }
  let P := sigmoidSet P P.initMean (A.lit (1 / 100))
  let sm := sigmoidProcess A P P.upGamma
  let gammaMean := A.add P.bMean (A.mul (A.sub P.iMean P.bMean) sm)
  let thrMean := threshold A P (sigmoidProcess A P P.upGating)
  let P := sigmoidSet P thrMean (A.lit (9 / 100))
  let gm := sigmoidProcess A P P.idx
  let P := { P with gMean := A.mul gm gammaMean }
  let P := sigmoidSet P P.initVar (A.lit (1 / 100))
  let sv := sigmoidProcess A P P.upGamma
  let gammaVar := A.add P.bVar (A.mul (A.sub P.iVar P.bVar) (A.sub sv sm))
  let thrVar := threshold A P (sigmoidProcess A P P.upGating)
  let P := sigmoidSet P thrVar (A.lit (9 / 100))
  let gv := sigmoidProcess A P P.idx
  let P := { P with gVar := A.mul gv gammaVar }
  let d := gateStep A P gm
  let P := { P with gateDur := if A.lt d (A.ofInt 0) then A.ofInt 0 else d }
  if A.lt P.gateMax P.gateDur then { P with upGating := A.ofInt 0 } else P

/-- `additional_scaling` (sensirion_gas_index_algorithm.cpp:418-426). -/
def scaling (std delta : α) : α :=
  let c := if A.lt delta (A.ofInt 0) then A.sub std delta else A.add std delta
  if A.lt (A.ofInt 1440) c then
    A.mul (A.div c (A.ofInt 1440)) (A.div c (A.ofInt 1440))
  else A.ofInt 1

/-- The new standard deviation (sensirion_gas_index_algorithm.cpp:427-439). -/
def newStd (std gVar delta scal : α) : α :=
  A.mul (A.sqrt (A.mul scal (A.sub (A.ofInt 64) gVar)))
    (A.sqrt (A.add (A.mul std (A.div std (A.mul (A.ofInt 64) scal)))
      (A.mul (A.div (A.mul gVar delta) scal) delta)))

/-- `GasIndexAlgorithm__mean_variance_estimator__process`
(sensirion_gas_index_algorithm.cpp:395-445). -/
def estProcess (P : Par α) (sraw : α) : Par α :=
  if P.eInit then
    let P := if A.le (A.ofInt 100) P.eMean || A.le P.eMean (A.ofInt (-100)) then
        { P with eOff := A.add P.eOff P.eMean, eMean := A.ofInt 0 }
      else P
    let sraw := A.sub sraw P.eOff
    let P := calculateGamma A P
    let delta := A.div (A.sub sraw P.eMean) (A.ofInt 64)
    let scal := scaling A P.eStd delta
    { P with
      eStd := newStd A P.eStd P.gVar delta scal
      eMean := A.add P.eMean (A.div (A.mul P.gMean delta) (A.ofInt 8)) }
  else { P with eInit := true, eOff := sraw, eMean := A.ofInt 0 }

/-- The measured value is stored when it is plausible, cut to the range above the minimum
(sensirion_gas_index_algorithm.cpp:198-205). -/
def takeSraw (P : Par α) (sraw : Int) : Par α :=
  if 0 < sraw ∧ sraw < 65000 then
    let s := if sraw < P.min + 1 then P.min + 1
      else if P.min + 32767 < sraw then P.min + 32767 else sraw
    { P with sraw := A.ofInt (s - P.min) }
  else P

/-- The raw gas index before the low pass (sensirion_gas_index_algorithm.cpp:206-216). -/
def rawIndex (P : Par α) : α :=
  if !P.nox || P.eInit then scaledProcess A P (moxProcess A P P.sraw) else P.off

/-- `GasIndexAlgorithm_process` (sensirion_gas_index_algorithm.cpp:192-233): the new state and
the gas index. -/
def process (P : Par α) (sraw : Int) : Par α × Int :=
  let P :=
    if A.le P.uptime (A.ofInt 45) then { P with uptime := A.add P.uptime P.dt }
    else
      let P := takeSraw A P sraw
      let P := lowpassProcess A P (rawIndex A P)
      let P := { P with idx := if A.lt P.x3 (A.lit (1 / 2)) then A.lit (1 / 2) else P.x3 }
      if A.lt (A.ofInt 0) P.sraw then
        let P := estProcess A P P.sraw
        moxSet P (getStd P) (getMean A P)
      else P
  (P, A.toInt (A.add P.idx (A.lit (1 / 2))))

end Verif.Gas
