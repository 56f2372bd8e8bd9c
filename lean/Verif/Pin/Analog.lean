import Verif.Base

/-!
# The analog inputs

Modelled: `analogBegin`, `analogEnd`, `analogPoll`, `analogRead` and `analogValidRead` (analog_pin.cpp:28-90), as built for the processor (without
`IAP_EMULATION`). What the converter shows in its data registers is an arbitrary function `dr` of the channel and of the number of accesses to the converter
so far. Recorded are all accesses.
-/

namespace Verif.Adc

open Verif

/-- An access to the converter. -/
inductive Act where
  | writeCr (v : U32)
  | readDr (channel : U32)
  deriving DecidableEq

/-- The converter; `log` holds the accesses, latest last. -/
structure St where
  cr : U32
  pdRunCfg : U32
  ahbClkCtrl : U32
  log : List Act

/-- An assignment to CR. -/
def St.setCr (s : St) (v : U32) : St := { s with cr := v, log := s.log ++ [.writeCr v] }

/-- A look at a data register. -/
def St.read (s : St) (channel : U32) : St := { s with log := s.log ++ [.readDr channel] }

/-- `analogBegin`, analog_pin.cpp:28-38. `none`: division by zero. -/
def begin (coreClock ahbDiv : U32) (s : St) : Option St :=
  let s := { s with pdRunCfg := s.pdRunCfg &&& ~~~(1#32 <<< 4) }
  let s := { s with ahbClkCtrl := s.ahbClkCtrl ||| (1#32 <<< 13) }
  if ahbDiv = 0#32 then none
  else some (s.setCr ((coreClock / ahbDiv / 2400000#32 - 1#32) <<< 8))

/-- `analogEnd`, analog_pin.cpp:40-47. -/
def stop (s : St) : St :=
  let s := { s with pdRunCfg := s.pdRunCfg ||| (1#32 <<< 4) }
  { s with ahbClkCtrl := s.ahbClkCtrl &&& ~~~(1#32 <<< 13) }

/-- The loop of `analogPoll`, analog_pin.cpp:59-64, `n` times at most. `none`: the loop goes on. -/
def wait (dr : U32 → Nat → U32) (channel : U32) : Nat → St → Option (U32 × St)
  | 0, _ => none
  | n + 1, s =>
    let regVal := dr channel s.log.length
    let s := s.read channel
    if regVal &&& 0x80000000#32 = 0#32 then wait dr channel n s else some (regVal, s)

/-- `analogPoll`, analog_pin.cpp:49-68, if it takes at most `n` looks. A shift by the processor takes the lowest byte of the number of places. -/
def poll (dr : U32 → Nat → U32) (channel : U32) (n : Nat) (s : St) : Option (U32 × St) :=
  let s := s.setCr (s.cr &&& 0xffffff00#32)
  let s := s.read channel
  let s := s.setCr (s.cr ||| ((1#32 <<< (channel.toNat % 256)) ||| (1#32 <<< 24)))
  match wait dr channel n s with
  | none => none
  | some (regVal, s) => some (regVal, s.setCr (s.cr &&& 0xf8ffffff#32))

/-- The cast, shift and mask, analog_pin.cpp:78, 89. -/
def value (v : U32) : Int := BitVec.toInt ((v >>> 6) &&& 0x3ff#32)

/-- `analogRead`, analog_pin.cpp:70-79. -/
def analogRead (dr : U32 → Nat → U32) (channel : U32) (n : Nat) (s : St) : Option (Int × St) :=
  (poll dr channel n s).map fun q =>
    (if q.1 &&& 0x40000000#32 ≠ 0#32 then 0 else value q.1, q.2)

/-- `analogValidRead`, analog_pin.cpp:81-90. -/
def analogValidRead (dr : U32 → Nat → U32) (channel : U32) (n : Nat) (s : St) : Option (Int × St) :=
  (poll dr channel n s).map fun q =>
    (if q.1 &&& 0x40000000#32 ≠ 0#32 then -1 else value q.1, q.2)

end Verif.Adc
