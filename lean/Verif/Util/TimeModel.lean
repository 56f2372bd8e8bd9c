import Verif.Base

/-!
# Model of `Timeout` and `Debouncer`

`millis()` (sblib/src/timer.cpp:106-109) is the low 32 bits of an unbounded millisecond clock; the
clock value at the time of a call is an argument of the modelled function.
-/

namespace Verif.Time

/-- `millis()`, sblib/src/timer.cpp:106-109. -/
def millis (clock : Nat) : U32 := BitVec.ofNat 32 clock

/-! ## sblib/inc/sblib/timeout.h -/

/-- The only data member of `class Timeout`, timeout.h:97. `STOPPED` is 0 (timeout.h:98). -/
structure Timeout where
  timeout : U32
  deriving DecidableEq, Repr

/-- `Timeout::stop` and the constructor, timeout.h:35-39 and 91-94. -/
def Timeout.stop : Timeout := ⟨0#32⟩

/-- `Timeout::start(ms)`, timeout.h:44-53. -/
def Timeout.start (clock : Nat) (ms : U32) : Timeout :=
  if 0#32 = ms then .stop
  else
    let t := millis clock + ms
    ⟨if t = 0#32 then t + 1#32 else t⟩

/-- `Timeout::expired()`, timeout.h:59-70: new state and result. -/
def Timeout.expired (t : Timeout) (clock : Nat) : Timeout × Bool :=
  if t.timeout ≠ 0#32 then
    if (millis clock - t.timeout).toInt ≥ 0 then (.stop, true) else (t, false)
  else (t, false)

/-- `Timeout::started()`, timeout.h:76-79. -/
def Timeout.started (t : Timeout) : Bool := t.timeout ≠ 0#32

/-- `Timeout::stopped()`, timeout.h:85-88. -/
def Timeout.stopped (t : Timeout) : Bool := t.timeout = 0#32

/-- The results of a sequence of calls of `expired()` at the given clock values. -/
def Timeout.queries : Timeout → List Nat → List Bool
  | _, [] => []
  | t, c :: cs => (t.expired c).2 :: Timeout.queries (t.expired c).1 cs

/-- The timeout after these calls. -/
def Timeout.after : Timeout → List Nat → Timeout
  | t, [] => t
  | t, c :: cs => Timeout.after (t.expired c).1 cs

/-! ## sblib/src/debounce.cpp -/

/-- Data members of `class Debouncer`, debounce.h:60-61. The constructor only sets `time`
(debounce.cpp:16-19), so `valid` and `last` are arbitrary initially. -/
structure Debouncer where
  time : U32
  valid : Int
  last : Int
  deriving DecidableEq, Repr

/-- `Debouncer::debounce(current, timeout)`, debounce.cpp:21-36; the result is the new `valid`. -/
def Debouncer.debounce (d : Debouncer) (clock : Nat) (current : Int) (timeout : U32) : Debouncer :=
  let now := millis clock
  if d.last ≠ current then { d with time := now, last := current }
  else if d.time ≠ 0#32 ∧ (now - (d.time + timeout)).toInt ≥ 0 then { d with time := 0#32, valid := current }
  else d

/-- `Debouncer::init(newValue)`, debounce.h:74-78. -/
def Debouncer.init (d : Debouncer) (newValue : Int) : Debouncer := { d with valid := newValue, time := 0#32 }

/-- The debouncer after a sequence of samples (clock, value) with the same debounce time. -/
def Debouncer.run (d : Debouncer) (timeout : U32) : List (Nat × Int) → Debouncer
  | [] => d
  | s :: ss => Debouncer.run (d.debounce s.1 s.2 timeout) timeout ss

end Verif.Time
