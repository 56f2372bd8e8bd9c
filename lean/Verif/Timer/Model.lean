import Verif.Base

/-!
# Delays and timers (sblib/src/timer.cpp, sblib/inc/sblib/timer.h)

`delay`, `delayMicroseconds` and the configuration of the hardware timers.

Time is counted in clocks of the processor. SysTick counts down from LOAD to 0 and then starts again at LOAD, so its
value is a function of the time (`sysTick`). When the program reads SysTick or `systemTime` is arbitrary: `r i` is the
time of the `i`-th reading of SysTick, `s i` is the number of SysTick interrupts handled before the `i`-th reading of
`systemTime`. Interrupts and sleeping only appear as gaps between the readings.
-/

namespace Verif.Timer

open Verif

/-! ## SysTick -/

/-- SysTick VAL at time `t` (ARMv6-M: down counter, reload value LOAD), read into a `uint16_t` (timer.cpp:68, 87). -/
def sysTick (load t : Nat) : Word := BitVec.ofNat 16 (load - t % (load + 1))

/-- timer.cpp:88-92: the clocks since the last reading. -/
def elapsedTicks (load : Nat) (last v : Word) : Int :=
  let e : Int := (last.toNat : Int) - v.toNat
  if e < 0 then e + load else e

/-- The loop timer.cpp:83-95. `i`: the number of readings of SysTick done before; `none`: not finished after that many
rounds. The result is the number of readings done. -/
def waitTicks (load : Nat) (r : Nat → Nat) : Nat → Nat → Word → Int → Option Nat
  | 0, _, _, _ => none
  | n + 1, i, last, w =>
    if w > 0 then
      let v := sysTick load (r i)
      waitTicks load r n (i + 1) v (w - elapsedTicks load last v)
    else some i

/-- The end of a call: stopped in `fatalError`, or returned with that many readings done. -/
inductive Stop
  | fatal | returned (i : Nat)
  deriving DecidableEq

/-- timer.cpp:71-81: `ticksToWait`. `none`: `fatalError` (timer.h:31, 36: 2 and 4000). -/
def ticksToWait (clk : U32) (usec : U32) : Option Int :=
  if usec > 2#32 then
    if usec > 4000#32 then none else some ((usec - 2#32) * (clk / 1000000#32)).toInt
  else some 1

/-- `delayMicroseconds`, timer.cpp:66-96; it makes its first reading as the `i`-th. -/
def delayMicros (load : Nat) (clk : U32) (r : Nat → Nat) (fuel i : Nat) (usec : U32) : Option Stop :=
  match ticksToWait clk usec with
  | none => some .fatal
  | some w => (waitTicks load r fuel (i + 1) (sysTick load (r i)) w).map .returned

/-! ## delay -/

/-- The loop timer.cpp:51-62: `last` is `lastSystemTime`, `i` readings of `systemTime` have been done. -/
def delayLoop (s : Nat → Nat) : Nat → Nat → U32 → U32 → Option Nat
  | 0, _, _, _ => none
  | n + 1, i, last, msec =>
    if msec = 0#32 then some i
    else if last = BitVec.ofNat 32 (s i) then delayLoop s n (i + 1) last msec
    else delayLoop s n (i + 2) (BitVec.ofNat 32 (s (i + 1))) (msec - 1#32)

/-- timer.cpp:37-44: inside an interrupt, from the `i`-th reading of SysTick on. -/
def delayIsr (load : Nat) (clk : U32) (r : Nat → Nat) (fuel : Nat) : Nat → Nat → U32 → Option Stop
  | 0, _, _ => none
  | n + 1, i, msec =>
    if msec > 4#32 then
      match delayMicros load clk r fuel i 4000#32 with
      | some (.returned j) => delayIsr load clk r fuel n j (msec - 4#32)
      | o => o
    else delayMicros load clk r fuel i (msec * 1000#32)

/-- Where and how `delay` is called: SysTick enabled, its interrupt enabled, inside an interrupt. -/
structure Ctx where
  enabled : Bool
  tickInt : Bool
  isr : Bool

/-- `delay`, timer.cpp:24-63. -/
def delay (c : Ctx) (load : Nat) (clk : U32) (r s : Nat → Nat) (fuel : Nat) (msec : U32) : Option Stop :=
  if !c.enabled && !c.tickInt then some .fatal
  else if c.isr then delayIsr load clk r fuel fuel 0 msec
  else (delayLoop s fuel 1 (BitVec.ofNat 32 (s 0)) msec).map .returned

/-! ## Timer registers -/

/-- The registers of one timer that the configuration functions use, and the clock control register. -/
structure Regs where
  mcr : U32
  ccr : U32
  emr : U32
  ctcr : U32
  pwmc : U32
  ir : U32
  ahbclk : U32

/-- `Timer::begin`, timer.cpp:130-137. -/
def begin (r : Regs) (num : Nat) : Regs :=
  { r with ahbclk := r.ahbclk ||| 1#32 <<< (7 + num), emr := 0#32, mcr := 0#32, ccr := 0#32 }

/-- `Timer::end`, timer.h:520-523. -/
def «end» (r : Regs) (num : Nat) : Regs := { r with ahbclk := r.ahbclk &&& ~~~(1#32 <<< (7 + num)) }

/-- `Timer::matchModePinConfig`, timer.h:623-629. -/
def matchModePinConfig (r : Regs) (ch : Nat) (mode : U32) : Regs :=
  { r with emr := r.emr &&& ~~~(0x30#32 <<< (ch * 2)) ||| (mode &&& 0x30#32) <<< (ch * 2) }

/-- `Timer::matchMode`, timer.cpp:140-153. -/
def setMatchMode (r : Regs) (ch : Nat) (mode : U32) : Regs :=
  matchModePinConfig { r with mcr := r.mcr &&& ~~~(7#32 <<< (ch * 3)) ||| (mode &&& 7#32) <<< (ch * 3) } ch mode

/-- `Timer::matchMode` (query), timer.cpp:155-170. -/
def getMatchMode (r : Regs) (ch : Nat) : U32 := r.mcr >>> (ch * 3) &&& 7#32 ||| (r.emr >>> (ch * 2) &&& 0x30#32)

/-- `Timer::captureMode`, timer.cpp:172-183. -/
def setCaptureMode (r : Regs) (ch : Nat) (mode : U32) : Regs :=
  let val := mode >>> 6 &&& 3#32
  let val := if mode &&& 1#32 ≠ 0#32 then val ||| 4#32 else val
  { r with ccr := r.ccr &&& ~~~(7#32 <<< (ch * 3)) ||| val <<< (ch * 3) }

/-- `Timer::captureMode` (query), timer.cpp:185-196. -/
def getCaptureMode (r : Regs) (ch : Nat) : U32 :=
  let mode := (r.ccr >>> (ch * 3) &&& 7#32) <<< 6
  if mode &&& 0x100#32 ≠ 0#32 then mode &&& 0xc0#32 ||| 1#32 else mode

/-- `Timer::counterMode`, timer.cpp:198-223; CAP0 is 0 and CAP1 is 1 (types.h:150-161). -/
def counterMode (r : Regs) (mode clearMode : U32) : Regs :=
  let config := if mode &&& 0x40#32 ≠ 0#32 then 0x1#32 else 0#32
  let config := if mode &&& 0x80#32 ≠ 0#32 then config ||| 0x2#32 else config
  let config := if mode &&& 1#32 ≠ 0#32 then config ||| 0x4#32 else config
  let config :=
    if clearMode ≠ 0#32 then
      let config := config ||| 0x10#32
      if clearMode &&& (1#32 ||| 0x80#32) ≠ 0#32 then config ||| 0x60#32
      else if clearMode &&& (1#32 ||| 0x40#32) ≠ 0#32 then config ||| 0x40#32
      else if clearMode &&& (0#32 ||| 0x80#32) ≠ 0#32 then config ||| 0x20#32
      else config
    else config
  { r with ctcr := config }

/-- `Timer::pwmEnable`, timer.h:613-616. -/
def pwmEnable (r : Regs) (ch : Nat) : Regs := { r with pwmc := r.pwmc ||| 1#32 <<< ch }

/-- `Timer::pwmDisable`, timer.h:618-621. -/
def pwmDisable (r : Regs) (ch : Nat) : Regs := { r with pwmc := r.pwmc &&& ~~~(1#32 <<< ch) }

/-- A write to IR clears the flags whose bit is written as 1 (LPC11xx manual). -/
def writeIr (r : Regs) (v : U32) : Regs := { r with ir := r.ir &&& ~~~v }

/-- `Timer::resetFlag(TimerMatch)`, timer.h:557-560. -/
def resetMatchFlag (r : Regs) (ch : Nat) : Regs := writeIr r (1#32 <<< ch)

/-- `Timer::resetFlag(TimerCapture)`, timer.h:562-565. -/
def resetCaptureFlag (r : Regs) (ch : Nat) : Regs := writeIr r (16#32 <<< ch)

/-- `Timer::flag(TimerMatch)`, timer.h:567-570. -/
def matchFlag (r : Regs) (ch : Nat) : Bool := decide (r.ir &&& 1#32 <<< ch ≠ 0#32)

/-- `Timer::flag(TimerCapture)`, timer.h:572-575. -/
def captureFlag (r : Regs) (ch : Nat) : Bool := decide (r.ir &&& 16#32 <<< ch ≠ 0#32)

end Verif.Timer
