import Verif.Pin.Model

/-!
# What the device does after a fatal error

Modelled: `setPinsInSecureModes`, `fatalError`, `HardFault_Handler`, `setFatalErrorPin`, `setKNX_TX_Pin` of utils.cpp, and `SysTick_Config` of the CMSIS
header (the copy in the test emulation; the vendor's header is not in the repository).

Simplifications: the two endless loops are cut after an arbitrary number of rounds, `rounds` has for each round the number of clocks that have passed since
the round before (the first: since `SysTick_Config`) when SysTick is read. Interrupts go on while `fatalError` blinks (not while
`HardFault_Handler` does); none of the library's interrupt handlers configures a pin, so they are not modelled here. The priority of the
SysTick interrupt (core_cm0.h:652) is not modelled.
-/

namespace Verif.Pin

open Verif

/-- The registers LOAD, VAL and the bit ENABLE of CTRL of SysTick. -/
structure SysTick where
  load : U32
  val : U32
  enabled : Bool

/-- `SysTick_Config`, core_cm0.h:647-658; with a number of ticks that does not fit nothing is changed. -/
def sysTickConfig (t : SysTick) (ticks : U32) : SysTick :=
  if 0xFFFFFF#32 < ticks - 1#32 then t else { load := ticks - 1#32, val := 0#32, enabled := true }

/-- One clock (ARMv6-M: SysTick counts down; at 0 it is loaded with LOAD). -/
def SysTick.clock (t : SysTick) : SysTick :=
  if t.enabled then { t with val := if t.val = 0#32 then t.load else t.val - 1#32 } else t

/-- `n` clocks. -/
def SysTick.clocks (t : SysTick) : Nat → SysTick
  | 0 => t
  | n + 1 => (t.clocks n).clock

/-- The variables utils.cpp:18-19. -/
structure FatalPins where
  fatalErrorPin : U32
  eibTxPin : U32

/-- utils.cpp:18-19, with `PIN_PROG` and `PIN_EIB_TX` of gpio_lpc11xx.h:14-16 (the boards other than GNAX). -/
def fatalPins0 : FatalPins := { fatalErrorPin := PIO2_0, eibTxPin := PIO1_9 }

/-- `setFatalErrorPin`, utils.cpp:63-66. -/
def setFatalErrorPin (c : FatalPins) (newPin : U32) : FatalPins := { c with fatalErrorPin := newPin }

/-- `setKNX_TX_Pin`, utils.cpp:68-71. -/
def setKNX_TX_Pin (c : FatalPins) (newTxPin : U32) : FatalPins := { c with eibTxPin := newTxPin }

/-- `setPinsInSecureModes`, utils.cpp:31-35; `none`: `pinMode` calls `fatalError` again. -/
def setPinsInSecureModes (c : FatalPins) (s : State) : Option State :=
  (pinMode s c.fatalErrorPin OUTPUT).bind fun s => pinMode s c.eibTxPin INPUT

/-- The loops utils.cpp:43-47 (`mask` 0x400000) and utils.cpp:56-60 (`mask` 0x200000), as long as there are `rounds`. -/
def blink (c : FatalPins) (mask : U32) : List Nat → State × SysTick → State × SysTick
  | [], x => x
  | n :: rounds, (s, t) =>
    let t := t.clocks n
    blink c mask rounds (digitalWrite s c.fatalErrorPin (decide (t.val &&& mask = 0#32)), t)

/-- `fatalError`, utils.cpp:37-48. -/
def fatalError (c : FatalPins) (rounds : List Nat) (s : State) (t : SysTick) : Option (State × SysTick) :=
  let t := sysTickConfig t 0x1000000#32
  (setPinsInSecureModes c s).map fun s => blink c 0x400000#32 rounds (s, t)

/-- `HardFault_Handler`, utils.cpp:50-61. -/
def hardFault (c : FatalPins) (rounds : List Nat) (s : State) (t : SysTick) : Option (State × SysTick) :=
  let t := sysTickConfig t 0x1000000#32
  (setPinsInSecureModes c s).map fun s => blink c 0x200000#32 rounds (s, t)

end Verif.Pin
