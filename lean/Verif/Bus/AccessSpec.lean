import Verif.Bus.TimeSpec

/-!
# A device with its timer, under arbitrary traffic

Other than in `TimeSpec.lean` the device may be in any state, may be sending, and anything may happen
on the line.  The handler may run late: `h` is the time at which it runs, `k` the time of the last
falling edge since it ran before.  Both flags of the timer may be set.  Simplifications: the handler
runs at one point in time, and edges rejected by the spike filter are left out (they change nothing).
The timer is set up by `Bus::begin`, bus.cpp:51-82; its flags are read in bus.cpp:569 and in the states
of the handler.  What it does is hardware and is modelled here.
-/

namespace Verif.Bus

open Verif.Knx

/-- A device at a point in time: `z` is when its timer was zero, `now` the time of the last event,
`last` the time of the last falling edge it was told about (the start of the device, if there was
none). -/
structure TSys where
  z : Nat
  now : Nat
  last : Nat
  sys : Sys

/-- Timer value at time `t`. -/
def counter (b : Bus) (z t : Nat) : Nat :=
  if b.tReset then (t - z) % (b.mTime + 1) else t - z

/-- What happens to it. -/
inductive TEv
  /-- the handler runs at time `h`; `k`: a falling edge has been captured at that time; the rest of
  what the handler sees is taken from `i` -/
  | irq (k : Option Nat) (h : Nat) (i : Irq)
  /-- the upper layer does something at time `t` -/
  | call (t : Nat) (e : Ev)

/-- What the handler sees at time `h`. -/
def irqAt (T : TSys) (k : Option Nat) (h : Nat) (i : Irq) : Irq :=
  { i with
    cap := k.isSome, spike := false
    tmo := T.sys.bus.tInt && decide (T.z + T.sys.bus.mTime < h)
    capVal := counter T.sys.bus T.z (k.getD 0), now := counter T.sys.bus T.z h }

/-- The event is possible, with handlers that run at most `lat` µs after their cause. -/
def Possible (lat : Nat) (T : TSys) : TEv → Prop
  | .irq k h i =>
    T.sys.paused = false ∧ T.now ≤ h ∧
    ((irqAt T k h i).cap = true ∨ (irqAt T k h i).tmo = true) ∧
    (∀ x, k = some x → T.sys.bus.capInt = true ∧ T.now ≤ x ∧ x ≤ h ∧ h ≤ x + lat) ∧
    ((irqAt T k h i).tmo = true → h ≤ T.z + T.sys.bus.mTime + lat)
  | .call t e => T.now ≤ t ∧ ∀ i, e ≠ .irq i

/-- What the event does. -/
def tnext (T : TSys) : TEv → TSys × List Out
  | .irq k h i =>
    let r := step T.sys (.irq (irqAt T k h i))
    ({ z := zeroAt (h - counter T.sys.bus T.z h) h r.1.bus.tSet
       now := h, last := k.getD T.last, sys := r.1 }, r.2)
  | .call t e =>
    let r := step { T.sys with bus := { T.sys.bus with tSet := none } } e
    ({ T with z := zeroAt T.z t r.1.bus.tSet, now := t, sys := r.1 }, r.2)

/-- A possible history. -/
def Valid (lat : Nat) : TSys → List TEv → Prop
  | _, [] => True
  | T, e :: es => Possible lat T e ∧ Valid lat (tnext T e).1 es

/-- The state after it. -/
def trun : TSys → List TEv → TSys
  | T, [] => T
  | T, e :: es => trun (tnext T e).1 es

/-- A device started at time `t`. -/
def tboot (t : Nat) : TSys := ⟨t, t, t, boot⟩

/-- When the device itself pulls the line low next: the beginning of the start bit it has in mind. -/
def startBit (T : TSys) : Nat := T.z + T.sys.bus.mPwm

end Verif.Bus
