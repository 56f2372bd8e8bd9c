import Verif.Bus.Spec

/-!
# Specification vocabulary for arbitration between two senders

It speaks about the interrupts of a device that is sending while another device may be sending too.
The timer of a sending device restarts at the end of each of its own pulses, 35 µs after the
beginning of the pulse; a zero bit `k` bit times after the previous pulse is therefore due at timer
value `104 * k - 35`.
-/

namespace Verif.Bus

open Verif.Knx

/-- A falling edge. -/
def IsEdge (e : Irq) : Prop := e.cap = true ∧ e.tmo = false ∧ e.spike = false

/-- A timeout. -/
def IsTimeout (e : Irq) : Prop := e.tmo = true ∧ e.spike = false

/-- The interrupts of one pulse of the device: falling edges captured meanwhile (its own, another
device's, both or none) and the end of the pulse. -/
structure Pulse where
  caps : List Irq
  fin : Irq

/-- The interrupts as events. -/
def Pulse.events (p : Pulse) : List Ev := p.caps.map .irq ++ [.irq p.fin]

/-- The pulse is that of bit position `n`, the previous one was at position `m` (0 is the start
bit); all edges are captured at most 7 µs before and 34 µs after it is due. -/
def Pulse.At (p : Pulse) (m n : Nat) : Prop :=
  (∀ e ∈ p.caps, IsEdge e ∧ 104 * n ≤ e.capVal + 104 * m + 42 ∧ e.capVal + 104 * m < 104 * n) ∧
  IsTimeout p.fin

/-- One pulse for each of the given positions. -/
def Pulses : Nat → List Nat → List Pulse → Prop
  | _, [], ps => ps = []
  | _, _ :: _, [] => False
  | m, n :: ns, p :: ps => p.At m n ∧ Pulses n ns ps

/-- The interrupts of a character that is sent to its end: the edge of the start bit, the end of its
pulse, the pulses of the zero bits, the end of the stop bit. -/
structure TxIrqs where
  start : Irq
  startEnd : Irq
  pulses : List Pulse
  fin : Irq

/-- The interrupts as events. -/
def TxIrqs.events (x : TxIrqs) : List Ev :=
  .irq x.start :: .irq x.startEnd :: (x.pulses.flatMap (·.events) ++ [.irq x.fin])

/-- They are those of the character `c` whose start bit is due at timer value `lead`; an edge up to
30 µs earlier (another device is a bit faster) is accepted as the start bit. -/
def TxIrqs.Of (x : TxIrqs) (lead : Nat) (c : Byte) : Prop :=
  IsEdge x.start ∧ lead ≤ x.start.capVal + 30 ∧ IsTimeout x.startEnd ∧
  Pulses 0 (zeroSlots c (parityBit c)) x.pulses ∧ IsTimeout x.fin

/-- The interrupts of several characters.  The second and later ones start at timer value 278. -/
def SentAll : Nat → List Byte → List TxIrqs → Prop
  | _, [], xs => xs = []
  | _, _ :: _, [] => False
  | lead, c :: cs, x :: xs => x.Of lead c ∧ SentAll 278 cs xs

/-- The falling edges of exactly the given bit positions, each at most 35 µs too early and less than
69 µs too late, where position `s` was captured at timer value `u`. -/
def CapturedFrom (u s : Nat) : List Nat → List Irq → Prop
  | [], es => es = []
  | _ :: _, [] => False
  | n :: ns, e :: es =>
    (IsEdge e ∧ u + 104 * n ≤ e.capVal + 104 * s + 35 ∧ e.capVal + 104 * s < u + 104 * n + 69) ∧
    CapturedFrom u s ns es

/-- The interrupts of a character in which the device is overruled: it sends the start bit and some
zero bits, then another device sends a zero where it has a one (`edge`); `rest` are the later zero
bits of the other device's character, `fin` is the end of that character. -/
structure LostIrqs where
  start : Irq
  startEnd : Irq
  pulses : List Pulse
  edge : Irq
  rest : List Irq
  fin : Irq

/-- The interrupts as events. -/
def LostIrqs.events (x : LostIrqs) : List Ev :=
  .irq x.start :: .irq x.startEnd ::
    (x.pulses.flatMap (·.events) ++ .irq x.edge :: (x.rest.map .irq ++ [.irq x.fin]))

/-- Positions of the zero bits of `c` before position `s`. -/
def zerosBefore (c : Byte) (s : Nat) : List Nat :=
  (zeroSlots c (parityBit c)).filter fun n => decide (n < s)

/-- Positions of the zero bits of `c` after position `s`. -/
def zerosAfter (c : Byte) (s : Nat) : List Nat :=
  (zeroSlots c (parityBit c)).filter fun n => decide (s < n)

/-- Position of the last pulse of `c` before position `s` (0 is the start bit). -/
def lastBefore (c : Byte) (s : Nat) : Nat := (zerosBefore c s).getLastD 0

/-- They are those of sending `c` against another device's `w` that has its first differing bit at
position `s`; the other device's edge at `s` comes at most 7 µs before and `late` µs after it is
due. -/
def LostIrqs.Of (x : LostIrqs) (lead late : Nat) (c w : Byte) (s : Nat) : Prop :=
  IsEdge x.start ∧ lead ≤ x.start.capVal + 30 ∧ IsTimeout x.startEnd ∧
  Pulses 0 (zerosBefore c s) x.pulses ∧
  IsEdge x.edge ∧ 104 * s ≤ x.edge.capVal + 104 * lastBefore c s + 42 ∧
  x.edge.capVal + 104 * lastBefore c s + 35 ≤ 104 * s + late ∧
  CapturedFrom x.edge.capVal s (zerosAfter w s) x.rest ∧ IsTimeout x.fin

/-- The interrupts of several characters of another device, each with its even parity bit. -/
def AllOf : List Byte → List CharIrqs → Prop
  | [], cs => cs = []
  | _ :: _, [] => False
  | b :: bs, c :: cs => c.Of b (parityBit b) ∧ AllOf bs cs

/-- The falling edges that a device itself puts on the line while it handles the given interrupts:
the output is pulled low at timer value `mPwm` if that comes before the match value `mTime`, and the
timer restarts after the match value.  `t` is the time of the last restart. -/
def drive : Nat → Sys → List Ev → List Nat
  | _, _, [] => []
  | t, s, .irq i :: es =>
    if i.tmo then
      (if s.bus.mPwm ≤ s.bus.mTime then [t + s.bus.mPwm] else []) ++
        drive (t + s.bus.mTime + 1) (step s (.irq i)).1 es
    else drive t (step s (.irq i)).1 es
  | t, s, e :: es => drive t (step s e).1 es

/-- Bit position `s` (1 to 9) is the first in which the characters `c` and `w` differ, and `w` has
the zero there: `w` wins. -/
def Overrules (w c : Byte) (s : Nat) : Prop :=
  1 ≤ s ∧ (charBits w (parityBit w)).take (s - 1) = (charBits c (parityBit c)).take (s - 1) ∧
  (charBits w (parityBit w))[s - 1]? = some false ∧ (charBits c (parityBit c))[s - 1]? = some true

/-- The frame `w` wins against the frame `f`: their first `n` characters agree, in the next one `w`
overrules `f` at bit position `s`. -/
def Wins (w f : List Byte) (n s : Nat) : Prop :=
  w.take n = f.take n ∧ n < w.length ∧ n < f.length ∧ Overrules (at' w n) (at' f n) s

end Verif.Bus
