import Verif.Bus.Spec

/-!
# Specification vocabulary for the timing between two devices

Every device has its own clock (µs of its own timer).  An event on the line is read by each device
on its own clock; two clocks are only compared through the distance between two events
(`SameGap`), so that a constant offset, jitter of the capture and a deviating oscillator are all
covered.  The timer (one counter, a match channel and a capture channel) is set up by `Bus::begin`, bus.cpp:51-82;
what it does is hardware and is modelled here.
-/

namespace Verif.Bus

open Verif.Knx

/-- On one clock two events happen at `p` and `q`, on the other one at `p'` and `q'`: the distances
differ by at most `tol` µs. -/
def SameGap (tol p q p' q' : Nat) : Prop := q + p' ≤ q' + p + tol ∧ q' + p ≤ q + p' + tol

/-- One character: falling edges at `es` on the sender's clock are captured at `hs` on the
receiver's clock; the first one is the start bit. -/
def HeardChar (tol : Nat) (es hs : List Nat) : Prop :=
  hs.length = es.length ∧
  ∀ k, k < es.length → SameGap tol (es.getD 0 0) (es.getD k 0) (hs.getD 0 0) (hs.getD k 0)

/-- A sequence of characters whose predecessor had its start bit at `p` on the sender's clock and at
`p'` on the receiver's clock. -/
def HeardFrom (tol p p' : Nat) : List (List Nat) → List (List Nat) → Prop
  | [], hs => hs = []
  | _ :: _, [] => False
  | e :: es, h :: hs =>
    SameGap tol p (e.getD 0 0) p' (h.getD 0 0) ∧ HeardChar tol e h ∧
      HeardFrom tol (e.getD 0 0) (h.getD 0 0) es hs

/-- The start bit of the first character. -/
def firstStart (es : List (List Nat)) : Nat := (es.getD 0 []).getD 0 0

/-- The start bit of the last character. -/
def lastStart (es : List (List Nat)) : Nat := (es.getLastD []).getD 0 0

/-- A frame: within a character the edges keep their distance from its start bit, and each start
bit keeps its distance from the one before, up to `tol` µs. -/
def HeardFrame (tol : Nat) (es hs : List (List Nat)) : Prop :=
  HeardFrom tol (firstStart es) (firstStart hs) es hs

/-! ## The timer hardware of a device that is not sending -/

/-- What a device meets while it listens: the parts of `Irq` that do not come from the timer, and
the time between a falling edge and the handler's reading of the timer, as functions of the time. -/
structure Around where
  env : Nat → Irq
  late : Nat → Nat

/-- The interrupt of a falling edge at time `k`.  The timer was zero at time `z`; it counts on until
the handler reads it and restarts on the way if the match mode says so. -/
def edgeIrq (a : Around) (z : Nat) (b : Bus) (k : Nat) : Irq :=
  { a.env k with
    cap := true, tmo := false, spike := false, capVal := k - z
    now := if b.tReset = true ∧ b.mTime < k - z + a.late k then k - z + a.late k - (b.mTime + 1)
      else k - z + a.late k }

/-- The interrupt of the match. -/
def matchIrq (a : Around) (z : Nat) (b : Bus) : Irq :=
  { a.env (z + b.mTime) with cap := false, tmo := true, spike := false }

/-- When the timer was zero, after the handler has run at time `t`: it may have written the
counter. -/
def zeroAt (z t : Nat) : Option Nat → Nat
  | none => z
  | some v => t - v

/-- The next thing the hardware does: a falling edge on the line (times in `es`, on this device's
clock) or the match of the timer, whichever is first.  An edge is lost while the capture interrupt
is off.  Result: log, time of timer zero, state, edges to come. -/
def hearStep (a : Around) (z : Nat) (b : Bus) (es : List Nat) : List Out × Nat × Bus × List Nat :=
  let onMatch : List Out × Nat × Bus × List Nat :=
    let r := isr (matchIrq a z b) b
    (r.2, zeroAt (if b.tReset then z + b.mTime + 1 else z) (z + b.mTime + a.late (z + b.mTime)) r.1.tSet,
      r.1, es)
  match es with
  | [] => if b.tInt then onMatch else ([], z, b, [])
  | k :: ks =>
    if k < z + b.mTime ∨ b.tInt = false then
      if b.capInt then
        let r := isr (edgeIrq a z b k) b
        (r.2, zeroAt z (k + a.late k) r.1.tSet, r.1, ks)
      else ([], z, b, ks)
    else onMatch

/-- `n` of these. -/
def hear (a : Around) : Nat → Nat → Bus → List Nat → List Out × Nat × Bus × List Nat
  | 0, z, b, es => ([], z, b, es)
  | n + 1, z, b, es =>
    let r := hearStep a z b es
    let r2 := hear a n r.2.1 r.2.2.1 r.2.2.2
    (r.1 ++ r2.1, r2.2)

end Verif.Bus
