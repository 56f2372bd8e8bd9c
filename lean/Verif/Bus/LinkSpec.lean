import Verif.Bus.PropsTx

/-!
# Specification vocabulary for two devices on a lossy line

Two copies of the link layer, `a` and `b`, run side by side.  Nothing connects them but the condition
`Line`, which says what the line may do: it may lose and damage whatever it likes as long as the
damage shows in a parity bit or in the check octet, but it does not invent telegrams or
acknowledgements.
-/

namespace Verif.Bus

open Verif.Knx

/-- The two devices. -/
inductive Who
  | a | b
  deriving DecidableEq

/-- Both devices. -/
structure Net where
  a : Sys
  b : Sys

/-- One step of one of the devices. -/
def netStep (s : Net) : Who × Ev → Net × List (Who × Out)
  | (.a, e) => (⟨(step s.a e).1, s.b⟩, (step s.a e).2.map fun o => (.a, o))
  | (.b, e) => (⟨s.a, (step s.b e).1⟩, (step s.b e).2.map fun o => (.b, o))

/-- Any interleaving of steps of the two devices, and the common log. -/
def netRun : Net → List (Who × Ev) → Net × List (Who × Out)
  | s, [] => (s, [])
  | s, m :: ms => ((netRun (netStep s m).1 ms).1, (netStep s m).2 ++ (netRun (netStep s m).1 ms).2)

/-- The part of one device in a list of events or log entries of both. -/
def of (w : Who) (l : List (Who × α)) : List α := l.filterMap fun x => if x.1 = w then some x.2 else none

/-- What follows the last occurrence of `o`, if there is one. -/
def since [DecidableEq α] (o : α) : List α → Option (List α)
  | [] => none
  | x :: xs => match since o xs with
    | some l => some l
    | none => if x = o then some xs else none

/-- The characters received since the beginning of the last reception. -/
def received (log : List Out) : List (Byte × Bool) :=
  ((since .rxBegin log).getD []).filterMap fun o => match o with
    | .rxChar c ok => some (c, ok)
    | _ => none

/-- The device, which is receiving, finds that the frame has ended: no further start bit came. -/
def FrameEnd (s : Sys) : Ev → Prop
  | .irq i => s.paused = false ∧ s.bus.st = .waitStart ∧ i.cap = false
  | _ => False

/-- What the line guarantees when `b` finds that a frame has ended: if it looks like a telegram (at
least 8 characters, no parity error, right check octet; only the first 23 characters count), then it
is the one that `a` sent last, to its end, and `b` began one reception since `a` began to send it. -/
def NoForgedFrame (log : List (Who × Out)) : Prop :=
  8 ≤ (received (of .b log)).length → (∀ c ∈ received (of .b log), c.2 = true) →
  ChecksumOk (((received (of .b log)).map Prod.fst).take 23) →
  ∃ l post, since (.a, .txBegin) log = some l ∧
    of .a l = txChars ((received (of .b log)).map Prod.fst) ++ .txEnd :: post ∧
    count .rxBegin (of .b l) = 1

/-- What the line guarantees when `a` receives a character: if it is an acknowledgement and the first
character after the end of a transmission, then `b` has sent one since then. -/
def NoForgedAck (log : List (Who × Out)) : Prop :=
  ∀ l, since (.a, .txEnd) log = some l → of .a l = [.rxBegin, .rxChar 0xcc#8 true] →
    (.b, .ackBegin) ∈ l

/-- The line in one step. -/
def LineStep (s : Net) (log : List (Who × Out)) (m : Who × Ev) : Prop :=
  (m.1 = .b → FrameEnd s.b m.2 → NoForgedFrame log) ∧
  (m.1 = .a → NoForgedAck (log ++ (netStep s m).2))

/-- The line in a whole run; `log` is the log so far. -/
def Line : Net → List (Who × Out) → List (Who × Ev) → Prop
  | _, _, [] => True
  | s, log, m :: ms => LineStep s log m ∧ Line (netStep s m).1 (log ++ (netStep s m).2) ms

/-- The telegrams handed to the application. -/
def delivered (log : List Out) : List (List Byte) :=
  log.filterMap fun o => match o with
    | .deliver f => some f
    | _ => none

/-- `a` with the history `ea` accepts a telegram for sending while `b` with the history `eb` is not
receiving or about to acknowledge anything; `ms` is all that happens until `a` accepts the next
telegram. -/
structure Transfer (ea eb : List Ev) (own : Word) (t : Buf) (len : Nat) (ms : List (Who × Ev)) :
    Prop where
  sends : Sending1 ea own t len (of .a ms)
  quiet : (run boot eb).1.bus.st = .idle ∨ (run boot eb).1.bus.st = .wait50
  line : Line ⟨(step (run boot ea).1 (.queue own t len)).1, (run boot eb).1⟩ [] ms

/-- The log of the two devices in such a transfer. -/
def transferLog (ea eb : List Ev) (own : Word) (t : Buf) (len : Nat) (ms : List (Who × Ev)) :
    List (Who × Out) :=
  (netRun ⟨(step (run boot ea).1 (.queue own t len)).1, (run boot eb).1⟩ ms).2

end Verif.Bus
