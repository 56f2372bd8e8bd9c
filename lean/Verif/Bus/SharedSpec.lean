import Verif.Bus.SharedModel
import Verif.Bus.Spec

/-!
# Specification vocabulary for the shared send buffer
-/

namespace Verif.Bus

open Verif.Knx

/-- The link layer as `Verif.Bus.Model` sees it. -/
def Shared.sys (s : Shared) : Sys := ⟨s.view, s.paused⟩

/-- A connection control telegram (connect, disconnect, acknowledge or negative acknowledge of the
transport layer): the most significant bit of its octet 6 is set. -/
def isControl (t : Buf) : Bool := (t 6).msb

/-- A reported failure in this interrupt makes the transport layer hand the telegram over again. -/
def again (s : Shared) (i : Irq) : Bool :=
  !s.paused && reported (isr i s.view).2 == some false && isControl s.buf && decide (s.rep < 3)

/-- The telegram the main program hands to the link layer in a step. -/
def given (s : Shared) : SEv → List Buf
  | .point => if s.pc = .point then [s.buf] else []
  | _ => []

/-- The telegram handed over again in a step. -/
def regiven (s : Shared) : SEv → List Buf
  | .irq i => if again s i then [prepareTelegram i.own s.buf (telegramSize s.buf)] else []
  | _ => []

/-- The telegrams the main program hands over in a run. -/
def givens : Shared → List SEv → List Buf
  | _, [] => []
  | s, e :: es => given s e ++ givens (stepS s e).1 es

/-- The telegrams handed over again in a run. -/
def regivens : Shared → List SEv → List Buf
  | _, [] => []
  | s, e :: es => regiven s e ++ regivens (stepS s e).1 es

/-- All telegrams handed over in a run, in order. -/
def handedOver : Shared → List SEv → List Buf
  | _, [] => []
  | s, e :: es => given s e ++ regiven s e ++ handedOver (stepS s e).1 es

/-- The telegrams accepted by the link layer in a run of `Verif.Bus.Model`. -/
def queued : Sys → List Ev → List Buf
  | _, [] => []
  | s, e :: es =>
    (match e with
     | .queue own t len => if s.bus.sendCur.isNone then [prepareTelegram own t len] else []
     | _ => []) ++ queued (step s e).1 es

/-- The event is an interrupt. -/
def SEv.isIrq : SEv → Bool
  | .irq _ => true
  | _ => false

/-- The event changes a retry limit. -/
def SEv.isSetter : SEv → Bool
  | .maxRetries _ | .maxBusyRetries _ => true
  | _ => false

/-- `r` is the telegram `t` again: the same destination, length, control octet and data; it may differ
in the repeat flag, the sender address (the device's own) and the check octet. -/
def SameTelegram (t r : Buf) : Prop :=
  r 0 ||| 0x20#8 = t 0 ||| 0x20#8 ∧ telegramSize r = telegramSize t ∧
  ∀ j, 3 ≤ j → j < telegramSize t → r j = t j

end Verif.Bus
