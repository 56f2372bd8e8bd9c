import Verif.Dev.Frame

/-!
# The device: transport layer and management services together

`BcuBase` inherits from `TLayer4`: the individual address is one variable, used by the transport
layer and set by the management services.
-/

namespace Verif.Dev

open Verif.Knx

/-- What happens to a device. -/
inductive Event
  /-- anything that concerns the transport layer: telegrams, loop, end of transmission, time -/
  | tl (op : TL4.Op)
  /-- the programming button is pressed, bcu_base.cpp:67-75 -/
  | button
  /-- `setProgrammingMode`, bcu_base.cpp:115-129 (with a programming pin) -/
  | setProgMode (on : Bool)

/-- `status ^= BCU_STATUS_PARITY | BCU_STATUS_PROGRAMMING_MODE`, bcu_base.cpp:74 and :124
(userRam.h:20 and :27). -/
def toggleProg (d : Dev) : Dev := { d with status := d.status ^^^ 0x81#8 }

/-- One step.  `setOwnAddress` called inside a service is a change of the transport layer's
`_ownAddress` (knx_tlayer4.h:335-338). -/
def sysStep (W : World) (group : Dev → Buf → Nat → Dev × Option (Buf → Buf)) (s : TL4.State Dev) :
    Event → TL4.State Dev × List TL4.Out
  | .tl op =>
    let r := TL4.step (app W group) s op
    match op with
    | .setOwnAddress a => ({ r.1 with app := setOwnAddress W r.1.app a }, r.2)
    | _ => ({ r.1 with ownAddr := r.1.app.ownAddr }, r.2)
  | .button => ({ s with app := toggleProg s.app }, [])
  | .setProgMode on =>
    ({ s with app := if on ≠ programmingMode s.app then toggleProg s.app else s.app }, [])

/-- A history. -/
def sysRun (W : World) (group : Dev → Buf → Nat → Dev × Option (Buf → Buf)) :
    TL4.State Dev → List Event → TL4.State Dev × List TL4.Out
  | s, [] => (s, [])
  | s, e :: es =>
    let r := sysStep W group s e
    let r' := sysRun W group r.1 es
    (r'.1, r.2 ++ r'.2)

end Verif.Dev
