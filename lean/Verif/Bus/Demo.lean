import Verif.Bus.Spec

/-!
# Concrete runs used to show that the theorems are not vacuous
-/

namespace Verif.Bus

open Verif.Knx

/-- A timeout in a device 1.1.1 with the group address 1/0/1. -/
def dTimeout : Irq :=
  { cap := false, tmo := true, capVal := 0, now := 0, spike := false, millis := 0#32
    own := 0x1101#16, known := fun a => a == 0x0801#16, tlEnabled := true, llEnabled := true }

/-- A falling edge at timer value `t`. -/
def dEdge (t : Nat) : Irq := { dTimeout with cap := true, tmo := false, capVal := t, now := t }

/-- The nine bits of a character: data, least significant bit first, and parity. -/
def dBits (b : Byte) (p : Bool) : List Bool := (List.range 8).map (b.getLsbD ·) ++ [p]

/-- The interrupts of one received character. -/
def dChar (b : Byte) (p : Bool) : List Ev :=
  .irq (dEdge 10) ::
    (((dBits b p).zipIdx.filter fun x => !x.1).map fun x => .irq (dEdge (104 * (x.2 + 1) + 3)))
    ++ [.irq dTimeout]

/-- The interrupts of a received frame. -/
def dFrame (f : List Byte) : List Ev :=
  f.flatMap (fun b => dChar b (parityBit b)) ++ [.irq dTimeout]

/-- A group telegram from 1.1.2 to 1/0/1. -/
def dTel : List Byte := [0xBC, 0x11, 0x02, 0x08, 0x01, 0xE1, 0x00, 0x81, 0x39]

/-- Its repetition. -/
def dTelRep : List Byte := [0x9C, 0x11, 0x02, 0x08, 0x01, 0xE1, 0x00, 0x81, 0x19]

example : ChecksumOk dTel ∧ ChecksumOk dTelRep ∧ repeated dTel = dTelRep := by decide

/-- After start-up: the initial wait is over. -/
def dReady : List Ev := [.irq dTimeout]

/-- `dTel` arrives after start-up and is acknowledged. -/
def dReceive : List Ev := dReady ++ dFrame dTel

example : (run boot dReceive).1.bus.telegramLen = 9 := by decide +kernel
example : Out.deliver dTel ∈ (run boot dReceive).2 := by decide +kernel

/-- A buffer from a list. -/
def ofList (l : List Byte) : Buf := fun j => l.getD j 0#8

end Verif.Bus
