import Verif.Dev.Loop

/-!
# Vocabulary for the claims about the main loop

A restart is requested by A_Restart (0x380) or by A_Restart with master reset (0x381) and one of the
erase codes 1 … 7; erase code 7 with channel 255 asks for the bootloader.
-/

namespace Verif.Dev

open Verif.Knx

/-- The restart a telegram asks for, if it does. -/
def restartWanted (t : Buf) : Option RestartType :=
  if apciCommand t = 0x380#16 then some .basic
  else if apciCommand t = 0x381#16 then
    if t 8 = 7#8 ∧ t 9 = 255#8 then some .masterIntoBootloader
    else if 1 ≤ (t 8).toNat ∧ (t 8).toNat ≤ 7 then some .master else none
  else none

/-- The restart requested by a telegram whose service was executed, connection-oriented or not. -/
def requestIn : MainOut → Option RestartType
  | .bus (.apciConnected t _) => restartWanted t
  | .bus (.apciIndividual t _) => restartWanted t
  | _ => none

/-- The request among the observations of an event. -/
def request (o : List MainOut) : Option RestartType := o.findSome? requestIn

section
variable (W : World) (group : Dev → Buf → Nat → Dev × Option (Buf → Buf))

/-- The device at the moment a loop looks whether a restart is due. -/
def atPoll (m : Main) (i : In) : Main := (loopHead W group i m).1

/-- At this moment nothing is being sent. -/
def Free (m : Main) (i : In) : Prop :=
  (atPoll W group m i).tl.tx ≠ .sending ∧ i.ack2 = false ∧ m.tl.enabled = true ∧ m.off = none

/-- Some loop among these events found nothing being sent. -/
def SomeFree : Main → List MainEv → Prop
  | _, [] => False
  | m, e :: es => (∃ i, e = .loop i ∧ Free W group m i) ∨ SomeFree (mainStep W group m e).1 es

end

/-- A T_DISCONNECT telegram to `a` handed to the bus. -/
def SendsDisconnect (o : List MainOut) (a : Word) : Prop :=
  ∃ f : List Byte, .bus (.sentControl f) ∈ o ∧ f.getD 6 0 = 0x81#8 ∧
    makeWord (f.getD 3 0) (f.getD 4 0) = a ∧ (f.getD 5 0) &&& 0x80#8 = 0#8

/-- The processor is reset. -/
def Resets (o : List MainOut) (boot : Bool) : Prop := .reset boot ∈ o

end Verif.Dev
