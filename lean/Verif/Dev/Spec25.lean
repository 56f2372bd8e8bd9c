import Verif.Dev.Spec23
import Verif.Dev.Spec24
import Verif.Dev.Spec

/-!
# Specification: what can make an interface object "loaded"
-/

namespace Verif.Dev

open Verif.Knx

/-- A request that can give the object the load state "loaded". -/
inductive MakesLoaded (W : World) (t : Buf) (telLen : Nat) (obj : Nat) : Prop
  /-- the event "load completed" for this object -/
  | completed (rec : Nat → Byte) (n : Int) (h : LoadRequest W t telLen obj rec n)
      (hn : n = 10 ∨ n = 11) (he : (rec 0).toNat % 8 = 2)
  /-- a memory write over the very byte that holds the load state -/
  | memory (a : Word) (data : List Byte) (h : MemWriteRequest t a data)
      (h1 : a.toNat ≤ W.kind.eeStart + 0x370 + obj)
      (h2 : W.kind.eeStart + 0x370 + obj < a.toNat + data.length)
  /-- System B only: a relative allocation that fills memory -/
  | fill (obj' : Nat) (rec : Nat → Byte) (n : Int) (h : LoadRequest W t telLen obj' rec n)
      (hf : Fills W rec n)

/-- An address table that lies over the byte that holds the load state, while it is being loaded: then
an individual address write stores the address there. -/
def TableOverState (W : World) (d : Dev) (obj : Nat) : Prop :=
  TableLoading W d ∧
  (wordAt d.ee (addrTabAddrOff W.kind)).toNat + 1 ≤ W.kind.eeStart + 0x370 + obj ∧
  W.kind.eeStart + 0x370 + obj ≤ (wordAt d.ee (addrTabAddrOff W.kind)).toNat + 2

end Verif.Dev
