import Verif.I2c.Model

/-!
# I2C transactions (specification)

What the I2C specification allows a master to do on the bus for one transaction: write `tx`, then read `n` bytes. The
relations give the events on the bus, how the transaction ended, how many bytes of `tx` have been put on the bus, and
the bytes read. They do not mention the driver.
-/

namespace Verif.I2c

inductive Outcome
  | done | nak | lost | error
  deriving DecidableEq

/-- The address byte: 7 bits of address, then 0 (write) or 1 (read). -/
def addrByte (a : Byte) (read : Bool) : Byte := BitVec.ofNat 8 (2 * (a.toNat % 128) + if read then 1 else 0)

/-- Reading `n ≥ 1` bytes, after the address: every byte but the last is acknowledged, then STOP. -/
inductive Reading : Nat → List BusEv → Outcome → List Byte → Prop
  | last (b) : Reading 1 [.inp b false, .stop] .done [b]
  | more (b) {n ev o rx} : Reading (n + 1) ev o rx → Reading (n + 2) (.inp b true :: ev) o (b :: rx)
  | lost (n) : Reading (n + 1) [.lost] .lost []
  | error (n) : Reading (n + 1) [.error] .error []

/-- Address for reading, then the bytes. -/
inductive ReadPart (a : Byte) (n : Nat) : List BusEv → Outcome → List Byte → Prop
  | ack {ev o rx} : Reading n ev o rx → ReadPart a n (.out (addrByte a true) true :: ev) o rx
  | nak : ReadPart a n [.out (addrByte a true) false, .stop] .nak []
  | lost : ReadPart a n [.lost] .lost []
  | error : ReadPart a n [.error] .error []

/-- Writing, after the address: the bytes in order until one is not acknowledged; then STOP, or a repeated START and
the reading. -/
inductive Writing (a : Byte) (n : Nat) : List Byte → List BusEv → Outcome → Nat → List Byte → Prop
  | stop : n = 0 → Writing a n [] [.stop] .done 0 []
  | read {ev o rx} : n ≠ 0 → ReadPart a n ev o rx → Writing a n [] (.restart :: ev) o 0 rx
  | ack (b) {bs ev o k rx} : Writing a n bs ev o k rx → Writing a n (b :: bs) (.out b true :: ev) o (k + 1) rx
  | nak (b bs) : Writing a n (b :: bs) [.out b false, .stop] .nak 1 []
  | lost (b bs) : Writing a n (b :: bs) [.lost] .lost 1 []
  | error (b bs) : Writing a n (b :: bs) [.error] .error 1 []

/-- One transaction. Without bytes to write it is a reading. -/
inductive Transaction (a : Byte) (tx : List Byte) (n : Nat) : List BusEv → Outcome → Nat → List Byte → Prop
  | write {ev o k rx} : tx ≠ [] → Writing a n tx ev o k rx →
      Transaction a tx n (.start :: .out (addrByte a false) true :: ev) o k rx
  | nak : tx ≠ [] → Transaction a tx n [.start, .out (addrByte a false) false, .stop] .nak 0 []
  | lost : tx ≠ [] → Transaction a tx n [.start, .lost] .lost 0 []
  | error : tx ≠ [] → Transaction a tx n [.start, .error] .error 0 []
  | read {ev o rx} : tx = [] → ReadPart a n ev o rx → Transaction a tx n (.start :: ev) o 0 rx

/-- The slaves' part of the events `ev`, which come after `t`: acknowledges and data are as the slaves give them, and
faults come where they come. -/
def FromSlaves (E : Env) : List BusEv → List BusEv → Prop
  | _, [] => True
  | t, e :: ev => (match e with
      | .out _ k => E.fault t = none ∧ k = E.ack t
      | .inp b _ => E.fault t = none ∧ b = E.data t
      | .lost => E.fault t = some .lost
      | .error => E.fault t = some .error
      | _ => True) ∧ FromSlaves E (t ++ [e]) ev

/-- The controller is ready for a transaction. -/
def Idle (h : Hw) : Prop := (h.stat = 0xf8 ∨ h.stat = 0x38) ∧ h.sto = false

/-- A call returns `r`: with any sufficient number of steps. -/
def Returns {α : Type} (f : Nat → Option α) (r : α) : Prop := ∃ n, ∀ m, n ≤ m → f m = some r

/-- No arbitration is lost and no bus error occurs. -/
def Quiet (E : Env) : Prop := ∀ t, E.fault t = none

/-- No arbitration is lost (there is only one master). -/
def SingleMaster (E : Env) : Prop := ∀ t, E.fault t ≠ some .lost

end Verif.I2c
