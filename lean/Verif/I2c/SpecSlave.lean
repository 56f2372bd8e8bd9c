import Verif.I2c.Slave

/-! # What a user of the I2C slave functions relies on (no driver code) -/

namespace Verif.I2c.Slave

open Verif

/-- The calls of `Chip_I2C_SlaveSetup` of a program: slave number, transfer, address mask. -/
abbrev Config := List (Nat × Xfer × Byte)

/-- The device after these calls. -/
def started (c : Config) : St := c.foldl (fun s e => setup s e.1 e.2.1 e.2.2) St.init

/-- The last transfer and mask given for a slave number. -/
def given (c : Config) (k : Nat) : Option (Xfer × Byte) := (c.reverse.find? (fun e => e.1 == k)).map (·.2)

/-- Slave numbers exist, addresses are not 0, and who asks for general calls (bit 0 of an address) also sets up the slave
for general calls. -/
structure Valid (c : Config) : Prop where
  number : ∀ e ∈ c, e.1 ≤ 4
  address : ∀ e ∈ c, e.1 ≠ 0 → e.2.1.addr ≠ 0#8
  general : ∀ e ∈ c, e.1 ≠ 0 → e.2.1.addr.getLsbD 0 = true → ∃ x, given c 0 = some x

/-- The seven address bits agree where the mask does not exclude them. -/
def SameAddress (addr mask a : Byte) : Prop :=
  ∀ i, 1 ≤ i → i < 8 → mask.getLsbD i = true ∨ addr.getLsbD i = a.getLsbD i

/-- Slave `k` (1 to 4) has the address of the address byte `a`. -/
def HasAddress (c : Config) (k : Nat) (a : Byte) : Prop :=
  1 ≤ k ∧ k ≤ 4 ∧ ∃ x m, given c k = some (x, m) ∧ SameAddress x.addr m a

/-- Slave `k` has to serve the address byte `a`: number 0 for the general call, otherwise the first with the address. -/
def Serves (c : Config) (k : Nat) (a : Byte) : Prop :=
  (k = 0 ∧ a = 0#8 ∧ ∃ j x m, 1 ≤ j ∧ j ≤ 4 ∧ given c j = some (x, m) ∧ x.addr.getLsbD 0 = true)
  ∨ (a >>> 1 ≠ 0#8 ∧ HasAddress c k a ∧ ∀ j, HasAddress c j a → k ≤ j)

/-- The bytes acknowledged after calls that slave `k` has to serve; `on`: the last call was one of these. -/
inductive Took (c : Config) (k : Nat) : Bool → List Seen → List Byte → Prop
  | nil (on) : Took c k on [] []
  | mine {on a l r} : Serves c k a → Took c k true l r → Took c k on (.call a true :: l) r
  | other {on a l r} : ¬ Serves c k a → Took c k false l r → Took c k on (.call a true :: l) r
  | refused {on a l r} : Took c k false l r → Took c k on (.call a false :: l) r
  | stop {on l r} : Took c k false l r → Took c k on (.stop :: l) r
  | byte {b l r} : Took c k true l r → Took c k true (.write b true :: l) (b :: r)
  | foreign {b l r} : Took c k false l r → Took c k false (.write b true :: l) r
  | nak {on b l r} : Took c k on l r → Took c k on (.write b false :: l) r
  | read {on b ack l r} : Took c k on l r → Took c k on (.read b ack :: l) r

/-- A master's transfer that writes these bytes. -/
def writing (a : Byte) (bs : List Byte) : List BusOp := .call a :: bs.map .write

/-- A master's transfer that reads `m + 1` bytes: all but the last are acknowledged. -/
def reading (a : Byte) (m : Nat) : List BusOp := .call a :: (List.replicate m (.read true) ++ [.read false])

/-- A transfer of a master: it writes, or it reads `m + 1` bytes. -/
inductive Transfer
  | wr (a : Byte) (bs : List Byte)
  | rd (a : Byte) (m : Nat)

/-- What the master does for it; a STOP ends it. -/
def Transfer.ops : Transfer → List BusOp
  | .wr a bs => writing a bs ++ [.stop]
  | .rd a m => reading a m ++ [.stop]

/-- The transfer reads from slave `k`. -/
def ReadsFrom (c : Config) (k : Nat) : Transfer → Prop
  | .wr _ _ => False
  | .rd a _ => Serves c k a ∧ a.getLsbD 0 = true

/-- `Handed c k n p ts q`: of the `n` bytes slave `k` has to send `p` are sent, and after the transfers `ts` it is `q`; no
reading begins when all are sent. -/
inductive Handed (c : Config) (k n : Nat) : Nat → List Transfer → Nat → Prop
  | nil (p) : Handed c k n p [] p
  | other {p t ts q} : ¬ ReadsFrom c k t → Handed c k n p ts q → Handed c k n p (t :: ts) q
  | mine {p a m ts q} : ReadsFrom c k (.rd a m) → p < n → Handed c k n (p + min (m + 1) (n - p)) ts q →
      Handed c k n p (.rd a m :: ts) q

/-- A master calls a slave for reading only to read from it: every address byte with bit 0 set is one of a `rd`. -/
def Transfer.Proper : Transfer → Prop
  | .wr a _ => a.getLsbD 0 = false
  | .rd a _ => a.getLsbD 0 = true

end Verif.I2c.Slave
