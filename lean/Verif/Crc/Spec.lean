import Verif.Base

/-!
# Specification: cyclic redundancy checks as bit-serial shift registers

This is the textbook definition of a CRC: the message is fed *bit by bit* into a linear feedback
shift register. Nothing here refers to the implementations.

* reflected ("LSB first") CRCs shift right and feed the bits of a byte from bit 0 to bit 7;
* plain ("MSB first") CRCs shift left and feed the bits of a byte from bit 7 to bit 0.
-/

namespace Verif.Crc.Spec

/-- The eight bits of a byte, least significant first. -/
def bitsLsb (b : Byte) : List Bool := (List.range 8).map (fun i => b.getLsbD i)

/-- The eight bits of a byte, most significant first. -/
def bitsMsb (b : Byte) : List Bool := (List.range 8).map (fun i => b.getLsbD (7 - i))

/-- One clock of a right-shifting register with feedback polynomial `g`:
the outgoing bit xor the message bit decides whether `g` is added. -/
def clockR {w : Nat} (g s : BitVec w) (bit : Bool) : BitVec w :=
  if s.getLsbD 0 ^^ bit then (s >>> 1) ^^^ g else s >>> 1

/-- One clock of a left-shifting register with feedback polynomial `g`. -/
def clockL {w : Nat} (g s : BitVec w) (bit : Bool) : BitVec w :=
  if s.getMsbD 0 ^^ bit then (s <<< 1) ^^^ g else s <<< 1

/-- Reflected CRC register after a bit string. -/
def runR {w : Nat} (g init : BitVec w) (bits : List Bool) : BitVec w := bits.foldl (clockR g) init

/-- Plain CRC register after a bit string. -/
def runL {w : Nat} (g init : BitVec w) (bits : List Bool) : BitVec w := bits.foldl (clockL g) init

/-- Reflected CRC register of a byte string. -/
def crcR {w : Nat} (g init : BitVec w) (msg : List Byte) : BitVec w :=
  runR g init (msg.flatMap bitsLsb)

/-- Plain CRC register of a byte string. -/
def crcL {w : Nat} (g init : BitVec w) (msg : List Byte) : BitVec w :=
  runL g init (msg.flatMap bitsMsb)

/-- Two messages of equal length that differ only inside a window of at most `k` consecutive
bytes: common prefix, differing windows of the same length `≤ k`, common suffix. -/
def DifferInWindow (k : Nat) (a b : List Byte) : Prop :=
  ∃ pre wa wb post, a = pre ++ wa ++ post ∧ b = pre ++ wb ++ post ∧
    wa.length = wb.length ∧ wa.length ≤ k ∧ wa ≠ wb

end Verif.Crc.Spec
