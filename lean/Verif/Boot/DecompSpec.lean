import Verif.Boot.Spec

/-!
# Differential update streams

The meaning of a differential update stream, independent of the byte automaton that reads it, and its
wire format (`decompressor.h`, comment at the top of `decompressor.cpp`).
-/

namespace Verif.Boot.Decomp.Spec

/-- The commands of a stream. `long` selects the two-byte length format. -/
inductive Cmd where
  /-- new bytes -/
  | raw (long : Bool) (bytes : List Byte)
  /-- `n` bytes of the old application in flash, from offset `off` -/
  | copyFlash (long : Bool) (off n : Nat)
  /-- `n` bytes of the last two pages before they were overwritten, from offset `off` -/
  | copyOldPages (long : Bool) (off n : Nat)

/-- Command byte: bit 7 = copy, bit 6 = long format, low six bits = length (or its high part). -/
def header (copy long : Bool) (k : Nat) : Byte :=
  BitVec.ofNat 8 ((if copy then 128 else 0) + (if long then 64 else 0) + k)

def lengthBytes (copy long : Bool) (n : Nat) : List Byte :=
  if long then [header copy true (n / 256), BitVec.ofNat 8 n] else [header copy false n]

/-- Three address bytes, most significant first; bit 23 selects the old pages instead of the flash. -/
def addressBytes (oldPages : Bool) (off : Nat) : List Byte :=
  [BitVec.ofNat 8 ((if oldPages then 128 else 0) + off / 65536), BitVec.ofNat 8 (off / 256), BitVec.ofNat 8 off]

/-- Wire format of a command. -/
def encode : Cmd → List Byte
  | .raw long bytes => lengthBytes false long bytes.length ++ bytes
  | .copyFlash long off n => lengthBytes true long n ++ addressBytes false off
  | .copyOldPages long off n => lengthBytes true long n ++ addressBytes true off

def encodeAll (cs : List Cmd) : List Byte := cs.flatMap encode

/-- What a command contributes to the new page. `app i`: byte `i` of the old application; `old i`: byte `i`
of the saved pages. -/
def output (app old : Nat → Byte) : Cmd → List Byte
  | .raw _ bytes => bytes
  | .copyFlash _ off n => (List.range n).map (fun i => app (off + i))
  | .copyOldPages _ off n => (List.range n).map (fun i => old (off + i))

def outputAll (app old : Nat → Byte) (cs : List Cmd) : List Byte := cs.flatMap (output app old)

/-- Well-formed commands: the length fits the format, offsets fit 23 bits, copies stay inside the old
application area (`room` bytes) or the two saved pages, raw data is not empty. -/
def WF (room : Nat) : Cmd → Prop
  | .raw long bytes => 1 ≤ bytes.length ∧ bytes.length < (if long then 16384 else 64)
  | .copyFlash long off n => n < (if long then 16384 else 64) ∧ off < 2 ^ 23 ∧ off + n ≤ room
  | .copyOldPages long off n => n < (if long then 16384 else 64) ∧ off + n ≤ 512

end Verif.Boot.Decomp.Spec
