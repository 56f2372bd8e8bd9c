import Verif.Base

/-!
# Model of number output and input: sblib/src/print.cpp, sblib/src/stream.cpp

Streams: what a stream will deliver before the next timeout is a list of bytes; at its end `timedPeek` and
`timedRead` return -1. What a `Print` writes is a list of bytes; the underlying `write(byte)` is taken to accept
every byte (it returns 1).
-/

namespace Verif.Text

/-- `PRINTBUF_SIZE`, print.cpp:17, with a 4-byte `int`. -/
def PRINTBUF_SIZE : Nat := 33

/-- Digit character, print.cpp:52. -/
def digitChar (ch : Nat) : Byte := BitVec.ofNat 8 ((if ch < 10 then 0x30 else 0x41 - 10) + ch)

/-- The `do … while` loop of `print(uintptr_t, …)`, print.cpp:48-56; `acc` is what lies from `pos` to the end of the
buffer. The first argument is fuel; `printUInt` supplies enough (`printLoop_fuel`). -/
def printLoop (b : Nat) : Nat → Nat → Int → List Byte → List Byte
  | 0, _, _, acc => acc
  | fuel + 1, value, digits, acc =>
    let acc := digitChar (value % b) :: acc
    let value := value / b
    let digits := digits - 1
    if digits > 0 ∨ value ≠ 0 then printLoop b fuel value digits acc else acc

/-- `print(uintptr_t value, Base base, int digits)`, print.cpp:40-59. `none`: the conversion buffer overflows
(undefined behaviour). -/
def printUInt (value : BitVec 32) (base : Nat) (digits : Int) : Option (List Byte) :=
  let b := if base < 2 then 2 else base
  let s := printLoop b (digits.toNat + 33) value.toNat digits []
  if s.length ≤ PRINTBUF_SIZE then some s else none

/-- `print(int value, Base base, int digits)`, print.cpp:20-31. Negating the most negative value is undefined in C++;
the model wraps. -/
def printInt (value : BitVec 32) (base : Nat) (digits : Int) : Option (List Byte) :=
  if value.slt 0#32 then (printUInt (-value) base (digits - 1)).map (0x2D#8 :: ·)
  else printUInt value base digits

/-- Is the character a decimal digit (`ch >= '0' && ch <= '9'`)? -/
def isDigit (ch : Byte) : Bool := 0x30#8 ≤ ch && ch ≤ 0x39#8

/-- `peekNextDigit`, stream.cpp:114-129: the rest of the stream after discarding. -/
def skipToDigit : List Byte → List Byte
  | [] => []
  | ch :: cs => if ch = 0x2D#8 ∨ isDigit ch = true then ch :: cs else skipToDigit cs

/-- The `while` loop of `parseInt`, stream.cpp:28-37. -/
def parseLoop (skipChar : Byte) : BitVec 32 → List Byte → BitVec 32 × List Byte
  | value, [] => (value, [])
  | value, ch :: cs =>
    if isDigit ch then parseLoop skipChar (value * 10#32 + ch.setWidth 32 - 0x30#32) cs
    else if ch ≠ skipChar then (value, ch :: cs)
    else parseLoop skipChar value cs

/-- `parseInt(skipChar)`, stream.cpp:16-41; returns the value and the unread rest. -/
def parseInt (skipChar : Byte) (s : List Byte) : BitVec 32 × List Byte :=
  match skipToDigit s with
  | [] => (0#32, [])
  | ch :: cs =>
    if ch = 0x2D#8 then
      -- `ch = '0'`: the first round of the loop adds the digit 0 and consumes the sign
      let r := parseLoop skipChar (0#32 * 10#32 + 0x30#32 - 0x30#32) cs
      (-r.1, r.2)
    else parseLoop skipChar 0#32 (ch :: cs)

/-- `_readBytesUntil`, stream.cpp:43-57, for a destination of `length` bytes; `terminator` `none` is -1.
Returns the bytes stored and the rest of the stream. -/
def readBytesUntil (terminator : Option Byte) : Nat → List Byte → List Byte × List Byte
  | 0, s => ([], s)
  | _ + 1, [] => ([], [])
  | n + 1, ch :: cs =>
    if some ch = terminator then ([], cs)
    else
      let r := readBytesUntil terminator n cs
      (ch :: r.1, r.2)

/-- `findUntil`, stream.cpp:59-86, for a non-empty target; `ti`, `ei` are `targetIdx` and `termIdx`.
Returns the result and the rest of the stream. -/
def findLoop (target term : List Byte) : Nat → Nat → List Byte → Bool × List Byte
  | _, _, [] => (false, [])
  | ti, ei, ch :: cs =>
    let ti' := if target[ti]? = some ch then ti + 1 else 0
    if target[ti]? = some ch ∧ ti + 1 ≥ target.length then (true, cs)
    else if term.length > 0 then
      if term[ei]? = some ch then
        if ei + 1 ≥ term.length then (false, cs) else findLoop target term ti' (ei + 1) cs
      else findLoop target term ti' 0 cs
    else findLoop target term ti' ei cs

@[inherit_doc findLoop] def findUntil (target term : List Byte) (s : List Byte) : Bool × List Byte :=
  findLoop target term 0 0 s

end Verif.Text
