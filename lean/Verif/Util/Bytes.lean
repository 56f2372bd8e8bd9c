import Verif.Base

/-!
# Model of the byte helpers: utils.cpp, bits.h, digital_pin_shift.cpp
-/

namespace Verif.Bytes

/-! ## sblib/src/utils.cpp -/

/-- Memory write. -/
def poke (m : Nat → Byte) (a : Nat) (b : Byte) : Nat → Byte := fun i => if i = a then b else m i

/-- The `while` loop of `reverseCopy`, utils.cpp:24-28; `src` is the address one above the byte to be
read next (the C pointer may legally end one below the block, which is not an address in the model). -/
def reverseCopyLoop : Nat → (Nat → Byte) → Nat → Nat → (Nat → Byte)
  | 0, m, _, _ => m
  | len + 1, m, dest, src => reverseCopyLoop len (poke m dest (m (src - 1))) (dest + 1) (src - 1)

/-- `reverseCopy(dest, src, len)`, utils.cpp:21-29, on a memory. A non-positive length copies nothing. -/
def reverseCopy (m : Nat → Byte) (dest src : Nat) (len : Int) : Nat → Byte :=
  reverseCopyLoop len.toNat m dest (src + len.toNat)

/-- `memcpy(&x, bytes, n)` into a little-endian 64-bit variable that held `x`. -/
def load64 (x : BitVec 64) (bs : List Byte) : Nat :=
  bs.foldr (fun b acc => b.toNat + 256 * acc) (x.toNat / 256 ^ bs.length)

/-- `BigPrime48`, utils.cpp:76. -/
def bigPrime48 : Nat := 281474976710597

/-- The loop of `hashUID`, utils.cpp:94-95. -/
def hashBytes (a len : Nat) : List Byte := (List.range len).map (fun i => BitVec.ofNat 8 (a / 256 ^ i))

/-- `hashUID`, utils.cpp:73-97. `uid` is the list of the `len_uid` bytes; `a0`, `b0` are the indeterminate
initial values of the local variables `a` and `b`. `none`: returned 0, `hash` untouched. -/
def hashUID (a0 b0 : BitVec 64) (uid : List Byte) (lenHash : Int) : Option (List Byte) :=
  if uid.length = 0 ∨ uid.length > 16 then none
  else if lenHash ≤ 0 ∨ lenHash > uid.length then none
  else
    let mid := uid.length / 2
    let a := load64 a0 (uid.take mid)
    let b := load64 b0 (uid.drop mid)
    some (hashBytes ((a % bigPrime48) ^^^ (b % bigPrime48)) lenHash.toNat)

/-! ## sblib/inc/sblib/bits.h -/

/-- `makeWord(high, low)`, bits.h:50-53. The operands are promoted to `int`. -/
def makeWord (high low : Byte) : Word :=
  ((high.setWidth 32 <<< 8) ||| low.setWidth 32 : BitVec 32).setWidth 16

/-- `lowByte(val)` for a 16-bit value, bits.h:25. -/
def lowByte (val : Word) : Word := val &&& 255#16

/-- `highByte(val)` for a 16-bit value, bits.h:34 (`(sizeof(val) - 1) << 3` is 8). -/
def highByte (val : Word) : Word := (val >>> 8) &&& 255#16

/-! ## sblib/src/digital_pin_shift.cpp -/

/-- `enum BitOrder`. -/
inductive BitOrder where
  | lsbFirst | msbFirst
  deriving DecidableEq, Repr

/-- What happens on the pins, in order. -/
inductive PinEvent where
  | data (level : Bool)
  | clock (level : Bool)
  deriving DecidableEq, Repr

/-- Loop body of `shiftOut`, digital_pin_shift.cpp:35-42. -/
def shiftOutBit (order : BitOrder) (value : Byte) (i : Nat) : List PinEvent :=
  let mask : BitVec 32 := match order with
    | .lsbFirst => 1#32 <<< i
    | .msbFirst => 1#32 <<< (7 - i)
  [.data (value.setWidth 32 &&& mask ≠ 0#32), .clock true, .clock false]

/-- `shiftOut(dataPin, clockPin, bitOrder, val)`, digital_pin_shift.cpp:30-44. -/
def shiftOut (order : BitOrder) (value : Byte) : List PinEvent :=
  (List.range 8).flatMap (shiftOutBit order value)

/-- Loop body of `shiftIn`, digital_pin_shift.cpp:17-26: `level` is what `digitalRead` returns after the
rising clock edge. -/
def shiftInBit (order : BitOrder) (value : BitVec 32) (i : Nat) (level : Bool) : BitVec 32 :=
  let bit : BitVec 32 := if level then 1#32 else 0#32
  match order with
    | .lsbFirst => value ||| (bit <<< i)
    | .msbFirst => value ||| (bit <<< (7 - i))

/-- `shiftIn(dataPin, clockPin, bitOrder)`, digital_pin_shift.cpp:12-28: `levels k` is the level of the data
pin after the `k`-th rising clock edge. -/
def shiftIn (order : BitOrder) (levels : Nat → Bool) : Byte :=
  ((List.range 8).foldl (fun v i => shiftInBit order v i (levels i)) 0#32).setWidth 8

end Verif.Bytes
