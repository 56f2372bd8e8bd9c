import Verif.Util.Text
import Verif.Gas.Model

/-!
# Printing of floats: sblib/src/print.cpp:68-88

Over any float arithmetic.  What is written is a list of bytes, as in `Verif.Util.Text`.
-/

namespace Verif.Text

/-- The loop `fraction *= 10.0f` (print.cpp:82-85). -/
def scale {α : Type} (A : Gas.Arith α) : Nat → α → α
  | 0, x => x
  | n + 1, x => scale A n (A.mul x (A.ofInt 10))

/-- The conversion to `int` and back to 32 bits (print.cpp:70 and 86).  `none`: the value has no `int`,
which is undefined in C++. -/
def toInt32 {α : Type} (A : Gas.Arith α) (x : α) : Option (BitVec 32) :=
  let n := A.toInt x
  if -2147483648 ≤ n ∧ n ≤ 2147483647 then some (BitVec.ofInt 32 n) else none

/-- `print(float value, int precision)`, print.cpp:68-88.  `abs` and `min` are the macros of
sblib/inc/sblib/math.h:52 and 62.  `none`: undefined in C++. -/
def printFloat {α : Type} (A : Gas.Arith α) (value : α) (precision : Int) : Option (List Byte) :=
  (toInt32 A value).bind fun number =>
  let d := A.sub value (A.ofInt number.toInt)
  let fraction := if A.lt (A.ofInt 0) d then d else A.neg d
  (printInt number 10 (-1)).bind fun whole =>
  if precision < 1 then some whole else
  let precision := if 7 < precision then 7 else precision
  (toInt32 A (scale A precision.toNat fraction)).bind fun digits =>
  (printInt digits 10 precision).map fun part => whole ++ 0x2E#8 :: part

/-- `println(float value, int precision)`, print.cpp:134-139 with `println()`, print.cpp:97-100. -/
def printlnFloat {α : Type} (A : Gas.Arith α) (value : α) (precision : Int) : Option (List Byte) :=
  (printFloat A value precision).map (· ++ [0x0D#8, 0x0A#8])

end Verif.Text
