import Verif.Base

/-!
# Model of the DPT 9 conversions, sblib/src/eib/datapoint_types.cpp

`int` is 32 bit; all intermediate values of the modelled functions lie inside its range (the inputs
accepted by `floatToDpt9` are below 2^27 in magnitude, the results of `dpt9ToFloat` as well), so the
values are mathematical integers. `>>` of a negative `int` is an arithmetic shift (gcc), i.e. division
by two rounding down; `<<= 1` is doubling.
-/

namespace Verif.Dpt9

/-- Loop of the negative branch, datapoint_types.cpp:26-30: final value and number of halvings. -/
def scaleNeg (value : Int) (exp : Nat) : Int × Nat :=
  if _h : value < -2048 then scaleNeg (value / 2) (exp + 1) else (value, exp)
termination_by value.natAbs
decreasing_by omega

/-- Loop of the non-negative branch, datapoint_types.cpp:36-40. -/
def scalePos (value : Int) (exp : Nat) : Int × Nat :=
  if _h : value > 2047 then scalePos (value / 2) (exp + 1) else (value, exp)
termination_by value.natAbs
decreasing_by omega

/-- `floatToDpt9(value)`, datapoint_types.cpp:17-44. The result is converted to `unsigned short`. -/
def floatToDpt9 (value : Int) : Word :=
  if value < -67108864 ∨ value > 67076096 then 0x7fff#16
  else if value < 0 then
    let r := scaleNeg value 0
    0x8000#16 ||| (BitVec.ofInt 16 r.1 &&& 2047#16) ||| (BitVec.ofNat 16 r.2 <<< 11)
  else
    let r := scalePos value 0
    BitVec.ofInt 16 r.1 ||| (BitVec.ofNat 16 r.2 <<< 11)

/-- Loop `for (; exp; --exp) value <<= 1`, datapoint_types.cpp:58-59. -/
def double : Nat → Int → Int
  | 0, value => value
  | exp + 1, value => double exp (value * 2)

/-- `dpt9ToFloat(dptValue)`, datapoint_types.cpp:46-62. `-1L & ~2047` sets all bits from bit 11 on. -/
def dpt9ToFloat (dptValue : Word) : Int :=
  let exp := ((dptValue >>> 11) &&& 15#16).toNat
  if dptValue = 0x7fff#16 then 0x7fff
  else
    let value : Int :=
      if dptValue ≥ 0x8000#16 then (dptValue.setWidth 32 ||| 0xFFFFF800#32).toInt
      else (dptValue &&& 2047#16).toNat
    double exp value

end Verif.Dpt9
