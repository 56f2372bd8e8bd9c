import Verif.Base

/-!
# The KNX 2-byte float (DPT 9): sign, 4-bit exponent, 11-bit mantissa

Independent of the code: the value of a code is `M * 2^E` (in hundredths), where `M` is the two's
complement 12-bit number formed by the sign bit and the mantissa bits.
-/

namespace Verif.Dpt9.Spec

/-- The bits of a code: sign bit 15, exponent bits 14..11, mantissa bits 10..0. -/
def sign (w : Word) : Nat := w.toNat / 2 ^ 15
def exponent (w : Word) : Nat := w.toNat / 2 ^ 11 % 16
def mantissa (w : Word) : Nat := w.toNat % 2 ^ 11

/-- The number a code denotes, in hundredths. -/
def denotes (w : Word) : Int := ((mantissa w : Int) - sign w * 2048) * 2 ^ exponent w

/-- The code reserved for "invalid data". -/
def invalid : Word := 0x7fff#16

end Verif.Dpt9.Spec
