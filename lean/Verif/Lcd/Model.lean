import Verif.Base

/-!
# The graphical display

Model of `sblib/src/lcd/graphical_eadogs.cpp` with the font class of `sblib/src/lcd/font.cpp`
and `Print::write` of `sblib/src/print.cpp`.  A byte handed to `spi.transfer` is shifted out
before `transfer` returns (C66), so the display sees the bytes in the order of the calls, each
with the level the pin `pinCD` has at that time; `Line` records them.  The pins, the clock
divider and the chip select of the constructor are not modelled.
-/

namespace Verif.Lcd

/-- `Font` (sblib/inc/sblib/lcd/font.h:18-50, sblib/src/lcd/font.cpp:13-19). -/
structure Font where
  firstChar : Int
  numChars : Int
  charWidth : Int
  data : List Byte

/-- The level of `pinCD` and the bytes sent so far, each with the level it was sent at. -/
structure Line where
  cd : Bool
  sent : List (Bool × Byte)

/-- `digitalWrite(pinCD, level)`, as used in sblib/src/lcd/graphical_eadogs.cpp:106-187. -/
def setCD (level : Bool) (l : Line) : Line := { l with cd := level }

/-- `spi.transfer(val)`, as used in graphical_eadogs.cpp:106-187: the low eight bits are shifted
out (the data size of the port is 8 bit, C66). -/
def transfer (val : Byte) (l : Line) : Line := { l with sent := l.sent ++ [(l.cd, val)] }

/-- Several transfers in a row. -/
def transfers (vals : List Byte) (l : Line) : Line := vals.foldl (fun l v => transfer v l) l

/-- `LcdGraphicalEADOGS::begin` (graphical_eadogs.cpp:106-137), with the block marked as test
code (lines 127-136). -/
def begin (l : Line) : Line :=
  let l := setCD false l
  let l := transfer 0xe2#8 l
  let l := transfer 0x40#8 l
  let l := transfer 0xa1#8 l
  let l := transfer 0xc0#8 l
  let l := transfer 0xa4#8 l
  let l := transfer 0xa6#8 l
  let l := transfer 0xa2#8 l
  let l := transfer (0x28#8 ||| 7#8) l
  let l := transfer (0x20#8 ||| 7#8) l
  let l := transfer 0x81#8 l
  let l := transfer 0x10#8 l
  let l := transfer 0xfa#8 l
  let l := transfer 0x90#8 l
  let l := transfer 0xaf#8 l
  let l := setCD false l
  let l := transfer (0x00#8 ||| 0#8) l
  let l := transfer (0x10#8 ||| 0#8) l
  let l := transfer (0xb0#8 ||| 0#8) l
  let l := setCD true l
  transfers ((List.range 255).map (BitVec.ofNat 8)) l

/-- `LcdGraphicalEADOGS::inverse` (graphical_eadogs.cpp:144-148). -/
def inverse (enable : Bool) (l : Line) : Line :=
  let l := setCD false l
  transfer (if enable then 0xa7#8 else 0xa6#8) l

/-- `LcdGraphicalEADOGS::pos` (graphical_eadogs.cpp:150-156).  On an `int`, `x & 15`,
`(x >> 4) & 15` and `y & 7` are the remainders here. -/
def pos (x y : Int) (l : Line) : Line :=
  let l := setCD false l
  let l := transfer (0x00#8 ||| BitVec.ofNat 8 (x % 16).toNat) l
  let l := transfer (0x10#8 ||| BitVec.ofNat 8 (x / 16 % 16).toNat) l
  transfer (0xb0#8 ||| BitVec.ofNat 8 (y % 8).toNat) l

/-- The loop of `LcdGraphicalEADOGS::write` (graphical_eadogs.cpp:167-168) for `i` more columns
from index `idx`; `none` is an access outside the font data. -/
def columns (f : Font) : Nat → Nat → Line → Option Line
  | 0, _, l => some l
  | i + 1, idx, l =>
    match f.data[idx]? with
    | some v => columns f i (idx + 1) (transfer v l)
    | none => none

/-- `LcdGraphicalEADOGS::write` (graphical_eadogs.cpp:158-171). -/
def write (f : Font) (ch : Byte) (l : Line) : Option (Line × Nat) :=
  let idx : Int := (ch.toNat : Int) - f.firstChar
  if idx < 0 ∨ f.numChars ≤ idx then some (l, 0)
  else
    let idx := idx * f.charWidth
    let l := setCD true l
    match columns f f.charWidth.toNat idx.toNat l with
    | some l => some (l, 1)
    | none => none

/-- `Print::write` of several bytes (sblib/src/print.cpp:102-111), which `print` of a string
comes down to (print.cpp:113-118, sblib/inc/sblib/print.h:283-286). -/
def print (f : Font) : List Byte → Line → Option (Line × Nat)
  | [], l => some (l, 0)
  | ch :: t, l =>
    match write f ch l with
    | some (l, n) =>
      match print f t l with
      | some (l, m) => some (l, n + m)
      | none => none
    | none => none

/-- `LcdGraphicalEADOGS::clear` (graphical_eadogs.cpp:173-187). -/
def clear (l : Line) : Line :=
  let l := (List.range 8).foldl (fun l (y : Nat) =>
    let l := pos 0 y l
    let l := setCD true l
    transfers (List.replicate 102 0#8) l) l
  pos 0 0 l

end Verif.Lcd
