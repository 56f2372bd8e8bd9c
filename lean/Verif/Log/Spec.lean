import Verif.Base

/-!
# What a formatted line of text is (C122)

A small specification of the formats of `printf`, written from the C standard (C11 7.21.6.1) and from what a caller
writes down, without looking at how the logger works: a format is a sequence of literal characters and conversions;
every conversion has flags, a width, a precision, a length modifier and a conversion letter.
-/

namespace Verif.Log

/-- An argument after the format: a 32-bit integer (or a pointer given as a number), a text (or the null pointer),
or the place in which a count is to be stored. -/
inductive Arg where
  | int (v : U32)
  | str (s : Option (List Byte))
  | place
  deriving Repr, DecidableEq

/-- The flag characters. -/
inductive Flag where
  | minus | plus | space | hash | zero
  deriving Repr, DecidableEq

/-- A width or a precision: written in the format, or `*`. -/
inductive Amount where
  | num (n : Nat)
  | arg
  deriving Repr, DecidableEq

/-- The length modifiers `h` and `l`. -/
inductive Len where
  | none | h | l
  deriving Repr, DecidableEq

/-- The conversion letters. -/
inductive Conv where
  | d | i | u | x | X | o | c | s
  deriving Repr, DecidableEq

/-- A conversion. The flags may come in any order and more than once. -/
structure Directive where
  flags : List Flag := []
  width : Option Amount := Option.none
  precision : Option Amount := Option.none
  len : Len := .none
  conv : Conv
  deriving Repr, DecidableEq

/-- A piece of a format. -/
inductive Item where
  | char (c : Byte)
  | percent
  | dir (d : Directive)
  deriving Repr, DecidableEq

/-- The character of a digit, with small or with capital letters. -/
def digitOf (capital : Bool) (k : Nat) : Byte :=
  BitVec.ofNat 8 (if k < 10 then 0x30 + k else if capital then 0x41 + (k - 10) else 0x61 + (k - 10))

/-- The numeral of a number. -/
def numeral (capital : Bool) (b n : Nat) : List Byte :=
  if h : b < 2 ∨ n < b then [digitOf capital n]
  else numeral capital b (n / b) ++ [digitOf capital (n % b)]
termination_by n
decreasing_by exact Nat.div_lt_self (by omega) (by omega)

/-! ## How a format is written -/

def Flag.text : Flag → Byte
  | .minus => 0x2D#8 | .plus => 0x2B#8 | .space => 0x20#8 | .hash => 0x23#8 | .zero => 0x30#8

def Amount.text : Amount → List Byte
  | .num n => numeral false 10 n
  | .arg => [0x2A#8]

def Len.text : Len → List Byte
  | .none => [] | .h => [0x68#8] | .l => [0x6C#8]

def Conv.text : Conv → Byte
  | .d => 0x64#8 | .i => 0x69#8 | .u => 0x75#8 | .x => 0x78#8 | .X => 0x58#8 | .o => 0x6F#8 | .c => 0x63#8
  | .s => 0x73#8

/-- The width part of a conversion. -/
def widthText : Option Amount → List Byte
  | some a => a.text
  | none => []

/-- The precision part of a conversion. -/
def precText : Option Amount → List Byte
  | some a => 0x2E#8 :: a.text
  | none => []

def Directive.text (d : Directive) : List Byte :=
  [0x25#8] ++ d.flags.map Flag.text ++ widthText d.width ++ precText d.precision ++ d.len.text ++ [d.conv.text]

def Item.text : Item → List Byte
  | .char c => [c]
  | .percent => [0x25#8, 0x25#8]
  | .dir d => d.text

/-- Formats of which the text says what is meant: a literal character is not a per cent sign (and not the end of the
text); a width written down does not begin with a zero (that would be the flag). -/
def Item.Written : Item → Prop
  | .char c => c ≠ 0x25#8
  | .percent => True
  | .dir d => ∀ n, d.width = some (.num n) → 0 < n

/-! ## What it means -/

/-- Take the width or precision; `*` takes the next argument. -/
def Amount.take : Amount → List Arg → Option (Int × List Arg)
  | .num n, args => some (n, args)
  | .arg, .int v :: args => some (v.toInt, args)
  | .arg, _ => none

/-- `n` times the same character. -/
def fill (n : Int) (c : Byte) : List Byte := List.replicate n.toNat c

/-- Put `pre ++ body` into a field at least `w` wide: blanks on the left, blanks on the right (`left`), or zeros
between the prefix and the body (`zero`). -/
def field (left zero : Bool) (w : Int) (pre body : List Byte) : List Byte :=
  let gap := w - pre.length - body.length
  if left then pre ++ body ++ fill gap 0x20#8
  else if zero then pre ++ fill gap 0x30#8 ++ body
  else fill gap 0x20#8 ++ pre ++ body

/-- The number base of a conversion. -/
def Conv.base : Conv → Nat
  | .x | .X => 16
  | .o => 8
  | _ => 10

/-- Is it a conversion of signed numbers? -/
def Conv.signed : Conv → Bool
  | .d | .i => true
  | _ => false

/-- The number an integer argument stands for, by sign and length modifier. -/
def valueOf (conv : Conv) (len : Len) (v : U32) : Int :=
  match conv.signed, len with
  | true, .h => (v.setWidth 16).toInt
  | false, .h => (v.setWidth 16).toNat
  | true, _ => v.toInt
  | false, _ => v.toNat

/-- The digits of a number with at least `p` of them (`none`: no precision given). A precision of zero shows the
number zero as no digit at all. -/
def digits (capital : Bool) (b : Nat) (p : Option Int) (n : Nat) : List Byte :=
  if p = some 0 ∧ n = 0 then []
  else
    let ds := numeral capital b n
    fill (p.getD 1 - ds.length) 0x30#8 ++ ds

/-- The prefix of the alternate form (`#`) of a number `v` with the digits `ds`: `0x` or `0X` unless the number is zero;
a zero before an octal number unless it begins with one. -/
def altPrefix (conv : Conv) (v : Int) (ds : List Byte) : List Byte :=
  match conv with
  | .x => if v = 0 then [] else [0x30#8, 0x78#8]
  | .X => if v = 0 then [] else [0x30#8, 0x58#8]
  | .o => if ds.head? = some 0x30#8 then [] else [0x30#8]
  | _ => []

/-- A number in its field, as the C standard has it. `w` the width (0: none), `p` the precision. -/
def showInt (conv : Conv) (flags : List Flag) (left : Bool) (w : Int) (p : Option Int) (v : Int) : List Byte :=
  let sgn := if conv.signed then
      if v < 0 then [0x2D#8] else if .plus ∈ flags then [0x2B#8] else if .space ∈ flags then [0x20#8] else []
    else []
  let ds := digits (conv = .X) conv.base p v.natAbs
  let alt := if .hash ∈ flags then altPrefix conv v ds else []
  field left (.zero ∈ flags ∧ p = none) w (sgn ++ alt) ds

/-- A width or precision that may be missing; then it is `dflt`. -/
def takeAmount (a : Option Amount) (dflt : Int) (args : List Arg) : Option (Int × List Arg) :=
  match a with
  | some a => a.take args
  | none => some (dflt, args)

/-- The width (0: none) and the precision (negative: none) of a conversion, and the arguments left. -/
def Directive.amounts (d : Directive) (args : List Arg) : Option (Int × Int × List Arg) :=
  match takeAmount d.width 0 args with
  | none => none
  | some (w, args) =>
    match takeAmount d.precision (-1) args with
    | none => none
    | some (p, args) => some (w, p, args)

/-- What a conversion shows, and the arguments left. A negative width from `*` means left-justified; a negative
precision from `*` means no precision. `none`: the arguments do not fit the format. -/
def Directive.show (d : Directive) (args : List Arg) : Option (List Byte × List Arg) :=
  match d.amounts args with
  | none => none
  | some (w, p, args) =>
    let left := decide (.minus ∈ d.flags ∨ w < 0)
    let w : Int := w.natAbs
    match d.conv, args with
    | .c, .int v :: args => some (field left false w [] [v.setWidth 8], args)
    | .s, .str s :: args =>
      let s := s.getD [0x3C#8, 0x4E#8, 0x55#8, 0x4C#8, 0x4C#8, 0x3E#8]  -- "<NULL>"
      some (field left false w [] (if p < 0 then s else s.take p.toNat), args)
    | .c, _ => none
    | .s, _ => none
    | conv, .int v :: args =>
      some (showInt conv d.flags left w (if p < 0 then none else some p) (valueOf conv d.len v), args)
    | _, _ => none

def Item.show : Item → List Arg → Option (List Byte × List Arg)
  | .char c, args => some ([c], args)
  | .percent, args => some ([0x25#8], args)
  | .dir d, args => d.show args

/-- What a whole format shows. -/
def showAll : List Item → List Arg → Option (List Byte)
  | [], _ => some []
  | it :: its, args =>
    match it.show args with
    | none => none
    | some (t, args) => (showAll its args).map (t ++ ·)

/-- What a buffer holds after a text `t` was formatted into it: every byte of the memory after the start of the buffer. -/
def holds (size : Nat) (t : List Byte) (before after : Nat → Byte) : Prop :=
  ∀ i, after i =
    if i < t.length ∧ i + 1 < size then t.getD i 0        -- the text, as far as it fits
    else if (i = t.length ∧ i < size) ∨ (i + 1 = size ∧ size ≤ t.length) then 0    -- the zero after it
    else before i

end Verif.Log
