import Verif.Log.Spec
import Verif.Util.Text

/-!
# Model of the formatted logging: logging/log/logger.cpp

The destination is a memory of bytes counted from the start of the buffer, `str - buf` is a natural number (an output of
so many characters that the pointer runs over the end of the address space is not modelled). `int` variables are
integers; widths and precisions of more than `2^30`, for which an `int` may overflow, are not modelled (`none`). The
format is the list of its bytes before the terminating zero. Arguments of 64 bits are not modelled. `none` is also
undefined behaviour: an argument that is missing or of another kind, a read outside `small_digits`/`large_digits`, a
write outside `tmp`, the negation of the smallest `long`.
-/

namespace Verif.Log

/-- The flags of `number()`, logger.cpp:21-27. -/
structure Flags where
  zeropad : Bool := false
  sign : Bool := false
  plus : Bool := false
  space : Bool := false
  left : Bool := false
  special : Bool := false
  large : Bool := false
  deriving Repr, DecidableEq

/-- `small_digits`, logger.cpp:29. -/
def smallDigits : List Byte := "0123456789abcdefghijklmnopqrstuvwxyz".toList.map fun c => BitVec.ofNat 8 c.toNat

/-- `large_digits`, logger.cpp:30. -/
def largeDigits : List Byte := "0123456789ABCDEFGHIJKLMNOPQRSTUVWXYZ".toList.map fun c => BitVec.ofNat 8 c.toNat

/-- The output: the memory of the buffer, `str - buf`, and the counts stored for `%n`. -/
structure Out where
  mem : Nat → Byte
  pos : Nat := 0
  counts : List Nat := []

/-- `if (str <= end) *str = c; ++str;`, e.g. logger.cpp:169-171. `size` is `end - buf + 1`. -/
def put (size : Nat) (c : Byte) (o : Out) : Out :=
  { o with mem := if o.pos < size then fun i => if i = o.pos then c else o.mem i else o.mem, pos := o.pos + 1 }

/-- A loop writing the same character `n` times, e.g. logger.cpp:83-87; nothing for a negative `n`. -/
def pad (size : Nat) (n : Int) (c : Byte) (o : Out) : Out := n.toNat.repeat (put size c) o

/-- The digit loop of `number()`, logger.cpp:74-78, with C's division; `tmp` holds the digits stored so far.
`none`: a read outside of `digits` or a write outside of `tmp`. The bases 0 and 1 do not occur. -/
def digitLoop (digs : List Byte) (base : Nat) (num : Int) (tmp : List Byte) : Option (List Byte) :=
  if h : num = 0 ∨ base < 2 then some tmp
  else
    let k := num.tmod base
    if k < 0 ∨ 14 ≤ tmp.length then none
    else
      match digs[k.toNat]? with
      | none => none
      | some c => digitLoop digs base (num.tdiv base) (tmp ++ [c])
termination_by num.natAbs
decreasing_by
  rw [Int.natAbs_tdiv]
  exact Nat.div_lt_self (by omega) (by simp; omega)

/-- The sign, if there is one, logger.cpp:89-93. -/
def putSign (size : Nat) (sign : Option Byte) (o : Out) : Out :=
  match sign with
  | some s => put size s o
  | none => o

/-- `number()`, logger.cpp:31-131. `while (n-- > 0)` leaves `n` negative. -/
def number (lim : Nat) (o : Out) (num : Int) (base : Nat) (size precision : Int) (f : Flags) : Option Out :=
  let digs := if f.large then largeDigits else smallDigits
  let f := if f.left then { f with zeropad := false } else f
  if base < 8 ∨ base > 16 then none
  else
    let c : Byte := if f.zeropad then 0x30 else 0x20
    if f.sign ∧ num = -2147483648 then none
    else
      let (sign, num, size) : Option Byte × Int × Int :=
        if f.sign then
          if num < 0 then (some 0x2D, -num, size - 1)
          else if f.plus then (some 0x2B, num, size - 1)
          else if f.space then (some 0x20, num, size - 1)
          else (none, num, size)
        else (none, num, size)
      let size := if f.special then (if base = 16 then size - 2 else if base = 8 then size - 1 else size) else size
      match if num = 0 then some [0x30#8] else digitLoop digs base num [] with
      | none => none
      | some tmp =>
        let i : Int := tmp.length
        let precision := if i > precision then i else precision
        let size := size - precision
        let o := if ¬ f.zeropad ∧ ¬ f.left then pad lim size 0x20 o else o
        let size := if ¬ f.zeropad ∧ ¬ f.left then min size 0 - 1 else size
        let o := putSign lim sign o
        let o := if f.special then
            if base = 8 then put lim 0x30 o
            else if base = 16 then put lim (digs.getD 33 0) (put lim 0x30 o)
            else o
          else o
        let o := if ¬ f.left then pad lim size c o else o
        let size := if ¬ f.left then min size 0 - 1 else size
        let o := pad lim (precision - i) 0x30 o
        let o := tmp.reverse.foldl (fun o c => put lim c o) o
        some (pad lim size 0x20 o)

/-- The flag loop, logger.cpp:175-185; `fmt` begins after the per cent sign. -/
def flagLoop : Flags → List Byte → Flags × List Byte
  | f, [] => (f, [])
  | f, c :: r =>
    if c = 0x2D then flagLoop { f with left := true } r
    else if c = 0x2B then flagLoop { f with plus := true } r
    else if c = 0x20 then flagLoop { f with space := true } r
    else if c = 0x23 then flagLoop { f with special := true } r
    else if c = 0x30 then flagLoop { f with zeropad := true } r
    else (f, c :: r)

/-- `skip_atoi`, logger.cpp:15-19. -/
def skipAtoi : Int → List Byte → Int × List Byte
  | i, [] => (i, [])
  | i, c :: r => if Text.isDigit c then skipAtoi (i * 10 + c.toNat - 0x30) r else (i, c :: r)

/-- The field width, logger.cpp:187-199. -/
def getWidth (f : Flags) (fmt : List Byte) (args : List Arg) : Option (Flags × Int × List Byte × List Arg) :=
  match fmt with
  | [] => some (f, -1, [], args)
  | c :: r =>
    if Text.isDigit c then
      let (w, r) := skipAtoi 0 (c :: r)
      some (f, w, r, args)
    else if c = 0x2A then
      match args with
      | .int v :: args =>
        if v.toInt < 0 then some ({ f with left := true }, -v.toInt, r, args) else some (f, v.toInt, r, args)
      | _ => none
    else some (f, -1, c :: r, args)

/-- The precision, logger.cpp:201-214. -/
def getPrecision (fmt : List Byte) (args : List Arg) : Option (Int × List Byte × List Arg) :=
  match fmt with
  | [] => some (-1, [], args)
  | c :: r =>
    if c = 0x2E then
      match r with
      | [] => some (0, [], args)
      | c :: r =>
        if Text.isDigit c then
          let (p, r) := skipAtoi 0 (c :: r)
          some (if p < 0 then 0 else p, r, args)
        else if c = 0x2A then
          match args with
          | .int v :: args => some (if v.toInt < 0 then 0 else v.toInt, r, args)
          | _ => none
        else some (0, c :: r, args)
    else some (-1, c :: r, args)

/-- The conversion qualifier, logger.cpp:216-225; 0 for none, otherwise the character. -/
def getQualifier (fmt : List Byte) : Byte × List Byte :=
  match fmt with
  | [] => (0, [])
  | c :: r =>
    if c = 0x68 ∨ c = 0x6C ∨ c = 0x4C ∨ c = 0x5A then
      match r with
      | [] => (c, [])
      | d :: r' => if c = 0x6C ∧ d = 0x6C then (0x4C, r') else (c, d :: r')
    else (0, c :: r)

/-- The argument of an integer conversion, logger.cpp:338-354, as the `long` that `number()` takes: `num` is an
`unsigned long`, its bits are taken as signed at the call in line 355. A `long`, an `int` and a `size_t` have 32 bits. -/
def getNum (q : Byte) (sign : Bool) (v : U32) : Int :=
  if q = 0x68 then (if sign then (v.setWidth 16).signExtend 32 else (v.setWidth 16).setWidth 32 : U32).toInt
  else v.toInt

/-- The conversions `%o`, `%X`, `%x`, `%d`, `%i`, `%u`, logger.cpp:308-323: flags and base, if the character is one. -/
def intConv (f : Flags) (c : Byte) : Option (Flags × Nat) :=
  if c = 0x6F then some (f, 8)
  else if c = 0x58 then some ({ f with large := true }, 16)
  else if c = 0x78 then some (f, 16)
  else if c = 0x64 ∨ c = 0x69 then some ({ f with sign := true }, 10)
  else if c = 0x75 then some (f, 10)
  else none

/-- The bytes of `"<NULL>"`, logger.cpp:253. -/
def nullText : List Byte := "<NULL>".toList.map fun c => BitVec.ofNat 8 c.toNat

/-- The conversion, logger.cpp:227-356, for the conversion character `c`: the output and the arguments left. -/
def convert (lim : Nat) (o : Out) (f : Flags) (w p : Int) (q c : Byte) (args : List Arg) : Option (Out × List Arg) :=
  if c = 0x63 then
    let o := if ¬ f.left then pad lim (w - 1) 0x20 o else o
    let w := if ¬ f.left then min (w - 1) 0 else w
    match args with
    | .int v :: args => some (pad lim (w - 1) 0x20 (put lim (v.setWidth 8) o), args)
    | _ => none
  else if c = 0x73 then
    match args with
    | .str s :: args =>
      let s := s.getD nullText
      let len : Int := s.length
      let o := if ¬ f.left then pad lim (w - len) 0x20 o else o
      let w := if ¬ f.left then min w len - 1 else w
      let o := s.foldl (fun o c => put lim c o) o
      some (pad lim (w - len) 0x20 o, args)
    | _ => none
  else if c = 0x70 then
    match args with
    | .int v :: args =>
      if w = -1 then (number lim o v.toInt 16 8 p { f with zeropad := true }).map (·, args)
      else (number lim o v.toInt 16 w p f).map (·, args)
    | _ => none
  else if c = 0x6E then
    match args with
    | .place :: args => some ({ o with counts := o.counts ++ [o.pos] }, args)
    | _ => none
  else if c = 0x25 then some (put lim 0x25 o, args)
  else
    match intConv f c with
    | none => some (put lim c (put lim 0x25 o), args)
    | some (f, base) =>
      match args with
      | .int v :: args => (number lim o (getNum q f.sign v) base w p f).map (·, args)
      | _ => none

/-- Flags, width, precision and qualifier of one conversion, logger.cpp:175-225: these, and the rest of the format
beginning with the conversion character. `none` for a width or a precision of more than `2^30`. -/
def parse (fmt : List Byte) (args : List Arg) : Option (Flags × Int × Int × Byte × List Byte × List Arg) :=
  let (f, r) := flagLoop {} fmt
  match getWidth f r args with
  | none => none
  | some (f, w, r, args) =>
    match getPrecision r args with
    | none => none
    | some (p, r, args) =>
      let (q, r) := getQualifier r
      if w > 2 ^ 30 ∨ p > 2 ^ 30 then none else some (f, w, p, q, r, args)

theorem flagLoop_le (f : Flags) (r : List Byte) : (flagLoop f r).2.length ≤ r.length := by
  induction r generalizing f with
  | nil => simp [flagLoop]
  | cons c r ih =>
    unfold flagLoop
    repeat' split
    all_goals first
      | exact Nat.le_trans (ih _) (by simp)
      | simp

theorem skipAtoi_le (i : Int) (r : List Byte) : (skipAtoi i r).2.length ≤ r.length := by
  induction r generalizing i with
  | nil => simp [skipAtoi]
  | cons c r ih =>
    unfold skipAtoi
    split
    · exact Nat.le_trans (ih _) (by simp)
    · simp

theorem getWidth_le {f r args x} (h : getWidth f r args = some x) : x.2.2.1.length ≤ r.length := by
  unfold getWidth at h
  cases r with
  | nil => simp at h; subst h; simp
  | cons c r =>
    simp only at h
    by_cases h1 : Text.isDigit c = true
    · rw [if_pos h1] at h
      simp only [Option.some.injEq] at h
      subst h
      exact skipAtoi_le 0 (c :: r)
    · rw [if_neg h1] at h
      by_cases h2 : c = 0x2A
      · rw [if_pos h2] at h
        split at h
        · split at h <;> (simp only [Option.some.injEq] at h; subst h; simp)
        · cases h
      · rw [if_neg h2] at h
        simp only [Option.some.injEq] at h; subst h; simp

theorem getPrecision_le {r args x} (h : getPrecision r args = some x) : x.2.1.length ≤ r.length := by
  unfold getPrecision at h
  cases r with
  | nil => simp at h; subst h; simp
  | cons c r =>
    simp only at h
    by_cases h0 : c = 0x2E
    · rw [if_pos h0] at h
      cases r with
      | nil => simp at h; subst h; simp
      | cons c r =>
        simp only at h
        by_cases h1 : Text.isDigit c = true
        · rw [if_pos h1] at h
          simp only [Option.some.injEq] at h
          subst h
          exact Nat.le_trans (skipAtoi_le 0 (c :: r)) (by simp)
        · rw [if_neg h1] at h
          by_cases h2 : c = 0x2A
          · rw [if_pos h2] at h
            split at h
            · simp only [Option.some.injEq] at h; subst h; simp; omega
            · cases h
          · rw [if_neg h2] at h
            simp only [Option.some.injEq] at h; subst h; simp
    · rw [if_neg h0] at h
      simp only [Option.some.injEq] at h; subst h; simp

theorem getQualifier_le (r : List Byte) : (getQualifier r).2.length ≤ r.length := by
  unfold getQualifier
  cases r with
  | nil => simp
  | cons c r =>
    simp only
    split
    · cases r with
      | nil => simp
      | cons d r =>
        simp only
        split <;> simp
        omega
    · simp

theorem parse_le {r args x} (h : parse r args = some x) : x.2.2.2.2.1.length ≤ r.length := by
  unfold parse at h
  simp only at h
  have a1 := flagLoop_le {} r
  split at h
  · cases h
  · rename_i f w r1 args1 h1
    have a2 := getWidth_le h1
    split at h
    · cases h
    · rename_i p r2 args2 h2
      have a3 := getPrecision_le h2
      have a4 := getQualifier_le r2
      split at h
      · cases h
      simp only [Option.some.injEq] at h
      subst h
      simp only at a2 a3 ⊢
      omega

/-- The loop over the format, logger.cpp:167-357. At the end of the format in the middle of a conversion the code
writes the per cent sign and steps back (lines 325-335). -/
def formatLoop (lim : Nat) (o : Out) (fmt : List Byte) (args : List Arg) : Option Out :=
  match fmt with
  | [] => some o
  | c :: r =>
    if c ≠ 0x25 then formatLoop lim (put lim c o) r args
    else
      match _h : parse r args with
      | none => none
      | some (f, w, p, q, [], args) => formatLoop lim (put lim 0x25 o) [] args
      | some (f, w, p, q, c :: r', args) =>
        match convert lim o f w p q c args with
        | none => none
        | some (o, args) => formatLoop lim o r' args
termination_by fmt.length
decreasing_by
  · simp
  · simp
  · have := parse_le _h; simp at this ⊢; omega

/-- The size used, logger.cpp:160-165: cut where the buffer would run over the end of the address space. -/
def limit (buf size : U32) : Nat :=
  let end' := buf + size - 1
  if end' < buf - 1 then (BitVec.allOnes 32 - buf + 1).toNat else size.toNat

/-- `log_vsnprintf`, logger.cpp:143-367: the memory from `buf` on, and the value returned. -/
def vsnprintf (buf size : U32) (fmt : List Byte) (args : List Arg) (mem : Nat → Byte) : Option (Out × Nat) :=
  let lim := limit buf size
  match formatLoop lim { mem } fmt args with
  | none => none
  | some o =>
    let mem := if o.pos < lim then fun i => if i = o.pos then 0 else o.mem i
      else if lim > 0 then fun i => if i = lim - 1 then 0 else o.mem i
      else o.mem
    some ({ o with mem }, o.pos)

/-- The bytes of a memory up to the first zero, within `n` bytes. -/
def cstr (mem : Nat → Byte) (n : Nat) : List Byte := ((List.range n).map mem).takeWhile (· ≠ 0)

/-- `serPrintf`, logger.cpp:369-379: what is written to the serial port; `Print::print` is print.cpp:40-59, `println`
print.cpp:97-100. `stack` is what lies in the buffer before. -/
def serPrintf (buf : U32) (millis : U32) (stack : Nat → Byte) (fmt : List Byte) (args : List Arg) : Option (List Byte) :=
  match vsnprintf buf 256 fmt args stack with
  | none => none
  | some (o, _) =>
    (Text.printUInt (millis % 1000000) 10 (-1)).map fun n => n ++ [0x3A#8, 0x20#8] ++ cstr o.mem 256 ++ [0x0D#8, 0x0A#8]

end Verif.Log
