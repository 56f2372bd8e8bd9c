import Verif.Util.Text

/-!
# Model of the timed input of sblib/src/stream.cpp

The bytes of the stream arrive while the functions wait. The moments at which the program looks at the clock or at the
stream are numbered; the environment says for every moment how late it is and how many bytes have arrived.
-/

namespace Verif.StreamTime

open Verif.Text

/-- The surroundings of the program: the time in milliseconds since the start of the processor and the number of bytes
that have arrived at every moment, and the bytes themselves. -/
structure Env where
  time : Nat → Nat
  arr : Nat → Nat
  src : Nat → Byte
  time_mono : ∀ k, time k ≤ time (k + 1)
  arr_mono : ∀ k, arr k ≤ arr (k + 1)

/-- `millis()`, timer.cpp:106-109: the number of milliseconds as a 32 bit number. -/
def millis (e : Env) (k : Nat) : U32 := BitVec.ofNat 32 (e.time k)

/-- `elapsed()`, timer.cpp:111-114. -/
def elapsed (e : Env) (k : Nat) (ref : U32) : U32 := millis e k - ref

/-- `read()` and `peek()` of a stream, stream.h:37 and 45: the next byte if it has arrived, otherwise -1 (`none`). `pos` is
the number of bytes taken before. The overflow of the receive buffer of a concrete stream is not modelled here. -/
def next (e : Env) (k pos : Nat) : Option Byte := if pos < e.arr k then some (e.src pos) else none

/-- The loop of `timedRead()` and `timedPeek()`, stream.cpp:93-96 and 106-109: the clock is looked at at moment `k`, the
stream at moment `k + 1`. The first number is fuel; `none` means that the loop still runs when it is used up. -/
def timedLoop (e : Env) (timeout start : U32) (pos : Nat) : Nat → Nat → Option (Option Byte × Nat)
  | 0, _ => none
  | fuel + 1, k =>
    if elapsed e k start < timeout then
      match next e (k + 1) pos with
      | some c => some (some c, k + 2)
      | none => timedLoop e timeout start pos fuel (k + 2)
    else some (none, k + 1)

/-- `timedRead()` and `timedPeek()`, stream.cpp:88-112, called at moment `k`: the byte or -1 (`none`), and the moment
of the return. (`timedRead` takes the byte out of the stream: its callers below continue with `pos + 1`.) -/
def timedNext (e : Env) (timeout : U32) (fuel k pos : Nat) : Option (Option Byte × Nat) :=
  timedLoop e timeout (millis e k) pos fuel (k + 1)

/-- `_readBytesUntil`, stream.cpp:43-57: the bytes stored, the moment of the return and the number of bytes taken out
of the stream. -/
def readBytesUntil (e : Env) (timeout : U32) (fuel : Nat) (terminator : Option Byte) :
    Nat → Nat → Nat → Option (List Byte × Nat × Nat)
  | 0, k, pos => some ([], k, pos)
  | n + 1, k, pos =>
    match timedNext e timeout fuel k pos with
    | none => none
    | some (none, k') => some ([], k', pos)
    | some (some c, k') =>
      if some c = terminator then some ([], k', pos + 1)
      else
        match readBytesUntil e timeout fuel terminator n k' (pos + 1) with
        | none => none
        | some (got, r) => some (c :: got, r)

/-- `findUntil`, stream.cpp:59-86, for a non-empty target. The second fuel is for the outer loop. -/
def findLoop (e : Env) (timeout : U32) (fuel : Nat) (target term : List Byte) :
    Nat → Nat → Nat → Nat → Nat → Option (Bool × Nat × Nat)
  | 0, _, _, _, _ => none
  | g + 1, ti, ei, k, pos =>
    match timedNext e timeout fuel k pos with
    | none => none
    | some (none, k') => some (false, k', pos)
    | some (some ch, k') =>
      let ti' := if target[ti]? = some ch then ti + 1 else 0
      if target[ti]? = some ch ∧ ti + 1 ≥ target.length then some (true, k', pos + 1)
      else if term.length > 0 then
        if term[ei]? = some ch then
          if ei + 1 ≥ term.length then some (false, k', pos + 1)
          else findLoop e timeout fuel target term g ti' (ei + 1) k' (pos + 1)
        else findLoop e timeout fuel target term g ti' 0 k' (pos + 1)
      else findLoop e timeout fuel target term g ti' ei k' (pos + 1)

/-- `peekNextDigit`, stream.cpp:114-129: the character, the moment of the return and the number of bytes taken. The
`read()` that discards takes a moment. -/
def peekNextDigit (e : Env) (timeout : U32) (fuel : Nat) : Nat → Nat → Nat → Option (Option Byte × Nat × Nat)
  | 0, _, _ => none
  | g + 1, k, pos =>
    match timedNext e timeout fuel k pos with
    | none => none
    | some (none, k') => some (none, k', pos)
    | some (some ch, k') =>
      if ch = 0x2D#8 ∨ isDigit ch = true then some (some ch, k', pos)
      else peekNextDigit e timeout fuel g (k' + 1) (pos + 1)

/-- The `while` loop of `parseInt`, stream.cpp:28-37, entered with the character `ch` that was peeked. -/
def parseLoop (e : Env) (timeout : U32) (fuel : Nat) (skipChar : Byte) :
    Nat → BitVec 32 → Option Byte → Nat → Nat → Option (BitVec 32 × Nat × Nat)
  | _, value, none, k, pos => some (value, k, pos)
  | 0, _, some _, _, _ => none
  | g + 1, value, some ch, k, pos =>
    if isDigit ch then
      match timedNext e timeout fuel (k + 1) (pos + 1) with
      | none => none
      | some (c, k') => parseLoop e timeout fuel skipChar g (value * 10#32 + ch.setWidth 32 - 0x30#32) c k' (pos + 1)
    else if ch ≠ skipChar then some (value, k, pos)
    else
      match timedNext e timeout fuel (k + 1) (pos + 1) with
      | none => none
      | some (c, k') => parseLoop e timeout fuel skipChar g value c k' (pos + 1)

/-- `parseInt(skipChar)`, stream.cpp:16-41: the value, the moment of the return, the number of bytes taken. -/
def parseInt (e : Env) (timeout : U32) (fuel g : Nat) (skipChar : Byte) (k pos : Nat) :
    Option (BitVec 32 × Nat × Nat) :=
  match peekNextDigit e timeout fuel g k pos with
  | none => none
  | some (ch, k', pos') =>
    if ch = some 0x2D#8 then
      match parseLoop e timeout fuel skipChar g 0#32 (some 0x30#8) k' pos' with
      | none => none
      | some (v, r) => some (-v, r)
    else parseLoop e timeout fuel skipChar g 0#32 ch k' pos'

end Verif.StreamTime
