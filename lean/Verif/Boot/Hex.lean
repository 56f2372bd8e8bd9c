import Verif.Util.Text

/-!
# Intel HEX files: the update tool's reader and the bootloader's dump

The reader is the Java code in `firmware_updater/updater/source/src/main/java` (`cz/jaybee/intelhex` and
`BinImage.readFromHex`). Characters are their codes. Every exception ends in a `RuntimeException` of `readFromHex`
(BinImage.java:75-77): `none`. Logging and messages are left out, also the start address of the program, which the
tool does not use. Java `long`s do not overflow here (addresses are below 2^33) and are natural numbers.
-/

namespace Verif.Boot.Hex
open Verif

/-! ## Reading lines and records -/

/-- `BufferedReader.readLine` until it returns null, as used in Parser.java:219 (Java library): lines end with LF, CR or CR LF;
`acc` is the line so far, reversed. -/
def linesFrom : List Nat → List Nat → List (List Nat)
  | acc, [] => if acc.isEmpty then [] else [acc.reverse]
  | acc, 13 :: 10 :: cs => acc.reverse :: linesFrom [] cs
  | acc, c :: cs => if c = 10 ∨ c = 13 then acc.reverse :: linesFrom [] cs else linesFrom (c :: acc) cs

/-- All lines of a text. -/
def lines (text : List Nat) : List (List Nat) := linesFrom [] text

/-- `(byte) Integer.parseInt(num, 16)` of two characters, Parser.java:99-100. `Integer.parseInt` (Java library) accepts a sign;
`dig` is `Character.digit(c, 16)`. -/
def parseInt2 (dig : Nat → Option Nat) (a b : Nat) : Option Byte :=
  if a < 48 then
    if a = 45 then (dig b).map fun d => -BitVec.ofNat 8 d
    else if a = 43 then (dig b).map fun d => BitVec.ofNat 8 d
    else none
  else
    match dig a, dig b with
    | some x, some y => some (BitVec.ofNat 8 (16 * x + y))
    | _, _ => none

/-- The loop over the characters after the colon, Parser.java:93-102; with an odd number `substring` throws. -/
def hexBytes (dig : Nat → Option Nat) : List Nat → Option (List Byte)
  | [] => some []
  | [_] => none
  | a :: b :: rest =>
    match parseInt2 dig a b, hexBytes dig rest with
    | some x, some xs => some (x :: xs)
    | _, _ => none

/-- `RecordType`, RecordType.java:33-41. -/
inductive RecordType where
  | data | eof | extSeg | startSeg | extLin | startLin
  deriving DecidableEq, Repr

/-- `fromInt`, RecordType.java:63-70, Parser.java:122-125: `none` for unknown types. -/
def RecordType.fromInt : Nat → Option RecordType
  | 0 => some .data
  | 1 => some .eof
  | 2 => some .extSeg
  | 3 => some .startSeg
  | 4 => some .extLin
  | 5 => some .startLin
  | _ => none

/-- `Record`, Record.java:32-37; `length` is the length of `data`. -/
structure Record where
  address : Nat
  type : RecordType
  data : List Byte
  deriving DecidableEq, Repr

/-- `parseRecord`, Parser.java:81-128. A line with fewer than four bytes fails the test of the length (or has no length). -/
def parseRecord (dig : Nat → Option Nat) (eof : Bool) (record : List Nat) : Option Record :=
  if eof then none
  else
    match record with
    | [] => none
    | c :: rest =>
      if c ≠ 58 then none
      else
        match hexBytes dig rest with
        | none => none
        | some h =>
          if (h.map BitVec.toNat).sum % 256 ≠ 0 then none
          else if (h.getD 0 0#8).toNat + 5 ≠ h.length then none
          else
            (RecordType.fromInt (h.getD 3 0#8).toNat).map fun t =>
              ⟨(h.getD 1 0#8).toNat * 256 + (h.getD 2 0#8).toNat, t, (h.drop 4).take (h.getD 0 0#8).toNat⟩

/-- The variables of the parser, Parser.java:42-45, and the calls of the listener's `data` so far. -/
structure St where
  eof : Bool
  upperAddress : Nat
  events : List (Nat × List Byte)
  deriving DecidableEq, Repr

/-- `processRecord`, Parser.java:136-194. -/
def processRecord (s : St) (r : Record) : Option St :=
  match r.type with
  | .data => some { s with events := s.events ++ [(r.address ||| s.upperAddress, r.data)] }
  | .eof => some { s with eof := true }
  | .extLin =>
    if r.data.length = 2 then
      some { s with upperAddress := ((r.data.getD 0 0#8).toNat * 256 + (r.data.getD 1 0#8).toNat) <<< 16 }
    else none
  | .extSeg =>
    if r.data.length = 2 then
      some { s with upperAddress := ((r.data.getD 0 0#8).toNat * 256 + (r.data.getD 1 0#8).toNat) <<< 4 }
    else none
  | .startLin => if r.data.length = 4 then some s else none
  | .startSeg => if r.data.length = 4 then some s else none

/-- The loop of `parse`, Parser.java:219-227: empty lines are skipped. -/
def parseLoop (dig : Nat → Option Nat) : List (List Nat) → St → Option St
  | [], s => some s
  | l :: ls, s =>
    if l.isEmpty then parseLoop dig ls s
    else
      match parseRecord dig s.eof l with
      | none => none
      | some r =>
        match processRecord s r with
        | none => none
        | some s' => parseLoop dig ls s'

/-- `parse`, Parser.java:212-232: the calls of `data`. -/
def parse (dig : Nat → Option Nat) (ls : List (List Nat)) : Option (List (Nat × List Byte)) :=
  match parseLoop dig ls ⟨false, 0, []⟩ with
  | none => none
  | some s => if s.eof then some s.events else none

/-! ## First pass: the range of the addresses -/

/-- `Region`, Region.java:33-41: start and length; the end address is `start + length - 1`. -/
structure Region where
  start : Nat
  length : Nat
  deriving DecidableEq, Repr

/-- `MemoryRegions.add`, MemoryRegions.java:43-54, `RangeDetector.data`, RangeDetector.java:43-45. -/
def addRegion (rs : List Region) (start length : Nat) : List Region :=
  match rs.getLast? with
  | some p => if p.start + p.length = start then rs.dropLast ++ [⟨p.start, p.length + length⟩] else rs ++ [⟨start, length⟩]
  | none => rs ++ [⟨start, length⟩]

/-- `compareTo`, Region.java:104-110: less or equal. -/
def Region.le (a b : Region) : Bool := if a.start = b.start then decide (a.length ≤ b.length) else decide (a.start < b.start)

/-- Insertion into a sorted list. -/
def insertRegion (r : Region) : List Region → List Region
  | [] => [r]
  | x :: xs => if r.le x then r :: x :: xs else x :: insertRegion r xs

/-- `Collections.sort`, MemoryRegions.java:57 (Java library; regions that compare as equal are equal, so every sorting method gives
this list). -/
def sortRegions (rs : List Region) : List Region := rs.foldr insertRegion []

/-- The loop of `compact`, MemoryRegions.java:59-74, after the first pass. -/
def chain (prev : Region) : List Region → List Region
  | [] => [prev]
  | curr :: rest =>
    if curr.start = prev.start + prev.length then chain ⟨prev.start, prev.length + curr.length⟩ rest
    else prev :: chain curr rest

/-- `compact`, MemoryRegions.java:56-75, `RangeDetector.eof`, RangeDetector.java:48-50. -/
def compact (rs : List Region) : List Region :=
  match sortRegions rs with
  | [] => []
  | r :: rest => chain r rest

/-- `getFullRangeRegion`, MemoryRegions.java:89-99. -/
def fullRange (rs : List Region) : Region :=
  match rs.head?, rs.getLast? with
  | some first, some last => ⟨first.start, last.start + last.length - first.start⟩
  | _, _ => ⟨0, 0⟩

/-! ## Second pass: the bytes -/

/-- `BinWriter.data`, BinWriter.java:62-76, on the buffer of the output region. -/
def writeData (out : Region) (buffer : List Byte) (address : Nat) (data : List Byte) : List Byte :=
  if out.start ≤ address ∧ address < out.start + out.length then
    let length := if address + data.length ≥ out.start + out.length then out.start + out.length - address else data.length
    buffer.take (address - out.start) ++ data.take length ++ buffer.drop (address - out.start + length)
  else buffer

/-- `BinImage.readFromHex`, BinImage.java:53-78, and the constructors of BinWriter (BinWriter.java:51-59) and BinImage
(BinImage.java:42-51): start address and bytes of the image. The length of the buffer is an `int`: from 2^31 on the constructor or a
copy throws. -/
def readFromHex (dig : Nat → Option Nat) (text : List Nat) : Option (Nat × List Byte) :=
  match parse dig (lines text) with
  | none => none
  | some events =>
    let out := fullRange (compact (events.foldl (fun rs e => addRegion rs e.1 e.2.length) []))
    if out.length < 2 ^ 31 then
      some (out.start, events.foldl (fun b e => writeData out b e.1 e.2) (List.replicate out.length 0xff#8))
    else none

/-! ## The dump of the bootloader -/

/-- `print(value, HEX, digits)`, print.cpp:40-59, of a value that is not negative, as characters (`printUInt` of Util/Text.lean; at
most 33 digits). -/
def printHex (value : Nat) (digits : Nat) : List Nat :=
  ((Text.printUInt (BitVec.ofNat 32 value) 16 digits).getD []).map BitVec.toNat

/-- `println()`, print.cpp:97-100. -/
def crlf : List Nat := [13, 10]

/-- The checksum of a line from the sum of its bytes, intelhex.cpp:74-75, 94-95. -/
def lineChecksum (sum : Nat) : Nat := ((sum % 256 ^^^ 255) % 256 + 1) % 256

/-- The lines with data, intelhex.cpp:41-78: `rest` is what `data` points to, up to `count`; `fuel` bounds the number of lines. -/
def dumpLines (bytesPerLine : Nat) : Nat → Nat → List Byte → List Nat
  | 0, _, _ => []
  | fuel + 1, address, rest =>
    if rest.isEmpty then []
    else
      let bytes := rest.take bytesPerLine
      let sum := bytes.length + (address / 256 % 256 + address % 256) + 0 + (bytes.map BitVec.toNat).sum
      [58] ++ printHex bytes.length 2 ++ printHex address 4 ++ printHex 0 2 ++ bytes.flatMap (fun x => printHex x.toNat 2) ++
        printHex (lineChecksum sum) 2 ++ crlf ++ dumpLines bytesPerLine fuel (address + bytes.length) (rest.drop bytesPerLine)

/-- `dumpToSerialinIntelHex`, intelhex.cpp:31-102: what is sent for the bytes at an address. -/
def dump (bytesPerLine startAddress : Nat) (data : List Byte) : List Nat :=
  let address := startAddress + data.length
  let sum := 7 + (startAddress / 256 % 256 + startAddress % 256) + (address / 256 % 256 + address % 256)
  dumpLines bytesPerLine data.length startAddress data ++
    ([58] ++ [48, 52, 48, 48, 48, 48, 48, 51] ++ printHex startAddress 4 ++ printHex address 4 ++ printHex (lineChecksum sum) 2 ++ crlf) ++
    ([58] ++ [48, 48, 48, 48, 48, 48, 48, 49, 70, 70] ++ crlf)

end Verif.Boot.Hex
