import Verif.Boot.Spec

/-!
# The update tool's differential mode

`FlashDiff.generateDiff` of the update tool (Java, `firmware_updater/updater/source/src/main/java/org/selfbus/
updater`) and the telegrams `FlashDiffMode.doDifferentialFlash` makes of its output. Logging, the statistics
(`size`, `totalBytesTransferred`) and the console output are left out. Java `int`s are natural numbers: images
are far shorter than 2^31 bytes.
-/

namespace Verif.Boot.Tool
open Verif.Iap Verif.Boot Verif.Boot.Spec

/-- `Arrays.copyOf` as used by `BinImage(source, newLength)`, BinImage.java:27-33: cut off, or padded with
zeros. -/
def copyOf (l : List Byte) (n : Nat) : List Byte := l.take n ++ List.replicate (n - l.length) 0#8

/-- The inner loop of `letLongestCommonBytes`, FlashDiff.java:63-69. `n` is what is left of `maxLength`,
`j` the number of equal bytes so far. -/
def common (ar1 ar2 : List Byte) (i patternOffset : Nat) : Nat → Nat → Nat
  | 0, j => j
  | n + 1, j =>
    if patternOffset + j < ar2.length ∧ i + j < ar1.length ∧
        ar1.getD (i + j) 0#8 = ar2.getD (patternOffset + j) 0#8 then
      common ar1 ar2 i patternOffset n (j + 1)
    else j

/-- The outer loop of `letLongestCommonBytes`, FlashDiff.java:61-75: (offset, length) of the first longest
common run. -/
def longest (ar1 ar2 : List Byte) (patternOffset oldDataMinimumAddr maxLength : Nat) : Nat × Nat :=
  (List.range' oldDataMinimumAddr (ar1.length - oldDataMinimumAddr)).foldl
    (fun best i =>
      let j := common ar1 ar2 i patternOffset maxLength 0
      if best.2 < j then (i, j) else best) (0, 0)

/-- `letLongestCommonBytes`, FlashDiff.java:57-92: the run is cut at the end of the destination page. -/
def letLongestCommonBytes (ar1 ar2 : List Byte) (patternOffset oldDataMinimumAddr maxLength : Nat) :
    Nat × Nat :=
  let best := longest ar1 ar2 patternOffset oldDataMinimumAddr maxLength
  if 0 < best.2 then
    let firstDstPage := patternOffset / 256
    let lastDstPage := (patternOffset + best.2 - 1) / 256
    (best.1, if lastDstPage ≠ firstDstPage then (firstDstPage + 1) * 256 - patternOffset else best.2)
  else (0, 0)

/-- `possiblyFinishRawBuffer`, FlashDiff.java:94-122: what is appended to the stream. -/
def finishRaw (raw : List Byte) : List Byte :=
  if raw.isEmpty then []
  else if raw.length ≤ 63 then BitVec.ofNat 8 (raw.length % 64) :: raw
  else (0x40#8 ||| BitVec.ofNat 8 (raw.length / 256 % 64)) :: BitVec.ofNat 8 (raw.length % 256) :: raw

/-- The copy command, FlashDiff.java:157-189. -/
def copyCommand (ram : Bool) (offset length : Nat) : List Byte :=
  (if length ≤ 63 then [0x80#8 ||| BitVec.ofNat 8 (length % 64)]
   else [0x80#8 ||| 0x40#8 ||| BitVec.ofNat 8 (length / 256 % 64), BitVec.ofNat 8 (length % 256)]) ++
  [BitVec.ofNat 8 (offset / 65536 % 256) ||| (if ram then 0x80#8 else 0#8),
   BitVec.ofNat 8 (offset / 256 % 256), BitVec.ofNat 8 (offset % 256)]

/-- `OldWindow.fillNextPage`, OldWindow.java:14-19: the window of two pages moves by one. -/
def fillNextPage (old binData : List Byte) (base : Nat) : List Byte :=
  let page := (binData.drop base).take 256
  old.drop 256 ++ page ++ old.drop (256 + page.length)

/-- The variables of `generateDiff`, FlashDiff.java:132-141. `sent`: the calls of `sendCompressedPage` so
far, stream and CRC-32. -/
structure St where
  i : Nat
  /-- what the tool believes to be in the flash -/
  img1 : List Byte
  /-- what the tool believes to be in the device's window of overwritten pages -/
  w : List Byte
  raw : List Byte
  out : List Byte
  sent : List (List Byte × U32)

/-- FlashDiff.java:132-141, OldWindow.java:5. -/
def start (old new : List Byte) : St :=
  { i := 0, img1 := copyOf old new.length, w := List.replicate 512 0#8, raw := [], out := [], sent := [] }

/-- Choice of a command, FlashDiff.java:143-199. -/
def choose (new : List Byte) (s : St) : St :=
  let rBackward := letLongestCommonBytes s.w new s.i 0 2047
  let rForward := letLongestCommonBytes s.img1 new s.i 0 2047
  let ram := !decide (rBackward.2 < rForward.2)
  let best := if rBackward.2 < rForward.2 then rForward else rBackward
  if 6 ≤ best.2 then
    { s with i := s.i + best.2, raw := []
             out := s.out ++ finishRaw s.raw ++ copyCommand ram best.1 best.2 }
  else { s with i := s.i + 1, raw := s.raw ++ [new.getD s.i 0#8] }

/-- End of a page, FlashDiff.java:200-223. -/
def endPage (new : List Byte) (s : St) : St :=
  if s.i % 256 = 0 then
    let page := (new.drop (s.i - 256)).take 256
    { s with raw := [], out := []
             sent := s.sent ++ [(s.out ++ finishRaw s.raw, crc32Std page)]
             w := fillNextPage s.w s.img1 (s.i - 256)
             img1 := s.img1.take (s.i - 256) ++ page ++ s.img1.drop s.i }
  else s

/-- The loop of `generateDiff`, FlashDiff.java:142-224; `fuel` bounds the number of passes. -/
def loop (new : List Byte) : Nat → St → St
  | 0, s => s
  | fuel + 1, s => if s.i < new.length then loop new fuel (endPage new (choose new s)) else s

/-- `generateDiff`, FlashDiff.java:128-246: the calls of `sendCompressedPage`. -/
def generateDiff (old new : List Byte) : List (List Byte × U32) :=
  let s := loop new new.length (start old new)
  let out := s.out ++ finishRaw s.raw
  if out.isEmpty then s.sent
  else s.sent ++ [(out, crc32Std ((new.drop (new.length - new.length % 256)).take (new.length % 256)))]

/-- Splitting a stream into telegrams of at most 13 bytes, FlashDiffMode.java:106-122, Mcu.java:10-12. -/
def telegrams : Nat → List Byte → List (List Byte)
  | 0, _ => []
  | fuel + 1, stream => if stream.isEmpty then [] else stream.take 13 :: telegrams fuel (stream.drop 13)

/-- `sendCompressedPage` of `doDifferentialFlash`, FlashDiffMode.java:101-134, Utils.java:35-40: the update
commands sent for a page when every one is answered with success. -/
def sendCompressedPage (p : List Byte × U32) : List (List Byte) :=
  (telegrams p.1.length p.1).map msgDecompress ++ [msgProgramDecompressed p.2]

/-- `doDifferentialFlash`, FlashDiffMode.java:84-137. -/
def doDifferentialFlash (old new : List Byte) : List (List Byte) :=
  (generateDiff old new).flatMap sendCompressedPage

end Verif.Boot.Tool
