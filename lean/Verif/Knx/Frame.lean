import Verif.Base

/-!
# Telegram fields (layers 2, 3, 4 and 7)

Models the inline accessors of
`sblib/inc/sblib/eib/knx_lpdu.h`, `knx_npdu.h`, `knx_tpdu.h`, `sblib/src/eib/apci.cpp` and
`sblib/inc/sblib/bits.h`.

A telegram buffer (`unsigned char *`) is a total function from index to byte. All accessors below
use constant indices 0..7, which are inside every buffer the library allocates (23 bytes or more).
-/

namespace Verif.Knx

/-- A telegram buffer. -/
abbrev Buf := Nat → Byte

/-- `buf[i] = v`. -/
def upd (b : Buf) (i : Nat) (v : Byte) : Buf := fun j => if j = i then v else b j

/-- The first `n` bytes. -/
def bytes (b : Buf) (n : Nat) : List Byte := (List.range n).map b

/-- `memcpy(dst, src, n)`. -/
def memcpy (dst src : Buf) (n : Nat) : Buf := fun i => if i < n then src i else dst i

/-- `makeWord(high, low)`, bits.h:50-53. -/
def makeWord (high low : Byte) : Word := (high.setWidth 16 <<< (8 : Nat)) ||| low.setWidth 16

/-- `HIGH_BYTE(x)` for a 16-bit `x`, utils.h:17. -/
def highByte (x : Word) : Byte := (x >>> 8).setWidth 8

/-- `lowByte(x)`, bits.h:25. -/
def lowByte (x : Word) : Byte := x.setWidth 8

/-- `controlByte`, knx_lpdu.h:87-90. -/
def controlByte (t : Buf) : Byte := t 0

/-- `isRepeated`, knx_lpdu.h:92-96. -/
def isRepeated (t : Buf) : Bool := t 0 &&& 0x20#8 == 0#8

/-- `setRepeated`, knx_lpdu.h:98-109. -/
def setRepeated (t : Buf) (repeated : Bool) : Buf :=
  if repeated then upd t 0 (t 0 &&& 0xDF#8) else upd t 0 (t 0 ||| 0x20#8)

/-- `priority`, knx_lpdu.h:111-115. -/
def priority (t : Buf) : Byte := (t 0 >>> 2) &&& 0x03#8

/-- `setPriority`, knx_lpdu.h:117-120. -/
def setPriority (t : Buf) (p : Byte) : Buf := upd t 0 ((p <<< (2 : Nat)) ||| (t 0 &&& 0xF3#8))

/-- `setFrameType`, knx_lpdu.h:157-168. -/
def setFrameType (t : Buf) (extended : Bool) : Buf :=
  if extended then upd t 0 (t 0 &&& 0x7F#8) else upd t 0 (t 0 ||| 0x80#8)

/-- `initLpdu(telegram, priority, repeated, frameType)`, knx_lpdu.h:79-85. -/
def initLpdu (t : Buf) (p : Byte) (repeated extended : Bool) : Buf :=
  setFrameType (setPriority (setRepeated (upd t 0 0xB0#8) repeated) p) extended

/-- `senderAddress`, knx_lpdu.h:122-125. -/
def senderAddress (t : Buf) : Word := makeWord (t 1) (t 2)

/-- `setSenderAddress`, knx_lpdu.h:127-131. -/
def setSenderAddress (t : Buf) (a : Word) : Buf := upd (upd t 1 (highByte a)) 2 (lowByte a)

/-- `destinationAddress`, knx_lpdu.h:134-137. -/
def destinationAddress (t : Buf) : Word := makeWord (t 3) (t 4)

/-- `setDestinationAddress`, knx_lpdu.h:139-143. -/
def setDestinationAddress (t : Buf) (a : Word) : Buf := upd (upd t 3 (highByte a)) 4 (lowByte a)

/-- `telegramSize`, knx_npdu.h:49. -/
def telegramSize (t : Buf) : Nat := 7 + (t 5 &&& 15#8).toNat

/-- `sequenceNumber`, knx_tpdu.h:66-77 (returns 255 for the byte 0xFF). -/
def sequenceNumber (t : Buf) : Byte :=
  if t 6 ≠ 0xFF#8 then (t 6 &&& 0x3c#8) >>> 2 else 0xFF#8

/-- `setSequenceNumber`, knx_tpdu.h:79-84. -/
def setSequenceNumber (t : Buf) (n : Byte) : Buf :=
  let b := t 6 &&& 0xC3#8
  let b := b ||| (n <<< (2 : Nat))
  upd t 6 (b ||| 0x40#8)

/-- `apciCommand`, apci.cpp:23-38. -/
def apciCommand (t : Buf) : Word :=
  let apci : Word := (((t 6 &&& 0x03#8).setWidth 16 : Word) <<< (8 : Nat)) ||| (t 7).setWidth 16
  let short := apci &&& 0x3c0#16
  if short = 0x180#16 ∨ short = 0x200#16 ∨ short = 0x280#16 ∨ short = 0x300#16 then short else apci

/-- `setApciCommand(telegram, cmd, additionalData)`, apci.cpp:40-45. -/
def setApciCommand (t : Buf) (cmd : Word) (additionalData : Byte) : Buf :=
  upd (upd t 6 (highByte cmd)) 7 (lowByte cmd ||| additionalData)

/-! ## Basic facts -/

@[simp] theorem upd_same (b : Buf) (i : Nat) (v : Byte) : upd b i v i = v := by simp [upd]

theorem upd_ne (b : Buf) (i j : Nat) (v : Byte) (h : j ≠ i) : upd b i v j = b j := by simp [upd, h]

@[simp] theorem bytes_length (b : Buf) (n : Nat) : (bytes b n).length = n := by simp [bytes]

theorem makeWord_high_low (w : Word) : makeWord (highByte w) (lowByte w) = w := by
  unfold makeWord highByte lowByte
  apply BitVec.eq_of_getLsbD_eq
  intro i hi
  simp only [BitVec.getLsbD_or, BitVec.getLsbD_shiftLeft, BitVec.getLsbD_setWidth,
    BitVec.getLsbD_ushiftRight]
  by_cases h : i < 8
  · simp [h, hi]
  · have e : 8 + (i - 8) = i := by omega
    simp [h, hi, e, show i - 8 < 8 by omega, show i - 8 < 16 by omega]

theorem highByte_makeWord (h l : Byte) : highByte (makeWord h l) = h := by
  unfold makeWord highByte
  apply BitVec.eq_of_getLsbD_eq
  intro i hi
  simp [hi, show 8 + i < 16 by omega]

theorem lowByte_makeWord (h l : Byte) : lowByte (makeWord h l) = l := by
  unfold makeWord lowByte
  apply BitVec.eq_of_getLsbD_eq
  intro i hi
  simp [hi, show i < 16 by omega]

end Verif.Knx
