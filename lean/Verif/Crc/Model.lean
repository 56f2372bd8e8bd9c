import Verif.Base

/-!
# Model of all CRC routines

A `(pointer, count)` pair of the C++ code is a `List Byte`: the `count` bytes the loop reads.
-/

namespace Verif.Crc

/-! ## firmware_updater/bootloader/src/crc.cpp -/

/-- `g0` … `g7`, crc.cpp:27-34. -/
def g0 : U32 := 0xEDB88320#32
def g1 : U32 := g0 >>> 1
def g2 : U32 := g0 >>> 2
def g3 : U32 := g0 >>> 3
def g4 : U32 := g0 >>> 4
def g5 : U32 := g0 >>> 5
def g6 : U32 := (g0 >>> 6) ^^^ g0
def g7 : U32 := ((g0 >>> 6) ^^^ g0) >>> 1

/-- The expression `c` of crc.cpp:41-44. `crc` is a (signed) `int`, so `>> 31` is an arithmetic
shift that smears the selected bit. (Left-shifting a negative `int` is formally undefined before
C++20; modelled with the two's complement meaning every supported compiler gives it.) -/
def crc32C (crc : U32) : U32 :=
  ((crc <<< 31).sshiftRight 31 &&& g7) ^^^ ((crc <<< 30).sshiftRight 31 &&& g6)
    ^^^ ((crc <<< 29).sshiftRight 31 &&& g5) ^^^ ((crc <<< 28).sshiftRight 31 &&& g4)
    ^^^ ((crc <<< 27).sshiftRight 31 &&& g3) ^^^ ((crc <<< 26).sshiftRight 31 &&& g2)
    ^^^ ((crc <<< 25).sshiftRight 31 &&& g1) ^^^ ((crc <<< 24).sshiftRight 31 &&& g0)

/-- Loop body of `crc32`, crc.cpp:39-45. -/
def crc32Byte (crc : U32) (byte : Byte) : U32 :=
  let crc := crc ^^^ byte.setWidth 32
  (crc >>> 8) ^^^ crc32C crc

/-- `crc32(startCrc32, data, count)`, crc.cpp:22-48. -/
def crc32 (startCrc32 : U32) (data : List Byte) : U32 :=
  ~~~ (data.foldl crc32Byte startCrc32)

/-! ## sblib/src/onewire.cpp -/

/-- Inner loop body of `OneWireCRC8`, onewire.cpp:480-486, on the pair `(crc, inbyte)`. -/
def dallasBit (st : Byte × Byte) : Byte × Byte :=
  let crc := st.1
  let inbyte := st.2
  let mix := (crc ^^^ inbyte) &&& 0x01#8
  let crc := crc >>> 1
  let crc := if mix ≠ 0#8 then crc ^^^ 0x8C#8 else crc
  (crc, inbyte >>> 1)

/-- `n` iterations of the inner loop. -/
def dallasBits : Nat → Byte × Byte → Byte × Byte
  | 0, st => st
  | n + 1, st => dallasBits n (dallasBit st)

/-- `OneWire::OneWireCRC8`, onewire.cpp:473-489 (identical loop in ds2482.cpp:375-389). -/
def oneWireCRC8 (addr : List Byte) : Byte :=
  addr.foldl (fun crc inbyte => (dallasBits 8 (crc, inbyte)).1) 0#8

/-- `oddparity`, onewire.cpp:535. -/
def oddparity : Array Byte := #[0, 1, 1, 0, 1, 0, 0, 1, 1, 0, 0, 1, 0, 1, 1, 0]

/-- Loop body of `OneWire::OneWireCRC16`, onewire.cpp:536-551. The index expressions
`cdata & 0x0F` and `cdata >> 4` are always below 16 because `cdata` is masked to 8 bits. -/
def oneWireCRC16Byte (crc : Word) (input : Byte) : Word :=
  let cdata : Word := (input.setWidth 16 ^^^ crc) &&& 0xff#16
  let crc := crc >>> 8
  let crc :=
    if (oddparity[(cdata &&& 0x0F#16).toNat]! ^^^ oddparity[(cdata >>> 4).toNat]!) ≠ 0#8
    then crc ^^^ 0xC001#16 else crc
  let cdata := cdata <<< 6
  let crc := crc ^^^ cdata
  let cdata := cdata <<< 1
  crc ^^^ cdata

/-- `OneWire::OneWireCRC16`, onewire.cpp:533-553. -/
def oneWireCRC16 (input : List Byte) (crc : Word) : Word := input.foldl oneWireCRC16Byte crc

/-- `OneWire::OneWireCheckCRC16`, onewire.cpp:507-511. -/
def oneWireCheckCRC16 (input : List Byte) (inv0 inv1 : Byte) (crc : Word) : Bool :=
  let crc := ~~~ oneWireCRC16 input crc
  ((crc &&& 0xFF#16) == inv0.setWidth 16) && ((crc >>> 8) == inv1.setWidth 16)

/-! ## sblib/src/i2c/ds2482.cpp -/

/-- `dscrc_table`, ds2482.cpp:343-353. -/
def dscrcTable : Array Byte :=
  #[0, 94, 188, 226, 97, 63, 221, 131, 194, 156, 126, 32, 163, 253, 31, 65, 157, 195,
    33, 127, 252, 162, 64, 30, 95, 1, 227, 189, 62, 96, 130, 220, 35, 125, 159, 193, 66, 28, 254, 160, 225, 191, 93,
    3, 128, 222, 60, 98, 190, 224, 2, 92, 223, 129, 99, 61, 124, 34, 192, 158, 29, 67, 161, 255, 70, 24, 250, 164,
    39, 121, 155, 197, 132, 218, 56, 102, 229, 187, 89, 7, 219, 133, 103, 57, 186, 228, 6, 88, 25, 71, 165, 251,
    120, 38, 196, 154, 101, 59, 217, 135, 4, 90, 184, 230, 167, 249, 27, 69, 198, 152, 122, 36, 248, 166, 68, 26,
    153, 199, 37, 123, 58, 100, 134, 216, 91, 5, 231, 185, 140, 210, 48, 110, 237, 179, 81, 15, 78, 16, 242, 172,
    47, 113, 147, 205, 17, 79, 173, 243, 112, 46, 204, 146, 211, 141, 111, 49, 178, 236, 14, 80, 175, 241, 19, 77,
    206, 144, 114, 44, 109, 51, 209, 143, 12, 82, 176, 238, 50, 108, 142, 208, 83, 13, 239, 177, 240, 174, 76, 18,
    145, 207, 45, 115, 202, 148, 118, 40, 171, 245, 23, 73, 8, 86, 180, 234, 105, 55, 213, 139, 87, 9, 235, 181, 54,
    104, 138, 212, 149, 203, 41, 119, 244, 170, 72, 22, 233, 183, 85, 11, 136, 214, 52, 106, 43, 117, 151, 201, 74,
    20, 246, 168, 116, 42, 200, 150, 21, 75, 169, 247, 182, 232, 10, 84, 215, 137, 107, 53]

/-- `OneWireDS2482::crc8` (table version), ds2482.cpp:362-369. The table has 256 entries and the
index is a byte, so the access is always in range (`dscrcTable_size` in Lemmas). -/
def ds2482Crc8 (addr : List Byte) : Byte :=
  addr.foldl (fun crc b => dscrcTable[(crc ^^^ b).toNat]!) 0#8

/-! ## sblib/src/i2c/SHT2x.cpp, SHT4x.cpp, SGP4x.cpp -/

/-- Inner loop body, SHT2x.cpp:155, SHT4x.cpp:213, SGP4x.cpp:302. `(crc << 1)` is computed as
`int` and truncated to `uint8_t` by the assignment. -/
def sensirionBit (crc : Byte) : Byte :=
  if crc &&& 0x80#8 ≠ 0#8 then (crc <<< 1) ^^^ 0x31#8 else crc <<< 1

/-- `n` iterations. -/
def sensirionBits : Nat → Byte → Byte
  | 0, crc => crc
  | n + 1, crc => sensirionBits n (sensirionBit crc)

/-- Outer loop of the Sensirion CRC with initial value `init`
(SHT2x.cpp:142-159 with `init = 0x00`, SHT4x.cpp:192-217 and SGP4x.cpp:281-306 with `0xFF`). -/
def sensirionCrc8 (init : Byte) (data : List Byte) : Byte :=
  data.foldl (fun crc b => sensirionBits 8 (crc ^^^ b)) init

def sht2xCrc8 (data : List Byte) : Byte := sensirionCrc8 0x00#8 data
def sht4xCrc8 (data : List Byte) : Byte := sensirionCrc8 0xFF#8 data
def sgp4xCrc8 (data : List Byte) : Byte := sensirionCrc8 0xFF#8 data

/-! ## sblib/src/eib/propertiesSYSTEMB.cpp -/

/-- Inner loop body of `PropertiesSYSTEMB::crc16`, propertiesSYSTEMB.cpp:201-204. -/
def ccittBit (crc : Word) : Word :=
  if crc &&& 0x8000#16 ≠ 0#16 then (crc <<< 1) ^^^ 0x1021#16 else crc <<< 1

/-- `n` iterations of the inner loop (`i` counts down from 8, propertiesSYSTEMB.cpp:198-205). -/
def ccittBits : Nat → Word → Word
  | 0, crc => crc
  | n + 1, crc => ccittBits n (ccittBit crc)

/-- `PropertiesSYSTEMB::crc16`, propertiesSYSTEMB.cpp:188-208. -/
def systemBCrc16 (data : List Byte) : Word :=
  data.foldl (fun crc (b : Byte) => ccittBits 8 (crc ^^^ ((b.setWidth 16 : Word) <<< (8 : Nat)))) 0x1D0F#16

end Verif.Crc
