import Verif.Crc.Lemmas

/-!
# C43 (CRC-32 of the bootloader) and C47 (CRCs of 1-Wire and I2C sensors)
-/

namespace Verif.Crc
open Spec

/-- **C43.** For every start value and every byte string the bootloader's branch-free `crc32`
is the standard reflected CRC-32 (polynomial 0x04C11DB7, reflected 0xEDB88320, output inverted):
bit-serial register over the message bits, least significant bit of each byte first. -/
theorem C43_crc32_is_standard (start : U32) (data : List Byte) :
    crc32 start data = ~~~ crcR 0xEDB88320#32 start data := by
  rw [crc32, crc32_fold]

/-- Non-vacuity: the standard check value of CRC-32/ISO-HDLC for "123456789". -/
example : crc32 0xFFFFFFFF#32 [0x31#8, 0x32#8, 0x33#8, 0x34#8, 0x35#8, 0x36#8, 0x37#8, 0x38#8, 0x39#8]
    = 0xCBF43926#32 := by decide +kernel

/-- **C43.** Any change confined to four consecutive bytes (every burst of up to 32 bits that is
byte aligned, in particular every single-byte and single-bit error) changes the checksum,
for messages of any length. -/
theorem C43_crc32_detects_bursts (start : U32) (a b : List Byte) (h : DifferInWindow 4 a b) :
    crc32 start a ≠ crc32 start b := by
  rw [C43_crc32_is_standard, C43_crc32_is_standard]
  intro heq
  exact crcR_burst (by decide) _ (by decide) start 4 (by decide) a b h (BitVec.not_inj.mp heq)

/-- Non-vacuity: a one-byte corruption in the middle of a message is such a change. -/
example : DifferInWindow 4 [1#8, 2#8, 3#8, 4#8, 5#8] [1#8, 2#8, 7#8, 4#8, 5#8] :=
  ⟨[1#8, 2#8], [3#8], [7#8], [4#8, 5#8], rfl, rfl, rfl, by decide, by decide⟩

/-- **C43.** Every burst of at most 32 consecutive *bits* at any bit offset is detected. -/
theorem C43_crc32_detects_bit_bursts (start : U32) (a b : List Byte) (hlen : a.length = b.length)
    (pre wa wb post : List Bool)
    (ha : a.flatMap bitsLsb = pre ++ wa ++ post) (hb : b.flatMap bitsLsb = pre ++ wb ++ post)
    (hw : wa.length ≤ 32) (hne : wa ≠ wb) : crc32 start a ≠ crc32 start b := by
  rw [C43_crc32_is_standard, C43_crc32_is_standard]
  intro heq
  have heq := BitVec.not_inj.mp heq
  simp only [crcR, ha, hb, runR_append] at heq
  have hg : (0xEDB88320#32).getMsbD 0 = true := by decide
  have h1 := runR_inj_state (by decide) _ hg _ _ _ heq
  have hl : wa.length = wb.length := by
    have e1 := flatMap_length8 _ bitsLsb_length a
    have e2 := flatMap_length8 _ bitsLsb_length b
    rw [ha] at e1; rw [hb] at e2
    simp only [List.length_append] at e1 e2
    omega
  exact hne (runR_inj_bits (by decide) _ hg _ _ _ hl hw h1)

/-- Non-vacuity: a burst that straddles a byte boundary. -/
example : ([0x80#8, 0x01#8].flatMap bitsLsb
      = List.replicate 7 false ++ [true, true] ++ List.replicate 7 false) ∧
    ([0x00#8, 0x00#8].flatMap bitsLsb
      = List.replicate 7 false ++ [false, false] ++ List.replicate 7 false) := by decide

/-- **C43.** The checksum may be computed in pieces: continuing from the (re-inverted) checksum of
the first piece gives the checksum of the whole. -/
theorem C43_crc32_pieces (start : U32) (a b : List Byte) :
    crc32 (~~~ crc32 start a) b = crc32 start (a ++ b) := by
  simp [crc32]

example : crc32 (~~~ crc32 0xFFFFFFFF#32 [1#8, 2#8]) [3#8] = crc32 0xFFFFFFFF#32 [1#8, 2#8, 3#8] := by
  decide +kernel

/-! ## C47 -/

/-- **C47.** The 1-Wire CRC-8 is the reflected CRC with x^8+x^5+x^4+1 (0x8C), start value 0. -/
theorem C47_onewire_crc8_standard (data : List Byte) : oneWireCRC8 data = crcR 0x8C#8 0#8 data :=
  dallas_fold data

/-- Non-vacuity: the Maxim application note 27 example ROM 02 1C B8 01 00 00 00 has CRC A2. -/
example : oneWireCRC8 [0x02#8, 0x1C#8, 0xB8#8, 0x01#8, 0x00#8, 0x00#8, 0x00#8] = 0xA2#8 := by
  decide +kernel

/-- **C47.** The table-driven CRC-8 of the I2C bridge equals the bit-serial one, for all inputs. -/
theorem C47_crc8_table_agrees (data : List Byte) : ds2482Crc8 data = oneWireCRC8 data := by
  rw [dallas_fold, ds2482_fold]

example : ds2482Crc8 [0x02#8, 0x1C#8, 0xB8#8, 0x01#8, 0x00#8, 0x00#8, 0x00#8] = 0xA2#8 := by
  decide +kernel

/-- **C47.** Every corruption of a single byte changes the 1-Wire CRC-8. -/
theorem C47_onewire_crc8_detects (a b : List Byte) (h : DifferInWindow 1 a b) :
    oneWireCRC8 a ≠ oneWireCRC8 b := by
  rw [dallas_fold, dallas_fold]
  exact crcR_burst (by decide) _ (by decide) _ 1 (by decide) a b h

example : DifferInWindow 1 [1#8, 2#8, 3#8] [1#8, 0x82#8, 3#8] :=
  ⟨[1#8], [2#8], [0x82#8], [3#8], rfl, rfl, rfl, by decide, by decide⟩

/-- **C47.** A transmission (payload followed by its CRC byte) corrupted in exactly one byte - be it
payload or the CRC byte itself - never looks valid. `payload ++ [crc]` is what the device sends,
`rx ++ [rxCrc]` what is received. -/
theorem C47_onewire_rom_single_byte_error_rejected (payload rx : List Byte) (rxCrc : Byte)
    (h : DifferInWindow 1 (payload ++ [oneWireCRC8 payload]) (rx ++ [rxCrc])) :
    oneWireCRC8 rx ≠ rxCrc := by
  intro hc
  apply C47_onewire_crc8_detects _ _ h
  have clear : ∀ l : List Byte, oneWireCRC8 (l ++ [oneWireCRC8 l]) = 0#8 := by
    intro l
    rw [dallas_fold, dallas_fold]
    simp only [crcR, List.flatMap_append, runR_append, List.flatMap_cons, List.flatMap_nil,
      List.append_nil]
    exact crcR8_self _
  subst hc
  rw [clear, clear]

example : DifferInWindow 1 ([0x28#8, 0x01#8] ++ [oneWireCRC8 [0x28#8, 0x01#8]])
    ([0x28#8, 0x03#8] ++ [oneWireCRC8 [0x28#8, 0x01#8]]) :=
  ⟨[0x28#8], [0x01#8], [0x03#8], [oneWireCRC8 [0x28#8, 0x01#8]], rfl, rfl, rfl, by decide, by decide⟩

/-- **C47.** The 1-Wire CRC-16 (nibble-parity trick) is the reflected CRC-16 with x^16+x^15+x^2+1. -/
theorem C47_onewire_crc16_standard (data : List Byte) (start : Word) :
    oneWireCRC16 data start = crcR 0xA001#16 start data := crc16_fold start data

/-- Non-vacuity: CRC-16/ARC check value. -/
example : oneWireCRC16 [0x31#8, 0x32#8, 0x33#8, 0x34#8, 0x35#8, 0x36#8, 0x37#8, 0x38#8, 0x39#8] 0#16
    = 0xBB3D#16 := by decide +kernel

/-- **C47.** `OneWireCheckCRC16` accepts exactly the inverted CRC, low byte first. -/
theorem C47_onewire_check_crc16_iff (data : List Byte) (start : Word) (lo hi : Byte) :
    oneWireCheckCRC16 data lo hi start = true ↔
      hi ++ lo = ~~~ crcR 0xA001#16 start data := by
  unfold oneWireCheckCRC16
  rw [crc16_fold]
  generalize ~~~ crcR 0xA001#16 start data = c
  simp only [Bool.and_eq_true, beq_iff_eq]
  constructor
  · rintro ⟨h1, h2⟩
    apply BitVec.eq_of_toNat_eq
    have h1 := congrArg BitVec.toNat h1
    have h2 := congrArg BitVec.toNat h2
    have hl := lo.isLt
    have hh := hi.isLt
    have hc := c.isLt
    rw [low_eq16] at h1
    simp only [BitVec.toNat_setWidth, BitVec.toNat_ushiftRight, Nat.shiftRight_eq_div_pow] at h1 h2
    rw [BitVec.toNat_append, Nat.shiftLeft_eq, Nat.or_comm]
    rw [show hi.toNat * 2 ^ 8 = 2 ^ 8 * hi.toNat by omega]
    rw [Nat.or_comm, ← Nat.two_pow_add_eq_or_of_lt hl]
    omega
  · intro h
    subst h
    refine ⟨?_, ?_⟩
    · apply BitVec.eq_of_toNat_eq
      have hl := lo.isLt
      have hh := hi.isLt
      rw [low_eq16]
      simp only [BitVec.toNat_setWidth, BitVec.toNat_append, Nat.shiftLeft_eq]
      rw [show hi.toNat * 2 ^ 8 = 2 ^ 8 * hi.toNat by omega, ← Nat.two_pow_add_eq_or_of_lt hl]
      omega
    · apply BitVec.eq_of_toNat_eq
      have hl := lo.isLt
      have hh := hi.isLt
      simp only [BitVec.toNat_setWidth, BitVec.toNat_ushiftRight, BitVec.toNat_append,
        Nat.shiftLeft_eq, Nat.shiftRight_eq_div_pow]
      rw [show hi.toNat * 2 ^ 8 = 2 ^ 8 * hi.toNat by omega, ← Nat.two_pow_add_eq_or_of_lt hl]
      omega

example : oneWireCheckCRC16 [0xF0#8, 0x11#8, 0x22#8] ((~~~ oneWireCRC16 [0xF0#8, 0x11#8, 0x22#8] 0#16).setWidth 8)
      ((~~~ oneWireCRC16 [0xF0#8, 0x11#8, 0x22#8] 0#16 >>> 8).setWidth 8) 0#16 = true := by decide +kernel

/-- **C47.** Every corruption within two consecutive bytes changes the 1-Wire CRC-16. -/
theorem C47_onewire_crc16_detects (start : Word) (a b : List Byte) (h : DifferInWindow 2 a b) :
    oneWireCRC16 a start ≠ oneWireCRC16 b start := by
  rw [crc16_fold, crc16_fold]
  exact crcR_burst (by decide) _ (by decide) _ 2 (by decide) a b h

example : DifferInWindow 2 [1#8, 2#8, 3#8] [1#8, 4#8, 5#8] :=
  ⟨[1#8], [2#8, 3#8], [4#8, 5#8], [], rfl, rfl, rfl, by decide, by decide⟩

/-- **C47.** The Sensirion sensors' CRC-8 is the plain CRC x^8+x^5+x^4+1 (0x31) with start value
0x00 (SHT2x) respectively 0xFF (SHT4x, SGP4x). -/
theorem C47_sensirion_crc8_standard (data : List Byte) :
    sht2xCrc8 data = crcL 0x31#8 0x00#8 data ∧ sht4xCrc8 data = crcL 0x31#8 0xFF#8 data ∧
    sgp4xCrc8 data = crcL 0x31#8 0xFF#8 data :=
  ⟨sensirion_fold _ _, sensirion_fold _ _, sensirion_fold _ _⟩

/-- Non-vacuity: data sheet example values (SHT4x: 0xBEEF → 0x92; SHT2x: 0x683A → 0x7C). -/
example : sht4xCrc8 [0xBE#8, 0xEF#8] = 0x92#8 ∧ sht2xCrc8 [0x68#8, 0x3A#8] = 0x7C#8 := by
  decide +kernel

/-- **C47.** A sensor word (two bytes followed by its CRC) with exactly one corrupted byte, payload or
CRC, is never accepted - for either start value. -/
theorem C47_sensirion_word_single_byte_error_rejected (init : Byte) (payload rx : List Byte)
    (rxCrc : Byte)
    (h : DifferInWindow 1 (payload ++ [sensirionCrc8 init payload]) (rx ++ [rxCrc])) :
    sensirionCrc8 init rx ≠ rxCrc := by
  intro hc
  have clear : ∀ l : List Byte, crcL 0x31#8 init (l ++ [sensirionCrc8 init l]) = 0#8 := by
    intro l
    rw [sensirion_fold]
    simp only [crcL, List.flatMap_append, runL_append, List.flatMap_cons, List.flatMap_nil,
      List.append_nil]
    exact runL8_self _
  subst hc
  exact crcL_burst (by decide) 0x31#8 (by decide) init 1 (by decide) _ _ h
    (by rw [clear, clear])

example : DifferInWindow 1 ([0xBE#8, 0xEF#8] ++ [sensirionCrc8 0xFF#8 [0xBE#8, 0xEF#8]])
    ([0xBE#8, 0xEE#8] ++ [sensirionCrc8 0xFF#8 [0xBE#8, 0xEF#8]]) :=
  ⟨[0xBE#8], [0xEF#8], [0xEE#8], [sensirionCrc8 0xFF#8 [0xBE#8, 0xEF#8]], rfl, rfl, rfl,
    by decide, by decide⟩

/-- **C47.** The System-B load-control CRC is CRC-16/AUG-CCITT (x^16+x^12+x^5+1, start 0x1D0F), and
detects every corruption within two consecutive bytes. -/
theorem C47_systemb_crc16_standard (data : List Byte) :
    systemBCrc16 data = crcL 0x1021#16 0x1D0F#16 data := ccitt_fold data

/-- Non-vacuity: CRC-16/SPI-FUJITSU (AUG-CCITT) check value. -/
example : systemBCrc16 [0x31#8, 0x32#8, 0x33#8, 0x34#8, 0x35#8, 0x36#8, 0x37#8, 0x38#8, 0x39#8]
    = 0xE5CC#16 := by decide +kernel

theorem C47_systemb_crc16_detects (a b : List Byte) (h : DifferInWindow 2 a b) :
    systemBCrc16 a ≠ systemBCrc16 b := by
  rw [ccitt_fold, ccitt_fold]
  exact crcL_burst (by decide) _ (by decide) _ 2 (by decide) a b h

example : DifferInWindow 2 [1#8, 2#8, 3#8, 4#8] [1#8, 2#8, 0#8, 4#8] :=
  ⟨[1#8, 2#8], [3#8], [0#8], [4#8], rfl, rfl, rfl, by decide, by decide⟩

end Verif.Crc
