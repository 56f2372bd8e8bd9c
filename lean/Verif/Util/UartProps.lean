import Verif.Util.Uart
import Verif.Util.SerialProps

/-!
# C77: speed and format of the serial port, `flush` and `end`
-/

namespace Verif.Uart

open Verif

/-! ## Specification (UM10398 13.5.9, 13.5.15) -/

inductive Parity where
  | none | odd | even
  deriving DecidableEq

/-- The format selected by LCR: data bits, parity, stop bits. -/
def format (lcr : Byte) : Nat × Parity × Nat :=
  (5 + (lcr &&& 3#8).toNat,
   if lcr.getLsbD 3 = false then .none else if lcr.getLsbD 4 then .even else .odd,
   if lcr.getLsbD 2 then 2 else 1)

/-- The divisor latch. -/
def divisor (r : Regs) : Nat := 256 * r.dlm.toNat + r.dll.toNat

/-- `r` sends `num / den` bits per second with a clock of `pclk`: pclk / (16 divisor (1 + DIVADDVAL / MULVAL)). -/
def rateNum (pclk : Nat) (r : Regs) : Nat := pclk * (r.fdr >>> 4).toNat
def rateDen (r : Regs) : Nat := 16 * divisor r * ((r.fdr >>> 4).toNat + (r.fdr &&& 0x0f#8).toNat)

/-- The enumeration `SerialConfig` with the meaning of the names. -/
def configs : List (Byte × Nat × Parity × Nat) :=
  [(0x00#8, 5, .none, 1), (0x01#8, 6, .none, 1), (0x02#8, 7, .none, 1), (0x03#8, 8, .none, 1),
   (0x04#8, 5, .none, 2), (0x05#8, 6, .none, 2), (0x06#8, 7, .none, 2), (0x07#8, 8, .none, 2),
   (0x08#8, 5, .odd, 1), (0x09#8, 6, .odd, 1), (0x0a#8, 7, .odd, 1), (0x0b#8, 8, .odd, 1),
   (0x0c#8, 5, .odd, 2), (0x0d#8, 6, .odd, 2), (0x0e#8, 7, .odd, 2), (0x0f#8, 8, .odd, 2),
   (0x18#8, 5, .even, 1), (0x19#8, 6, .even, 1), (0x1a#8, 7, .even, 1), (0x1b#8, 8, .even, 1),
   (0x1c#8, 5, .even, 2), (0x1d#8, 6, .even, 2), (0x1e#8, 7, .even, 2), (0x1f#8, 8, .even, 2)]

/-! ## Theorems -/

/-- The divisor the code computes. -/
def codeDivisor (baud : U32) : U32 :=
  if baud = 460800#32 then 5#32 else if baud = 576000#32 then 3#32 else 3000000#32 / baud

/-- The fraction it selects: unchanged for all rates but two. -/
def codeFdr (fdr : Byte) (baud : U32) : Byte := if baud = 460800#32 then 0xa3#8 else if baud = 576000#32 then 0xfb#8 else fdr

theorem begin_eq (r : Regs) (baud : U32) (config : Byte) (hb : baud ≠ 0#32) (hc : config.getLsbD 7 = false) :
    begin 48000000#32 1#32 r baud config = some { r with
      clock := true, clkDiv := 1#32, lcr := config, fcr := 0x07#8, mcr := 0#8, enabled := true, fdr := codeFdr r.fdr baud,
      dlm := (codeDivisor baud / 256#32).setWidth 8, dll := (codeDivisor baud % 256#32).setWidth 8, ier := r.ier ||| 0x01#8 } := by
  have h7 : (0x80#8 ||| config).getLsbD 7 = true := by
    rw [BitVec.getLsbD_or]; rfl
  have hv : (48000000#32 * 1#32 / 1#32 / 16#32 : U32) = 3000000#32 := by decide
  unfold begin codeDivisor codeFdr
  simp only [if_neg hb, hv]
  by_cases h1 : baud = 460800#32
  · simp only [if_pos h1, Regs.writeDlm, Regs.writeDll, Regs.readIer, Regs.dlab, h7, hc, if_true, Bool.false_eq_true, if_false]
  · simp only [if_neg h1]
    by_cases h2 : baud = 576000#32
    · simp only [if_pos h2, Regs.writeDlm, Regs.writeDll, Regs.readIer, Regs.dlab, h7, hc, if_true, Bool.false_eq_true, if_false]
    · simp only [if_neg h2, Regs.writeDlm, Regs.writeDll, Regs.readIer, Regs.dlab, h7, hc, if_true, Bool.false_eq_true, if_false]

/-- Every format of the enumeration is the one its name says, and reception interrupts are enabled. -/
theorem C77_format (r : Regs) (baud : U32) (hb : baud ≠ 0#32) (c : Byte × Nat × Parity × Nat) (hc : c ∈ configs) :
    ∃ r', begin 48000000#32 1#32 r baud c.1 = some r' ∧ format r'.lcr = c.2 ∧ r'.ier.getLsbD 0 = true ∧ r'.thr = r.thr ∧ r'.enabled = true ∧ r'.clock = true := by
  have h : ∀ c ∈ configs, c.1.getLsbD 7 = false ∧ format c.1 = c.2 := by decide
  obtain ⟨h1, h2⟩ := h c hc
  refine ⟨_, begin_eq r baud c.1 hb h1, h2, ?_, rfl, rfl, rfl⟩
  show (r.ier ||| 0x01#8).getLsbD 0 = true
  rw [BitVec.getLsbD_or]
  simp

theorem split_divisor (v : U32) (h : v.toNat < 65536) :
    256 * ((v / 256#32).setWidth 8 : Byte).toNat + ((v % 256#32).setWidth 8 : Byte).toNat = v.toNat := by
  rw [BitVec.toNat_setWidth, BitVec.toNat_setWidth, BitVec.toNat_udiv, BitVec.toNat_umod]
  show 256 * (v.toNat / 256 % 256) + v.toNat % 256 % 256 = v.toNat
  omega

/-- At 48 MHz, with the fractional divider as after a reset, the rate is never below the one asked for, and above it by less than its part `1 / divisor`;
for rates up to 60000 less than 2 %. (Rates from 46 to 3000000 but the two special ones.) -/
theorem C77_rate_partial (r r' : Regs) (baud : U32) (config : Byte) (hf : r.fdr = 0x10#8) (hc : config.getLsbD 7 = false)
    (h1 : 46 ≤ baud.toNat) (h2 : baud.toNat ≤ 3000000) (h3 : baud.toNat ≠ 460800) (h4 : baud.toNat ≠ 576000)
    (h : begin 48000000#32 1#32 r baud config = some r') :
    1 ≤ divisor r' ∧
    baud.toNat * rateDen r' ≤ rateNum 48000000 r' ∧
    rateNum 48000000 r' * divisor r' < baud.toNat * (divisor r' + 1) * rateDen r' ∧
    (baud.toNat ≤ 60000 → rateNum 48000000 r' * 100 < baud.toNat * 102 * rateDen r') := by
  have hb : baud ≠ 0#32 := fun e => by rw [e] at h1; exact absurd h1 (by decide)
  have e1 : baud ≠ 460800#32 := fun e => h3 (by rw [e]; rfl)
  have e2 : baud ≠ 576000#32 := fun e => h4 (by rw [e]; rfl)
  rw [begin_eq r baud config hb hc] at h
  cases h
  have hd : codeDivisor baud = 3000000#32 / baud := by
    unfold codeDivisor
    rw [if_neg e1, if_neg e2]
  have hfd : codeFdr r.fdr baud = 0x10#8 := by
    unfold codeFdr
    rw [if_neg e1, if_neg e2, hf]
  have hv : (codeDivisor baud).toNat = 3000000 / baud.toNat := by
    rw [hd, BitVec.toNat_udiv]; rfl
  have hlt : (codeDivisor baud).toNat < 65536 := by
    rw [hv]
    exact Nat.lt_of_le_of_lt (Nat.div_le_div_left h1 (by decide)) (by decide)
  have hq : 3000000 = baud.toNat * (3000000 / baud.toNat) + 3000000 % baud.toNat := (Nat.div_add_mod _ _).symm
  have hm : 3000000 % baud.toNat < baud.toNat := Nat.mod_lt _ (by omega)
  have hpos : 1 ≤ 3000000 / baud.toNat := (Nat.le_div_iff_mul_le (by omega)).2 (by omega)
  have h50 : baud.toNat ≤ 60000 → 50 ≤ 3000000 / baud.toNat := fun q => (Nat.le_div_iff_mul_le (by omega)).2 (by omega)
  unfold rateNum rateDen divisor
  dsimp only
  rw [split_divisor _ hlt, hfd, hv]
  have e4 : (0x10#8 >>> 4 : Byte).toNat = 1 := by decide
  have e5 : (0x10#8 &&& 0x0f#8 : Byte).toNat = 0 := by decide
  rw [e4, e5]
  generalize 3000000 / baud.toNat = d at *
  generalize 3000000 % baud.toNat = m at *
  generalize baud.toNat = b at *
  have hbd : b * (16 * d * (1 + 0)) = 16 * (b * d) := by
    rw [Nat.add_zero, Nat.mul_one, Nat.mul_left_comm]
  refine ⟨hpos, ?_, ?_, ?_⟩
  · rw [hbd]; omega
  · have : b * (d + 1) * (16 * d * (1 + 0)) = 16 * ((b * d + b) * d) := by
      rw [Nat.mul_add, Nat.mul_one, Nat.add_zero, Nat.mul_one, Nat.mul_left_comm]
    rw [this, Nat.mul_one, ← Nat.mul_assoc]
    exact Nat.mul_lt_mul_of_pos_right (by omega) (by omega)
  · intro hb6
    have h5 := h50 hb6
    have : b * 50 ≤ b * d := Nat.mul_le_mul_left _ h5
    have e6 : b * 102 * (16 * d * (1 + 0)) = 1632 * (b * d) := by
      rw [Nat.add_zero, Nat.mul_one, Nat.mul_assoc, Nat.mul_left_comm b, show 102 * (b * (16 * d)) = 102 * (16 * (b * d)) by rw [Nat.mul_left_comm b]]
      omega
    rw [e6]
    omega

/-- The two special rates are right within 0.2 %, whatever was set before. -/
theorem C77_fast_rates (r r' : Regs) (baud : U32) (config : Byte) (hc : config.getLsbD 7 = false) (hb : baud = 460800#32 ∨ baud = 576000#32)
    (h : begin 48000000#32 1#32 r baud config = some r') :
    baud.toNat * rateDen r' ≤ rateNum 48000000 r' ∧ rateNum 48000000 r' * 1000 < baud.toNat * 1002 * rateDen r' := by
  have hb0 : baud ≠ 0#32 := by rcases hb with e | e <;> rw [e] <;> decide
  rw [begin_eq r baud config hb0 hc] at h
  cases h
  unfold rateNum rateDen divisor
  rcases hb with e | e <;> subst e <;> dsimp only
  · have : codeFdr r.fdr 460800#32 = 0xa3#8 := rfl
    rw [this]; decide
  · have : codeFdr r.fdr 576000#32 = 0xfb#8 := rfl
    rw [this]; decide

/-- After one of these rates the fraction is kept: every other rate is then too low by the factor 10/13 or 15/26. -/
theorem C77_fraction_kept (r r1 r2 : Regs) (b1 b2 : U32) (c1 c2 : Byte) (hc1 : c1.getLsbD 7 = false) (hc2 : c2.getLsbD 7 = false)
    (hb1 : b1 = 460800#32 ∨ b1 = 576000#32) (h1 : 46 ≤ b2.toNat) (h2 : b2.toNat ≤ 230400)
    (g1 : begin 48000000#32 1#32 r b1 c1 = some r1) (g2 : begin 48000000#32 1#32 r1 b2 c2 = some r2) :
    rateNum 48000000 r2 * 100 < b2.toNat * 84 * rateDen r2 := by
  have hb0 : b1 ≠ 0#32 := by rcases hb1 with e | e <;> rw [e] <;> decide
  have hb : b2 ≠ 0#32 := fun e => by rw [e] at h1; exact absurd h1 (by decide)
  have e1 : b2 ≠ 460800#32 := fun e => by rw [e] at h2; exact absurd h2 (by decide)
  have e2 : b2 ≠ 576000#32 := fun e => by rw [e] at h2; exact absurd h2 (by decide)
  rw [begin_eq r b1 c1 hb0 hc1] at g1
  cases g1
  rw [begin_eq _ b2 c2 hb hc2] at g2
  cases g2
  have hd : codeDivisor b2 = 3000000#32 / b2 := by
    unfold codeDivisor
    rw [if_neg e1, if_neg e2]
  have hv : (codeDivisor b2).toNat = 3000000 / b2.toNat := by
    rw [hd, BitVec.toNat_udiv]; rfl
  have hlt : (codeDivisor b2).toNat < 65536 := by
    rw [hv]
    exact Nat.lt_of_le_of_lt (Nat.div_le_div_left h1 (by decide)) (by decide)
  have hq : 3000000 = b2.toNat * (3000000 / b2.toNat) + 3000000 % b2.toNat := (Nat.div_add_mod _ _).symm
  have hm : 3000000 % b2.toNat < b2.toNat := Nat.mod_lt _ (by omega)
  have h13 : 13 ≤ 3000000 / b2.toNat := (Nat.le_div_iff_mul_le (by omega)).2 (by omega)
  unfold rateNum rateDen divisor
  dsimp only
  rw [split_divisor _ hlt, hv]
  have hfd : codeFdr (codeFdr r.fdr b1) b2 = codeFdr r.fdr b1 := by
    unfold codeFdr
    rw [if_neg e1, if_neg e2]
  rw [hfd]
  have hfc : codeFdr r.fdr b1 = 0xa3#8 ∨ codeFdr r.fdr b1 = 0xfb#8 := by
    unfold codeFdr
    rcases hb1 with e | e <;> subst e
    · left; rfl
    · right; rfl
  generalize 3000000 / b2.toNat = d at *
  generalize 3000000 % b2.toNat = m at *
  generalize b2.toNat = b at *
  have h7 : b * 13 ≤ b * d := Nat.mul_le_mul_left _ h13
  rcases hfc with e | e
  · rw [e]
    have x1 : (0xa3#8 >>> 4 : Byte).toNat = 10 := by decide
    have x2 : (0xa3#8 &&& 0x0f#8 : Byte).toNat = 3 := by decide
    rw [x1, x2]
    have : b * 84 * (16 * d * (10 + 3)) = 17472 * (b * d) := by
      rw [show 16 * d * (10 + 3) = 208 * d by omega, Nat.mul_assoc, Nat.mul_left_comm b, show 84 * (b * (208 * d)) = 84 * (208 * (b * d)) by rw [Nat.mul_left_comm b]]
      omega
    rw [this]; omega
  · rw [e]
    have x1 : (0xfb#8 >>> 4 : Byte).toNat = 15 := by decide
    have x2 : (0xfb#8 &&& 0x0f#8 : Byte).toNat = 11 := by decide
    rw [x1, x2]
    have : b * 84 * (16 * d * (15 + 11)) = 34944 * (b * d) := by
      rw [show 16 * d * (15 + 11) = 416 * d by omega, Nat.mul_assoc, Nat.mul_left_comm b, show 84 * (b * (416 * d)) = 84 * (416 * (b * d)) by rw [Nat.mul_left_comm b]]
      omega
    rw [this]; omega

/-! ## flush and end -/

/-- When `flush` returns, all bytes written have been taken by the UART in order; all but at most one have begun to be sent. -/
theorem C77_flush_partial (rb wb : Nat → Byte) (es : List Serial.Ev) (hidle : (Serial.run es (Serial.init rb wb)).1.pc = .idle)
    (hf : flushReturns (Serial.run es (Serial.init rb wb)).1) :
    Serial.wireOf (Serial.run es (Serial.init rb wb)).2 ++ (Serial.run es (Serial.init rb wb)).1.thr.toList = Serial.calledOf es (Serial.init rb wb) := by
  obtain ⟨a, b⟩ := Serial.run_tx es _ (Serial.init_tx rb wb).1
  rw [(Serial.init_tx rb wb).2, List.nil_append] at b
  rw [← b]
  unfold Serial.backlog Serial.txQueue
  rw [hidle, show (Serial.run es (Serial.init rb wb)).1.writeHead = (Serial.run es (Serial.init rb wb)).1.writeTail from hf, Serial.ring_empty _ _ a.h2]
  simp [Serial.pendingTx]

/-- The last byte: written, `flush` returns at once, and it is not yet sent; `end` then stops the UART. -/
theorem C77_flush_early (rb wb : Nat → Byte) (b : Byte) :
    let r := Serial.run [.callWrite b, .main, .main, .main] (Serial.init rb wb)
    r.2 = [.wrote] ∧ r.1.pc = .idle ∧ flushReturns r.1 ∧ Serial.wireOf r.2 = [] ∧ r.1.thr = some b := by
  refine ⟨rfl, rfl, rfl, rfl, rfl⟩

/-! ## The hypotheses can be met -/

/-- After a reset of the processor. -/
def afterReset : Regs := ⟨1#8, 0#8, 0#8, [], 0#8, 0x10#8, 0#8, 0#8, false, 0#32, false⟩

example : ∃ r, begin 48000000#32 1#32 afterReset 19200#32 0x03#8 = some r ∧ divisor r = 156 ∧ format r.lcr = (8, .none, 1) ∧ r.fdr = 0x10#8 :=
  ⟨_, begin_eq _ _ _ (by decide) (by decide), by decide, by decide, by decide⟩

/-- 460800 and then 115200: 88757 instead. -/
example : ∃ r1 r2, begin 48000000#32 1#32 afterReset 460800#32 0x03#8 = some r1 ∧ begin 48000000#32 1#32 r1 115200#32 0x03#8 = some r2 ∧
    rateNum 48000000 r2 / rateDen r2 = 88757 :=
  ⟨_, _, begin_eq _ _ _ (by decide) (by decide), begin_eq _ _ _ (by decide) (by decide), by decide⟩

/-- Above 3 Mbit/s the divisor is 0. -/
example : ∃ r, begin 48000000#32 1#32 afterReset 4000000#32 0x03#8 = some r ∧ divisor r = 0 :=
  ⟨_, begin_eq _ _ _ (by decide) (by decide), by decide⟩

/-- At 300 bit/s the divisor needs both bytes. -/
example : ∃ r, begin 48000000#32 1#32 afterReset 300#32 0x03#8 = some r ∧ r.dlm = 39#8 ∧ r.dll = 16#8 :=
  ⟨_, begin_eq _ _ _ (by decide) (by decide), by decide, by decide⟩

end Verif.Uart
