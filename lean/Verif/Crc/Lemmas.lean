import Verif.Crc.Model
import Verif.Crc.Spec

namespace Verif.Crc
open Spec

/-! ## Linear algebra of the right-shifting register -/

/-- Autonomous clock (message bit 0). -/
def auto {w : Nat} (g s : BitVec w) : BitVec w := clockR g s false

def autoN {w : Nat} (g : BitVec w) : Nat → BitVec w → BitVec w
  | 0, s => s
  | n + 1, s => autoN g n (auto g s)

theorem auto_xor {w : Nat} (g a b : BitVec w) : auto g (a ^^^ b) = auto g a ^^^ auto g b := by
  unfold auto clockR
  ext i hi
  cases ha : a.getLsbD 0 <;> cases hb : b.getLsbD 0 <;>
    simp [ha, hb, Bool.xor_left_comm] <;>
    cases g[i] <;> cases a.getLsbD (1 + i) <;> cases b.getLsbD (1 + i) <;> rfl

theorem autoN_xor {w : Nat} (g : BitVec w) (n : Nat) (a b : BitVec w) :
    autoN g n (a ^^^ b) = autoN g n a ^^^ autoN g n b := by
  induction n generalizing a b with
  | zero => rfl
  | succ n ih => simp [autoN, auto_xor, ih]

theorem auto_even {w : Nat} (g a : BitVec w) (h : a.getLsbD 0 = false) : auto g a = a >>> 1 := by
  simp [auto, clockR, h]

theorem autoN_shift {w : Nat} (g : BitVec w) (n : Nat) (a : BitVec w)
    (h : ∀ i < n, a.getLsbD i = false) : autoN g n a = a >>> n := by
  induction n generalizing a with
  | zero => simp [autoN]
  | succ n ih =>
    have h0 := h 0 (by omega)
    rw [autoN, auto_even g a h0, ih]
    · rw [BitVec.shiftRight_add a 1 n |>.symm, Nat.add_comm]
    · intro i hi
      simpa [BitVec.getLsbD_ushiftRight, Nat.add_comm] using h (i + 1) (by omega)

/-- If the top bit of the feedback polynomial is set the autonomous clock is injective. -/
theorem auto_inj {w : Nat} (g a b : BitVec w) (hg : g.getMsbD 0 = true)
    (h : auto g a = auto g b) : a = b := by
  by_cases hw : w = 0
  · subst hw; apply BitVec.eq_of_getLsbD_eq; intro i hi; omega
  have hgl : g.getLsbD (w - 1) = true := by
    rw [BitVec.getMsbD] at hg; simp at hg; exact hg.2
  have htop : ∀ x : BitVec w, (auto g x).getLsbD (w - 1) = x.getLsbD 0 := by
    intro x
    unfold auto clockR
    have : x.getLsbD (1 + (w - 1)) = false := BitVec.getLsbD_of_ge _ _ (by omega)
    cases hx : x.getLsbD 0 <;> simp [this, hgl]
  have h0 : a.getLsbD 0 = b.getLsbD 0 := by rw [← htop a, ← htop b, h]
  have hs : a >>> 1 = b >>> 1 := by
    unfold auto clockR at h
    rw [h0] at h
    split at h
    · exact (BitVec.xor_left_inj g).mp h
    · exact h
  apply BitVec.eq_of_getLsbD_eq
  intro i hi
  cases i with
  | zero => exact h0
  | succ i =>
    have := congrArg (fun x => x.getLsbD i) hs
    simpa [BitVec.getLsbD_ushiftRight, Nat.add_comm] using this

theorem autoN_inj {w : Nat} (g : BitVec w) (hg : g.getMsbD 0 = true) (n : Nat) (a b : BitVec w)
    (h : autoN g n a = autoN g n b) : a = b := by
  induction n generalizing a b with
  | zero => exact h
  | succ n ih => exact auto_inj g a b hg (ih _ _ h)

/-- Bits placed at the bottom of a register, first bit at position 0. -/
def pack (w : Nat) : List Bool → BitVec w
  | [] => 0
  | b :: bs => (if b then 1#w else 0#w) ^^^ ((pack w bs) <<< 1)

theorem pack_getLsbD (w : Nat) (bits : List Bool) (i : Nat) (hi : i < w) :
    (pack w bits).getLsbD i = (bits[i]?).getD false := by
  induction bits generalizing i with
  | nil => simp [pack]
  | cons b bs ih =>
    cases i with
    | zero => cases b <;> simp [pack, hi]
    | succ i =>
      have := ih i (by omega)
      rw [BitVec.getLsbD_eq_getElem (by omega)] at this
      cases b <;> simp [pack, hi, this]

theorem clockR_eq_auto {w : Nat} (hw : 0 < w) (g s : BitVec w) (b : Bool) :
    clockR g s b = auto g (s ^^^ (if b then 1#w else 0#w)) := by
  have hone : (1#w) >>> 1 = 0#w := by
    ext i hi; simp [BitVec.getLsbD_one]
  cases b
  · simp [auto]
  · rw [auto, clockR, clockR]
    have h1 : (1#w).getLsbD 0 = true := by simp [hw]
    simp [h1, BitVec.ushiftRight_xor_distrib, hone]

/-- Feeding at most `w` bits is the same as adding them to the register and clocking. -/
theorem runR_eq_autoN {w : Nat} (hw : 0 < w) (g s : BitVec w) (bits : List Bool)
    (hl : bits.length ≤ w) : runR g s bits = autoN g bits.length (s ^^^ pack w bits) := by
  induction bits generalizing s with
  | nil => simp [runR, autoN, pack]
  | cons b bs ih =>
    have hl' : bs.length < w := by rw [List.length_cons] at hl; omega
    have ih' := ih (clockR g s b) (by omega)
    have hstep : runR g s (b :: bs) = runR g (clockR g s b) bs := rfl
    rw [hstep, ih', List.length_cons, autoN]
    congr 1
    rw [clockR_eq_auto hw, pack, ← BitVec.xor_assoc, auto_xor g _ (pack w bs <<< 1)]
    congr 1
    rw [auto_even]
    · apply BitVec.eq_of_getLsbD_eq
      intro i hi
      by_cases hlt : i + 1 < w
      · simp [BitVec.getLsbD_ushiftRight, Nat.add_comm 1 i, hlt, BitVec.getLsbD_eq_getElem hi]
      · have : i = w - 1 := by omega
        have hb : bs[i]? = none := by apply List.getElem?_eq_none; omega
        simp [BitVec.getLsbD_ushiftRight, Nat.add_comm 1 i, hlt, pack_getLsbD w bs i hi, hb]
    · simp

theorem runR_append {w : Nat} (g s : BitVec w) (a b : List Bool) :
    runR g s (a ++ b) = runR g (runR g s a) b := by simp [runR]

theorem runR_inj_state {w : Nat} (hw : 0 < w) (g : BitVec w) (hg : g.getMsbD 0 = true)
    (s t : BitVec w) (bits : List Bool) (h : runR g s bits = runR g t bits) : s = t := by
  induction bits generalizing s t with
  | nil => exact h
  | cons b bs ih =>
    have := ih (clockR g s b) (clockR g t b) h
    rw [clockR_eq_auto hw, clockR_eq_auto hw] at this
    have := auto_inj g _ _ hg this
    exact (BitVec.xor_left_inj _).mp this

theorem runR_inj_bits {w : Nat} (hw : 0 < w) (g : BitVec w) (hg : g.getMsbD 0 = true)
    (s : BitVec w) (a b : List Bool) (hlen : a.length = b.length) (hle : a.length ≤ w)
    (h : runR g s a = runR g s b) : a = b := by
  rw [runR_eq_autoN hw g s a hle, runR_eq_autoN hw g s b (hlen ▸ hle), ← hlen] at h
  have h1 := autoN_inj g hg _ _ _ h
  have h2 : pack w a = pack w b := (BitVec.xor_right_inj s).mp h1
  apply List.ext_getElem hlen
  intro i hi hi'
  have := congrArg (fun x => x.getLsbD i) h2
  rw [pack_getLsbD w a i (by omega), pack_getLsbD w b i (by omega)] at this
  simpa [hi, hi'] using this

/-! ## Mirror image: the left-shifting register -/

theorem clockL_reverse {w : Nat} (g s : BitVec w) (b : Bool) :
    (clockL g s b).reverse = clockR g.reverse s.reverse b := by
  unfold clockL clockR
  have h0 : s.reverse.getLsbD 0 = s.getMsbD 0 := by simp [BitVec.getLsbD_reverse]
  have hsh : (s <<< 1).reverse = s.reverse >>> 1 := by
    ext i hi
    simp [BitVec.getLsbD_reverse, BitVec.getElem_reverse, BitVec.getMsbD_shiftLeft, Nat.add_comm]
  have hx : ∀ a b : BitVec w, (a ^^^ b).reverse = a.reverse ^^^ b.reverse := by
    intro a b
    ext i hi
    simp [BitVec.getElem_reverse]
  rw [h0]
  split <;> simp [hsh, hx]

theorem runL_reverse {w : Nat} (g s : BitVec w) (bits : List Bool) :
    (runL g s bits).reverse = runR g.reverse s.reverse bits := by
  induction bits generalizing s with
  | nil => rfl
  | cons b bs ih =>
    show (runL g (clockL g s b) bs).reverse = runR _ (clockR g.reverse s.reverse b) bs
    rw [ih, clockL_reverse]

theorem reverse_inj {w : Nat} (a b : BitVec w) (h : a.reverse = b.reverse) : a = b := by
  have := congrArg BitVec.reverse h
  simpa using this

theorem runL_append {w : Nat} (g s : BitVec w) (a b : List Bool) :
    runL g s (a ++ b) = runL g (runL g s a) b := by simp [runL]

/-! ## Byte strings -/

theorem bitsLsb_length (b : Byte) : (bitsLsb b).length = 8 := by simp [bitsLsb]
theorem bitsMsb_length (b : Byte) : (bitsMsb b).length = 8 := by simp [bitsMsb]

theorem flatMap_length8 (f : Byte → List Bool) (hf : ∀ b, (f b).length = 8) (l : List Byte) :
    (l.flatMap f).length = 8 * l.length := by
  induction l with
  | nil => rfl
  | cons b bs ih => simp [hf, ih]; omega

theorem bitsLsb_inj (a b : Byte) (h : bitsLsb a = bitsLsb b) : a = b := by
  apply BitVec.eq_of_getLsbD_eq
  intro i hi
  have := congrArg (fun l => l[i]?) h
  simpa [bitsLsb, hi] using this

theorem bitsMsb_inj (a b : Byte) (h : bitsMsb a = bitsMsb b) : a = b := by
  apply BitVec.eq_of_getLsbD_eq
  intro i hi
  have := congrArg (fun l => l[7 - i]?) h
  simp [bitsMsb, show 7 - i < 8 by omega] at this
  rwa [show 7 - (7 - i) = i by omega] at this

theorem flatMap_inj8 (f : Byte → List Bool) (hf : ∀ b, (f b).length = 8)
    (hinj : ∀ a b, f a = f b → a = b) (a b : List Byte) (hl : a.length = b.length)
    (h : a.flatMap f = b.flatMap f) : a = b := by
  induction a generalizing b with
  | nil => cases b with
    | nil => rfl
    | cons _ _ => simp at hl
  | cons x xs ih => cases b with
    | nil => simp at hl
    | cons y ys =>
      simp only [List.flatMap_cons] at h
      have := List.append_inj h (by simp [hf])
      rw [hinj x y this.1, ih ys (by simpa using hl) this.2]

/-- Generic burst detection, LSB-first. -/
theorem crcR_burst {w : Nat} (hw : 0 < w) (g : BitVec w) (hg : g.getMsbD 0 = true)
    (init : BitVec w) (k : Nat) (hk : 8 * k ≤ w) (a b : List Byte)
    (h : DifferInWindow k a b) : crcR g init a ≠ crcR g init b := by
  obtain ⟨pre, wa, wb, post, rfl, rfl, hl, hle, hne⟩ := h
  intro heq
  apply hne
  simp only [crcR, List.flatMap_append, runR_append] at heq
  have h1 := runR_inj_state hw g hg _ _ _ heq
  have h2 := runR_inj_bits hw g hg _ _ _
    (by simp [flatMap_length8 _ bitsLsb_length, hl])
    (by rw [flatMap_length8 _ bitsLsb_length]; omega) h1
  exact flatMap_inj8 _ bitsLsb_length bitsLsb_inj _ _ hl h2

/-- Generic burst detection, MSB-first. -/
theorem crcL_burst {w : Nat} (hw : 0 < w) (g : BitVec w) (hg : g.getLsbD 0 = true)
    (init : BitVec w) (k : Nat) (hk : 8 * k ≤ w) (a b : List Byte)
    (h : DifferInWindow k a b) : crcL g init a ≠ crcL g init b := by
  obtain ⟨pre, wa, wb, post, rfl, rfl, hl, hle, hne⟩ := h
  intro heq
  apply hne
  have hg' : g.reverse.getMsbD 0 = true := by simp [BitVec.getMsbD_reverse, hg]
  have heq := congrArg BitVec.reverse heq
  simp only [crcL, runL_reverse, List.flatMap_append, runR_append] at heq
  have h1 := runR_inj_state hw _ hg' _ _ _ heq
  have h2 := runR_inj_bits hw _ hg' _ _ _
    (by simp [flatMap_length8 _ bitsMsb_length, hl])
    (by rw [flatMap_length8 _ bitsMsb_length]; omega) h1
  exact flatMap_inj8 _ bitsMsb_length bitsMsb_inj _ _ hl h2

/-! ## Byte steps of the implementations -/

/-- Splitting a register at bit 8. -/
theorem split8 {w : Nat} (s : BitVec w) : s = (s &&& 0xff#w) ^^^ (s &&& ~~~ 0xff#w) := by
  ext i hi
  simp
  cases s[i] <;> cases ((255#w)[i]) <;> rfl

theorem pack_bitsLsb32 (b : Byte) : pack 32 (bitsLsb b) = b.setWidth 32 := by
  revert b; decide +kernel

theorem pack_bitsLsb16 (b : Byte) : pack 16 (bitsLsb b) = b.setWidth 16 := by
  revert b; decide +kernel

theorem pack_bitsLsb8 (b : Byte) : pack 8 (bitsLsb b) = b := by
  revert b; decide +kernel

/-- Table part: eight autonomous clocks on the low byte. -/
theorem crc32_low (b : Byte) : autoN 0xEDB88320#32 8 (b.setWidth 32) = crc32C (b.setWidth 32) := by
  revert b; decide +kernel

theorem smear (s : U32) (k : Nat) (hk : k < 8) :
    (s <<< (31 - k)).sshiftRight 31 = if s.getLsbD k then BitVec.allOnes 32 else 0#32 := by
  ext i hi
  have h32 : 31 - (31 - k) = k := by omega
  have hmsb : (s <<< (31 - k)).msb = s.getLsbD k := by
    rw [BitVec.msb_eq_getLsbD_last, BitVec.getLsbD_shiftLeft]
    simp only [Nat.add_one_sub_one]
    rw [h32]
    have : ¬ (31 < 31 - k) := by omega
    simp [this]
  rw [BitVec.getElem_sshiftRight]
  by_cases h31 : 31 + i < 32
  · have : i = 0 := by omega
    subst this
    rw [BitVec.msb_eq_getLsbD_last] at hmsb
    simp only [Nat.add_one_sub_one] at hmsb
    simp only [Nat.add_zero, Nat.lt_add_one, ↓reduceDIte]
    rw [← BitVec.getLsbD_eq_getElem, hmsb]
    cases s.getLsbD k <;> simp
  · simp only [h31, hmsb, ↓reduceDIte]
    cases s.getLsbD k
    · simp
    · simp only [↓reduceIte]; exact (BitVec.getElem_allOnes i hi).symm

theorem crc32C_low (s : U32) : crc32C s = crc32C ((s.setWidth 8).setWidth 32) := by
  have h : ∀ k, k < 8 → ((s.setWidth 8).setWidth 32).getLsbD k = s.getLsbD k := by
    intro k hk
    simp [hk, show k < 32 by omega]
  unfold crc32C
  rw [show (31 : Nat) = 31 - 0 from rfl, show (30 : Nat) = 31 - 1 from rfl,
    show (29 : Nat) = 31 - 2 from rfl, show (28 : Nat) = 31 - 3 from rfl,
    show (27 : Nat) = 31 - 4 from rfl, show (26 : Nat) = 31 - 5 from rfl,
    show (25 : Nat) = 31 - 6 from rfl, show (24 : Nat) = 31 - 7 from rfl]
  simp only [Nat.sub_zero] at *
  have e0 := smear s 0 (by decide); have e1 := smear s 1 (by decide)
  have e2 := smear s 2 (by decide); have e3 := smear s 3 (by decide)
  have e4 := smear s 4 (by decide); have e5 := smear s 5 (by decide)
  have e6 := smear s 6 (by decide); have e7 := smear s 7 (by decide)
  have f0 := smear ((s.setWidth 8).setWidth 32) 0 (by decide)
  have f1 := smear ((s.setWidth 8).setWidth 32) 1 (by decide)
  have f2 := smear ((s.setWidth 8).setWidth 32) 2 (by decide)
  have f3 := smear ((s.setWidth 8).setWidth 32) 3 (by decide)
  have f4 := smear ((s.setWidth 8).setWidth 32) 4 (by decide)
  have f5 := smear ((s.setWidth 8).setWidth 32) 5 (by decide)
  have f6 := smear ((s.setWidth 8).setWidth 32) 6 (by decide)
  have f7 := smear ((s.setWidth 8).setWidth 32) 7 (by decide)
  rw [h _ (by decide)] at f0 f1 f2 f3 f4 f5 f6 f7
  simp only [Nat.sub_zero] at e0 f0
  rw [e0, e1, e2, e3, e4, e5, e6, e7, f0, f1, f2, f3, f4, f5, f6, f7]

theorem low_eq32 (s : U32) : s &&& 0xff#32 = (s.setWidth 8).setWidth 32 := by
  apply BitVec.eq_of_toNat_eq
  have : 255 = 2 ^ 8 - 1 := rfl
  simp only [BitVec.toNat_and, BitVec.toNat_ofNat, BitVec.toNat_setWidth]
  rw [show 255 % 2 ^ 32 = 2 ^ 8 - 1 from rfl, Nat.and_two_pow_sub_one_eq_mod]
  omega

theorem high_shift {w : Nat} (g s : BitVec w) :
    autoN g 8 (s &&& ~~~ 0xff#w) = s >>> 8 := by
  rw [autoN_shift]
  · ext i hi
    simp only [BitVec.getElem_ushiftRight, BitVec.getLsbD_and, BitVec.getLsbD_not,
      BitVec.getLsbD_ofNat]
    have : Nat.testBit 255 (8 + i) = false := by
      rw [show 255 = 2 ^ 8 - 1 from rfl, Nat.testBit_two_pow_sub_one]
      simp
    by_cases hlt : 8 + i < w
    · simp [this, hlt]
    · simp [hlt]
      exact BitVec.getLsbD_of_ge _ _ (by omega)
  · intro i hi
    simp only [BitVec.getLsbD_and, BitVec.getLsbD_not, BitVec.getLsbD_ofNat]
    have : Nat.testBit 255 i = true := by
      rw [show 255 = 2 ^ 8 - 1 from rfl, Nat.testBit_two_pow_sub_one]
      simp [hi]
    simp [this]

theorem crc32Byte_eq (s : U32) (b : Byte) :
    crc32Byte s b = runR 0xEDB88320#32 s (bitsLsb b) := by
  rw [runR_eq_autoN (by decide) _ _ _ (by simp [bitsLsb]), bitsLsb_length, pack_bitsLsb32]
  unfold crc32Byte
  simp only []
  generalize s ^^^ BitVec.setWidth 32 b = t
  rw [split8 t, autoN_xor, high_shift, ← split8 t, low_eq32, crc32_low, ← crc32C_low,
    BitVec.xor_comm]

theorem foldl_bytes {w : Nat} (g : BitVec w) (f : BitVec w → Byte → BitVec w)
    (run : BitVec w → BitVec w → List Bool → BitVec w) (bits : Byte → List Bool)
    (happ : ∀ s a b, run g s (a ++ b) = run g (run g s a) b) (hnil : ∀ s, run g s [] = s)
    (hf : ∀ s b, f s b = run g s (bits b)) (s : BitVec w) (data : List Byte) :
    data.foldl f s = run g s (data.flatMap bits) := by
  induction data generalizing s with
  | nil => simp [hnil]
  | cons b bs ih => simp [happ, ih, hf]

theorem crc32_fold (s : U32) (data : List Byte) :
    data.foldl crc32Byte s = crcR 0xEDB88320#32 s data :=
  foldl_bytes _ _ runR bitsLsb (runR_append _) (fun _ => rfl) crc32Byte_eq s data

/-! Dallas CRC-8 -/

theorem dallas_step (s b : Byte) : (dallasBits 8 (s, b)).1 = runR 0x8C#8 s (bitsLsb b) := by
  have key : ∀ (n : Nat) (s b : Byte), n ≤ 8 →
      (dallasBits n (s, b)).1 = runR 0x8C#8 s ((List.range n).map (fun i => b.getLsbD i)) := by
    intro n
    induction n with
    | zero => intro s b _; rfl
    | succ n ih =>
      intro s b hn
      rw [dallasBits, show dallasBit (s, b) = ((dallasBit (s, b)).1, b >>> 1) from rfl,
        ih _ _ (by omega), List.range_succ_eq_map]
      have h1 : (dallasBit (s, b)).1 = clockR 0x8C#8 s (b.getLsbD 0) := by
        unfold dallasBit clockR
        have : ((s ^^^ b) &&& 1#8 ≠ 0#8) ↔ (s.getLsbD 0 ^^ b.getLsbD 0) = true := by
          rw [← BitVec.getLsbD_xor]
          generalize s ^^^ b = t
          revert t; decide +kernel
        simp only [this]
      rw [h1]
      simp only [List.map_cons, List.map_map]
      show runR _ _ _ = runR _ (clockR 0x8C#8 s (b.getLsbD 0)) _
      congr 1
      apply List.map_congr_left
      intro i hi
      simp [BitVec.getLsbD_ushiftRight, Nat.add_comm]
  exact key 8 s b (by omega)

theorem dallas_fold (data : List Byte) : oneWireCRC8 data = crcR 0x8C#8 0#8 data :=
  foldl_bytes _ _ runR bitsLsb (runR_append _) (fun _ => rfl) dallas_step 0#8 data

theorem ds2482_table (x : Byte) : dscrcTable[x.toNat]! = autoN 0x8C#8 8 x := by
  revert x; decide +kernel

theorem ds2482_fold (data : List Byte) : ds2482Crc8 data = crcR 0x8C#8 0#8 data := by
  refine foldl_bytes _ _ runR bitsLsb (runR_append _) (fun _ => rfl) ?_ 0#8 data
  intro s b
  rw [runR_eq_autoN (by decide) _ _ _ (by simp [bitsLsb]), bitsLsb_length, pack_bitsLsb8,
    ds2482_table]

/-- Feeding the register's own value to a width-8 CRC clears it. -/
theorem crcR8_self (s : Byte) : runR 0x8C#8 s (bitsLsb s) = 0#8 := by
  rw [runR_eq_autoN (by decide) _ _ _ (by simp [bitsLsb]), pack_bitsLsb8, BitVec.xor_self,
    bitsLsb_length]
  decide

theorem runL8_self (s : Byte) : runL 0x31#8 s (bitsMsb s) = 0#8 := by
  revert s; decide +kernel

/-! Dallas CRC-16 -/

theorem crc16_low (b : Byte) :
    autoN 0xA001#16 8 (b.setWidth 16) = oneWireCRC16Byte 0#16 b := by
  revert b; decide +kernel

theorem low_eq16 (s : Word) : s &&& 0xff#16 = (s.setWidth 8).setWidth 16 := by
  apply BitVec.eq_of_toNat_eq
  simp only [BitVec.toNat_and, BitVec.toNat_ofNat, BitVec.toNat_setWidth]
  rw [show 255 % 2 ^ 16 = 2 ^ 8 - 1 from rfl, Nat.and_two_pow_sub_one_eq_mod]
  omega

theorem oneWireCRC16Byte_eq (s : Word) (b : Byte) :
    oneWireCRC16Byte s b = runR 0xA001#16 s (bitsLsb b) := by
  rw [runR_eq_autoN (by decide) _ _ _ (by simp [bitsLsb]), bitsLsb_length, pack_bitsLsb16]
  rw [split8 (s ^^^ BitVec.setWidth 16 b), autoN_xor, high_shift, low_eq16, crc16_low]
  unfold oneWireCRC16Byte
  simp only []
  have h1 : (BitVec.setWidth 16 b ^^^ s) &&& 255#16
      = (BitVec.setWidth 16 (BitVec.setWidth 8 (s ^^^ BitVec.setWidth 16 b)) ^^^ 0#16) &&& 255#16 := by
    rw [BitVec.xor_zero, ← low_eq16, BitVec.xor_comm]
    simp [BitVec.and_assoc]
  have h2 : (s ^^^ BitVec.setWidth 16 b) >>> 8 = s >>> 8 := by
    rw [BitVec.ushiftRight_xor_distrib]
    have : BitVec.setWidth 16 b >>> 8 = 0#16 := by
      ext i hi
      simp
    simp [this]
  rw [h1, h2]
  generalize (BitVec.setWidth 16 (BitVec.setWidth 8 (s ^^^ BitVec.setWidth 16 b)) ^^^ 0#16) &&& 255#16 = c
  rw [show c <<< 6 <<< 1 = c <<< 7 from by rw [← BitVec.shiftLeft_add]]
  generalize c <<< 6 = c6
  generalize c <<< 7 = c7
  generalize s >>> 8 = s8
  simp only [BitVec.zero_ushiftRight, BitVec.zero_xor]
  split
  · rw [BitVec.xor_comm _ s8, BitVec.xor_assoc, BitVec.xor_assoc, BitVec.xor_assoc]
  · rw [BitVec.xor_comm _ s8, BitVec.zero_xor, BitVec.xor_assoc]

theorem crc16_fold (s : Word) (data : List Byte) :
    oneWireCRC16 data s = crcR 0xA001#16 s data :=
  foldl_bytes _ _ runR bitsLsb (runR_append _) (fun _ => rfl) oneWireCRC16Byte_eq s data

/-! Sensirion CRC-8 and CCITT CRC-16: left-shifting registers -/

theorem sensirion_step (s b : Byte) : sensirionBits 8 (s ^^^ b) = runL 0x31#8 s (bitsMsb b) := by
  apply reverse_inj
  rw [runL_reverse, runR_eq_autoN (by decide) _ _ _ (by simp [bitsMsb]), bitsMsb_length]
  have hp : pack 8 (bitsMsb b) = b.reverse := by revert b; decide +kernel
  rw [hp]
  have hx : s.reverse ^^^ b.reverse = (s ^^^ b).reverse := by
    ext i hi; simp [BitVec.getElem_reverse]
  rw [hx]
  generalize s ^^^ b = t
  revert t; decide +kernel

theorem sensirion_fold (init : Byte) (data : List Byte) :
    sensirionCrc8 init data = crcL 0x31#8 init data :=
  foldl_bytes _ _ runL bitsMsb (runL_append _) (fun _ => rfl) sensirion_step init data

theorem ccittBit_eq (s : Word) : ccittBit s = clockL 0x1021#16 s false := by
  unfold ccittBit clockL
  have : (s &&& 0x8000#16 ≠ 0#16) ↔ s.getMsbD 0 = true := by
    have e : s.getMsbD 0 = s.getLsbD 15 := by simp [BitVec.getMsbD]
    have hm : ∀ i, (0x8000#16).getLsbD i = decide (i = 15) := by
      intro i
      rw [show (0x8000#16) = BitVec.twoPow 16 15 from rfl, BitVec.getLsbD_twoPow]
      by_cases h : i = 15 <;> simp [h] <;> omega
    rw [e]
    constructor
    · intro h
      by_cases hb : s.getLsbD 15 = true
      · exact hb
      · exfalso; apply h
        apply BitVec.eq_of_getLsbD_eq
        intro i hi
        rw [BitVec.getLsbD_and, hm]
        by_cases h15 : i = 15
        · subst h15; simpa using hb
        · simp [h15]
    · intro h h0
      have := congrArg (fun x => x.getLsbD 15) h0
      simp only [BitVec.getLsbD_and, hm, h] at this
      simp at this
  simp only [this, Bool.xor_false]

theorem ccittBits_eq (n : Nat) (s : Word) :
    (ccittBits n s).reverse = autoN (0x1021#16).reverse n s.reverse := by
  induction n generalizing s with
  | zero => rfl
  | succ n ih => rw [ccittBits, ih, ccittBit_eq, clockL_reverse]; rfl

theorem ccitt_step (s : Word) (b : Byte) :
    ccittBits 8 (s ^^^ (b.setWidth 16 <<< 8)) = runL 0x1021#16 s (bitsMsb b) := by
  apply reverse_inj
  rw [runL_reverse, runR_eq_autoN (by decide) _ _ _ (by simp [bitsMsb]), bitsMsb_length,
    ccittBits_eq]
  congr 1
  have hp : pack 16 (bitsMsb b) = (b.setWidth 16 <<< 8).reverse := by revert b; decide +kernel
  rw [hp]
  ext i hi; simp [BitVec.getElem_reverse]

theorem ccitt_fold (data : List Byte) : systemBCrc16 data = crcL 0x1021#16 0x1D0F#16 data :=
  foldl_bytes _ _ runL bitsMsb (runL_append _) (fun _ => rfl) ccitt_step _ data

end Verif.Crc
