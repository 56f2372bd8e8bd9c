import Verif.Util.Dpt9
import Verif.Util.Dpt9Spec

/-!
# C27: DPT 9 conversions
-/

namespace Verif.Dpt9
open Spec

theorem double_eq (n : Nat) (v : Int) : double n v = v * 2 ^ n := by
  induction n generalizing v with
  | zero => simp [double]
  | succ n ih => rw [double, ih, Int.pow_succ, Int.mul_assoc, Int.mul_comm 2]

/-- Or-ing the low 11 bits. -/
theorem or_low (a b : Nat) (h : b < 2 ^ 11) : 2 ^ 11 * a ||| b = 2 ^ 11 * a + b :=
  (Nat.two_pow_add_eq_or_of_lt h a).symm

theorem or_mul (a b : Nat) : 2 ^ 11 * a ||| 2 ^ 11 * b = 2 ^ 11 * (a ||| b) := by
  have := @Nat.shiftLeft_or_distrib 11 a b
  simp only [Nat.shiftLeft_eq] at this
  rw [Nat.mul_comm _ a, Nat.mul_comm _ b, Nat.mul_comm _ (a ||| b), this]

/-- **C27.** `dpt9ToFloat` returns the number the code denotes, for every code except the "invalid" one,
for which it returns `INVALID_DPT_FLOAT`. -/
theorem C27_decode (w : Word) : dpt9ToFloat w = if w = invalid then 32767 else denotes w := by
  unfold dpt9ToFloat denotes
  have hw := w.isLt
  have e1 : ((w >>> 11) &&& 15#16).toNat = exponent w := by
    rw [BitVec.toNat_and, BitVec.toNat_ushiftRight, Nat.shiftRight_eq_div_pow]
    exact Nat.and_two_pow_sub_one_eq_mod _ 4
  dsimp only
  show (if w = invalid then _ else _) = _
  split
  · rfl
  rw [double_eq, e1]
  congr 1
  have e2 : (w &&& 2047#16).toNat = mantissa w := by
    rw [BitVec.toNat_and]; exact Nat.and_two_pow_sub_one_eq_mod _ 11
  unfold mantissa sign at *
  split
  · rename_i hge
    have hge : 32768 ≤ w.toNat := hge
    have hs : w.toNat / 2 ^ 15 = 1 := by omega
    have : (w.setWidth 32 ||| 0xFFFFF800#32).toNat = 0xFFFFF800 + w.toNat % 2048 := by
      rw [BitVec.toNat_or, BitVec.toNat_setWidth]
      have a1 : w.toNat % 2 ^ 32 = 2 ^ 11 * (w.toNat / 2048) + w.toNat % 2048 := by omega
      have a2 : (0xFFFFF800#32).toNat = 2 ^ 11 * 0x1FFFFF := by decide
      have a3 : ∀ q, q < 32 → q ||| 0x1FFFFF = 0x1FFFFF := by decide
      rw [a1, a2, ← or_low _ _ (by omega), Nat.or_assoc, Nat.or_comm (w.toNat % 2048), ← Nat.or_assoc,
        or_mul, a3 _ (by omega), or_low _ _ (by omega)]
    rw [BitVec.toInt_eq_toNat_cond, this]
    omega
  · rename_i hlt
    have hlt : ¬ 32768 ≤ w.toNat := hlt
    rw [e2]
    omega

/-- The loops: `k` halvings, `k` minimal. -/
theorem scaleNeg_spec (n : Nat) : ∀ (v : Int) (e : Nat), -2048 * 2 ^ n ≤ v → v < 0 →
    ∃ k, k ≤ n ∧ scaleNeg v e = (v / 2 ^ k, e + k) ∧ -2048 ≤ v / 2 ^ k ∧ v / 2 ^ k < 0 ∧
      (k = 0 ∨ v < -2048 * 2 ^ (k - 1)) := by
  induction n with
  | zero =>
    intro v e h1 h2
    refine ⟨0, Nat.le_refl _, ?_, by omega, by omega, .inl rfl⟩
    rw [scaleNeg, dif_neg (by omega)]
    simp
  | succ n ih =>
    intro v e h1 h2
    by_cases h : v < -2048
    · rw [scaleNeg, dif_pos h]
      have h1' : -2048 * 2 ^ n ≤ v / 2 := by
        rw [Int.pow_succ] at h1
        omega
      obtain ⟨k, e1, e2, e3, e4, e5⟩ := ih (v / 2) (e + 1) h1' (by omega)
      have hd : v / 2 / 2 ^ k = v / 2 ^ (k + 1) := by
        rw [Int.pow_succ, Int.mul_comm, Int.ediv_ediv_of_nonneg (by omega)]
      rw [hd] at e2 e3 e4
      refine ⟨k + 1, by omega, by rw [e2]; simp; omega, e3, e4, .inr ?_⟩
      rcases e5 with rfl | e5
      · simpa using h
      · have : k = (k - 1) + 1 := by
          rcases Nat.eq_zero_or_pos k with rfl | hk
          · simp at e5; omega
          · omega
        rw [Nat.add_sub_cancel, this, Int.pow_succ]
        omega
    · refine ⟨0, Nat.zero_le _, ?_, by omega, by omega, .inl rfl⟩
      rw [scaleNeg, dif_neg h]
      simp

theorem scalePos_spec (n : Nat) : ∀ (v : Int) (e : Nat), v < 2048 * 2 ^ n → 0 ≤ v →
    ∃ k, k ≤ n ∧ scalePos v e = (v / 2 ^ k, e + k) ∧ 0 ≤ v / 2 ^ k ∧ v / 2 ^ k < 2048 ∧
      (k = 0 ∨ 2048 * 2 ^ (k - 1) ≤ v) := by
  induction n with
  | zero =>
    intro v e h1 h2
    refine ⟨0, Nat.le_refl _, ?_, by omega, by omega, .inl rfl⟩
    rw [scalePos, dif_neg (by omega)]
    simp
  | succ n ih =>
    intro v e h1 h2
    by_cases h : v > 2047
    · rw [scalePos, dif_pos h]
      have h1' : v / 2 < 2048 * 2 ^ n := by
        rw [Int.pow_succ] at h1
        omega
      obtain ⟨k, e1, e2, e3, e4, e5⟩ := ih (v / 2) (e + 1) h1' (by omega)
      have hd : v / 2 / 2 ^ k = v / 2 ^ (k + 1) := by
        rw [Int.pow_succ, Int.mul_comm, Int.ediv_ediv_of_nonneg (by omega)]
      rw [hd] at e2 e3 e4
      refine ⟨k + 1, by omega, by rw [e2]; simp; omega, e3, e4, .inr ?_⟩
      rcases e5 with rfl | e5
      · simp; omega
      · rcases Nat.eq_zero_or_pos k with rfl | hk
        · simp; omega
        · have : k = (k - 1) + 1 := by omega
          rw [Nat.add_sub_cancel, this, Int.pow_succ]
          omega
    · refine ⟨0, Nat.zero_le _, ?_, by omega, by omega, .inl rfl⟩
      rw [scalePos, dif_neg h]
      simp

/-- Assembling the fields of a code. -/
theorem assemble (s k m : Nat) (hk : k < 16) (hm : m < 2048) (w : Word)
    (hw : w.toNat = s * 32768 + k * 2048 + m) :
    sign w = s ∧ exponent w = k ∧ mantissa w = m := by
  unfold sign exponent mantissa
  omega

theorem shl_exp (k : Nat) (hk : k < 16) : (BitVec.ofNat 16 k <<< 11).toNat = 2 ^ 11 * k := by
  rw [BitVec.toNat_shiftLeft, BitVec.toNat_ofNat, Nat.shiftLeft_eq]
  omega

/-- `k` is the smallest exponent that brings `v` into the mantissa range. -/
def Minimal (v : Int) (k : Nat) : Prop := k = 0 ∨ v < -2048 * 2 ^ (k - 1) ∨ 2048 * 2 ^ (k - 1) ≤ v

theorem encode_spec (v : Int) (h1 : -67108864 ≤ v) (h2 : v ≤ 67076096) :
    ∃ k, k ≤ 15 ∧ exponent (floatToDpt9 v) = k ∧ denotes (floatToDpt9 v) = v / 2 ^ k * 2 ^ k ∧
      -2048 ≤ v / 2 ^ k ∧ v / 2 ^ k < 2048 ∧ Minimal v k := by
  unfold floatToDpt9
  rw [if_neg (by omega)]
  split
  · rename_i hneg
    obtain ⟨k, e1, e2, e3, e4, e5⟩ := scaleNeg_spec 15 v 0 (by omega) hneg
    rw [e2]
    dsimp only
    rw [Nat.zero_add]
    obtain ⟨m, hm⟩ : ∃ m, v / 2 ^ k = m := ⟨_, rfl⟩
    rw [hm] at e3 e4 ⊢
    have hn : (0x8000#16 ||| (BitVec.ofInt 16 m &&& 2047#16) ||| (BitVec.ofNat 16 k <<< 11)).toNat
        = 1 * 32768 + k * 2048 + (m + 2048).toNat := by
      rw [BitVec.toNat_or, BitVec.toNat_or, shl_exp k (by omega), BitVec.toNat_and]
      have a1 : (BitVec.ofInt 16 m).toNat &&& (2047#16).toNat = (m + 2048).toNat := by
        rw [show (2047#16).toNat = 2 ^ 11 - 1 from rfl, Nat.and_two_pow_sub_one_eq_mod,
          BitVec.toNat_ofInt]
        omega
      have a2 : (0x8000#16).toNat = 2 ^ 11 * 16 := by decide
      have a3 : ∀ q, q < 16 → 16 ||| q = 16 + q := by decide
      rw [a1, a2, Nat.or_assoc, Nat.or_comm (m + 2048).toNat, ← Nat.or_assoc, or_mul, a3 k (by omega),
        or_low _ _ (by omega)]
      omega
    obtain ⟨f1, f2, f3⟩ := assemble 1 k (m + 2048).toNat (by omega) (by omega) _ hn
    refine ⟨k, e1, f2, ?_, hm ▸ e3, by omega, e5.imp_right .inl⟩
    unfold denotes
    rw [f1, f2, f3, hm]
    congr 1
    omega
  · rename_i hpos
    obtain ⟨k, e1, e2, e3, e4, e5⟩ := scalePos_spec 15 v 0 (by omega) (by omega)
    rw [e2]
    dsimp only
    rw [Nat.zero_add]
    obtain ⟨m, hm⟩ : ∃ m, v / 2 ^ k = m := ⟨_, rfl⟩
    rw [hm] at e3 e4 ⊢
    have hn : (BitVec.ofInt 16 m ||| (BitVec.ofNat 16 k <<< 11)).toNat = 0 * 32768 + k * 2048 + m.toNat := by
      rw [BitVec.toNat_or, shl_exp k (by omega), BitVec.toNat_ofInt]
      have : (m % ((2 ^ 16 : Nat) : Int)).toNat = m.toNat := by omega
      rw [this, Nat.or_comm, or_low _ _ (by omega)]
      omega
    obtain ⟨f1, f2, f3⟩ := assemble 0 k m.toNat (by omega) (by omega) _ hn
    refine ⟨k, e1, f2, ?_, by omega, hm ▸ e4, e5.imp_right .inr⟩
    unfold denotes
    rw [f1, f2, f3, hm]
    congr 1
    omega

theorem denotes_invalid : denotes invalid = 67076096 := by decide

/-- Two codes with the same fields are equal. -/
theorem code_ext (w : Word) (h : exponent w = 15) (hd : denotes w = 67076096) : w = invalid := by
  unfold denotes at hd
  rw [h] at hd
  apply BitVec.eq_of_toNat_eq
  have := w.isLt
  unfold exponent mantissa sign at *
  show _ = 32767
  omega

/-- **C27.** Accuracy: for every value of the representable range except the largest one, the code
`floatToDpt9` chooses is read back as a number not above the value and less than one step `2^k` of the
chosen exponent `k` below it, and `k` is the smallest exponent with which the value fits. -/
theorem C27_accuracy (v : Int) (h1 : -67108864 ≤ v) (h2 : v < 67076096) :
    dpt9ToFloat (floatToDpt9 v) ≤ v ∧ v < dpt9ToFloat (floatToDpt9 v) + 2 ^ exponent (floatToDpt9 v) ∧
      Minimal v (exponent (floatToDpt9 v)) := by
  obtain ⟨k, e1, e2, e3, e4, e5, e6⟩ := encode_spec v h1 (by omega)
  have hne : floatToDpt9 v ≠ invalid := by
    intro h
    have hk : k = 15 := by rw [← e2, h]; decide
    rw [h, denotes_invalid, hk] at e3
    omega
  rw [C27_decode, if_neg hne, e3, e2]
  have hp : (0 : Int) < 2 ^ k := Int.pow_pos (by omega)
  have := Int.mul_ediv_add_emod v (2 ^ k)
  have h3 := Int.emod_nonneg v (Int.ne_of_gt hp)
  have h4 := Int.emod_lt_of_pos v hp
  rw [Int.mul_comm] at this
  exact ⟨by omega, by omega, e6⟩

/-- Minimality: any exponent with which the value fits is at least the chosen one. -/
theorem minimal_le {v : Int} {k E : Nat} (hm : Minimal v k) (m : Int) (h1 : -2048 ≤ m) (h2 : m < 2048)
    (hv : v = m * 2 ^ E) : k ≤ E := by
  rcases Nat.lt_or_ge E k with hlt | hge
  · exfalso
    have hE : (2 : Int) ^ E ≤ 2 ^ (k - 1) := by
      have := Nat.pow_le_pow_right (n := 2) (by omega) (show E ≤ k - 1 by omega)
      have h := Int.ofNat_le.mpr this
      simpa using h
    have hp : (0 : Int) < 2 ^ E := Int.pow_pos (by omega)
    have b1 : -2048 * 2 ^ E ≤ m * 2 ^ E := Int.mul_le_mul_of_nonneg_right h1 (Int.le_of_lt hp)
    have b2 : m * 2 ^ E ≤ 2047 * 2 ^ E := Int.mul_le_mul_of_nonneg_right (by omega) (Int.le_of_lt hp)
    rcases hm with h | h | h <;> omega
  · exact hge

/-- **C27.** Exactness: a value that some valid code denotes is read back unchanged. -/
theorem C27_exact (w : Word) (hw : w ≠ invalid) : dpt9ToFloat (floatToDpt9 (denotes w)) = denotes w := by
  have hm : -2048 ≤ ((mantissa w : Int) - sign w * 2048) ∧ ((mantissa w : Int) - sign w * 2048) < 2048 := by
    unfold mantissa sign; have := w.isLt; omega
  have hE : exponent w < 16 := by unfold exponent; omega
  have hd : denotes w = ((mantissa w : Int) - sign w * 2048) * 2 ^ exponent w := rfl
  have hne : denotes w ≠ 67076096 := by
    intro h
    apply hw
    apply code_ext w _ h
    rcases Nat.lt_or_ge (exponent w) 15 with hlt | hge
    · exfalso
      have hp : (2 : Int) ^ exponent w ≤ 2 ^ 14 := by
        have := Nat.pow_le_pow_right (n := 2) (by omega) (show exponent w ≤ 14 by omega)
        have h := Int.ofNat_le.mpr this
        simpa using h
      have hp0 : (0 : Int) < 2 ^ exponent w := Int.pow_pos (by omega)
      have b2 : ((mantissa w : Int) - sign w * 2048) * 2 ^ exponent w ≤ 2047 * 2 ^ exponent w :=
        Int.mul_le_mul_of_nonneg_right (by omega) (Int.le_of_lt hp0)
      omega
    · omega
  have hr : -67108864 ≤ denotes w ∧ denotes w ≤ 67076096 := by
    rw [hd]
    have hp : (2 : Int) ^ exponent w ≤ 2 ^ 15 := by
      have := Nat.pow_le_pow_right (n := 2) (by omega) (show exponent w ≤ 15 by omega)
      have h := Int.ofNat_le.mpr this
      simpa using h
    have hp0 : (0 : Int) < 2 ^ exponent w := Int.pow_pos (by omega)
    have b1 : -2048 * 2 ^ exponent w ≤ ((mantissa w : Int) - sign w * 2048) * 2 ^ exponent w :=
      Int.mul_le_mul_of_nonneg_right hm.1 (Int.le_of_lt hp0)
    have b2 : ((mantissa w : Int) - sign w * 2048) * 2 ^ exponent w ≤ 2047 * 2 ^ exponent w :=
      Int.mul_le_mul_of_nonneg_right (by omega) (Int.le_of_lt hp0)
    omega
  obtain ⟨k, e1, e2, e3, e4, e5, e6⟩ := encode_spec (denotes w) hr.1 hr.2
  have hle := minimal_le e6 _ hm.1 hm.2 hd
  have hdvd : denotes w / 2 ^ k * 2 ^ k = denotes w := by
    apply Int.ediv_mul_cancel
    rw [hd]
    exact Int.dvd_trans (by
      have : exponent w = k + (exponent w - k) := by omega
      rw [this, Int.pow_add]
      exact Int.dvd_mul_right _ _) (Int.dvd_mul_left _ _)
  have hne' : floatToDpt9 (denotes w) ≠ invalid := by
    intro h
    rw [h, denotes_invalid, hdvd] at e3
    exact hne e3.symm
  rw [C27_decode, if_neg hne', e3, hdvd]

/-- **C27.** Re-encoding a decoded valid code gives a code that denotes the same number. -/
theorem C27_recode (w : Word) (hw : w ≠ invalid) :
    floatToDpt9 (dpt9ToFloat w) ≠ invalid ∧ denotes (floatToDpt9 (dpt9ToFloat w)) = denotes w := by
  have h := C27_exact w hw
  rw [C27_decode w, if_neg hw]
  rw [C27_decode] at h
  split at h
  · rename_i hi
    exfalso
    have hd : denotes w = 32767 := h.symm
    rw [hd] at hi
    exact absurd hi (by
      intro hi
      obtain ⟨k, e1, e2, e3, -⟩ := encode_spec 32767 (by omega) (by omega)
      rw [hi, denotes_invalid] at e3
      have hk : k = 15 := by rw [← e2, hi]; decide
      rw [hk] at e3
      omega)
  · rename_i hi
    exact ⟨hi, h⟩

/-- **C27.** The decoder's "invalid" result is unambiguous: it is returned for the invalid code only. -/
theorem C27_invalid_unambiguous (w : Word) : dpt9ToFloat w = 32767 ↔ w = invalid := by
  constructor
  · intro h
    refine Classical.byContradiction fun hw => ?_
    obtain ⟨h1, h2⟩ := C27_recode w hw
    rw [h] at h1 h2
    rw [C27_decode, if_neg hw] at h
    rw [h] at h2
    obtain ⟨k, e1, e2, e3, e4, e5, e6⟩ := encode_spec 32767 (by omega) (by omega)
    rw [h2] at e3
    have hk : 1 ≤ k := by
      rcases Nat.eq_zero_or_pos k with rfl | h
      · simp at e5
      · exact h
    have : k = (k - 1) + 1 := by omega
    rw [this, Int.pow_succ, ← Int.mul_assoc] at e3
    omega
  · rintro rfl; decide

/-- **C27.** The conversion is monotone over the whole range in which it gives valid codes. -/
theorem C27_monotone (v v' : Int) (h1 : -67108864 ≤ v) (hle : v ≤ v') (h2 : v' < 67076096) :
    dpt9ToFloat (floatToDpt9 v) ≤ dpt9ToFloat (floatToDpt9 v') := by
  -- the coarser grid contains the finer one's value of `v` only if `v` is on it; argue by cases
  obtain ⟨a1, a2, a3⟩ := C27_accuracy v h1 (by omega)
  obtain ⟨b1, b2, b3⟩ := C27_accuracy v' (by omega) h2
  obtain ⟨k, e1, e2, e3, e4, e5, e6⟩ := encode_spec v h1 (by omega)
  obtain ⟨k', f1, f2, f3, f4, f5, f6⟩ := encode_spec v' (by omega) (by omega)
  have hv : dpt9ToFloat (floatToDpt9 v) = v / 2 ^ k * 2 ^ k := by
    rw [C27_decode, if_neg, e3]
    intro h
    have hk : k = 15 := by rw [← e2, h]; decide
    rw [h, denotes_invalid, hk] at e3
    omega
  have hv' : dpt9ToFloat (floatToDpt9 v') = v' / 2 ^ k' * 2 ^ k' := by
    rw [C27_decode, if_neg, f3]
    intro h
    have hk : k' = 15 := by rw [← f2, h]; decide
    rw [h, denotes_invalid, hk] at f3
    omega
  rw [hv, hv']
  rw [hv] at a1
  rw [hv'] at b1 b2
  have hp : (0 : Int) < 2 ^ k := Int.pow_pos (by omega)
  have hp' : (0 : Int) < 2 ^ k' := Int.pow_pos (by omega)
  rcases Nat.lt_or_ge k k' with hlt | hge
  · -- `v'` needs a coarser grid
    rcases f6 with h | h | h
    · omega
    · -- then `v ≤ v'` needs it as well, contradicting the choice of `k`
      exfalso
      have c1 : -2048 * 2 ^ k ≤ v / 2 ^ k * 2 ^ k := Int.mul_le_mul_of_nonneg_right e4 (Int.le_of_lt hp)
      have hE : (2 : Int) ^ k ≤ 2 ^ (k' - 1) := by
        have := Nat.pow_le_pow_right (n := 2) (by omega) (show k ≤ k' - 1 by omega)
        have h := Int.ofNat_le.mpr this
        simpa using h
      omega
    · -- everything on the finer grid lies below the coarse values
      have c1 : v / 2 ^ k * 2 ^ k ≤ 2047 * 2 ^ k := Int.mul_le_mul_of_nonneg_right (by omega) (Int.le_of_lt hp)
      have hE : (2 : Int) ^ k ≤ 2 ^ (k' - 1) := by
        have := Nat.pow_le_pow_right (n := 2) (by omega) (show k ≤ k' - 1 by omega)
        have h := Int.ofNat_le.mpr this
        simpa using h
      have hk' : k' = (k' - 1) + 1 := by omega
      have c2 : 1024 ≤ v' / 2 ^ k' := by
        apply (Int.le_ediv_iff_mul_le hp').mpr
        rw [hk', Int.pow_succ]
        omega
      have c3 : 1024 * 2 ^ k' ≤ v' / 2 ^ k' * 2 ^ k' := Int.mul_le_mul_of_nonneg_right c2 (Int.le_of_lt hp')
      have c4 : (2 : Int) ^ k' = 2 ^ (k' - 1) * 2 := by
        conv => lhs; rw [hk']
        rw [Int.pow_succ]
      omega
  · -- the grid of `v'` is at least as fine: the grid point of `v` is on it and below `v'`
    have hdvd : (2 : Int) ^ k' ∣ v / 2 ^ k * 2 ^ k := by
      apply Int.dvd_trans _ (Int.dvd_mul_left _ _)
      have : k = k' + (k - k') := by omega
      rw [this, Int.pow_add]
      exact Int.dvd_mul_right _ _
    obtain ⟨c, hc⟩ := hdvd
    have : c ≤ v' / 2 ^ k' := by
      apply (Int.le_ediv_iff_mul_le hp').mpr
      rw [Int.mul_comm, ← hc]
      omega
    rw [hc, Int.mul_comm]
    exact Int.mul_le_mul_of_nonneg_right this (Int.le_of_lt hp')

/-- **C27.** Values outside the representable range give the invalid code. -/
theorem C27_out_of_range (v : Int) (h : v < -67108864 ∨ 67076096 < v) :
    floatToDpt9 v = invalid ∧ dpt9ToFloat (floatToDpt9 v) = 32767 := by
  have : floatToDpt9 v = invalid := by unfold floatToDpt9; rw [if_pos h]; rfl
  exact ⟨this, by rw [this]; decide⟩

/-- Non-vacuity: 21.53 degrees, -5.2, both ends of the range, and rounding of a large value. -/
example : floatToDpt9 2153 = 0x0C34#16 ∧ dpt9ToFloat 0x0C34#16 = 2152 ∧ dpt9ToFloat (floatToDpt9 (-520)) = -520 ∧
    dpt9ToFloat (floatToDpt9 (-67108864)) = -67108864 ∧ dpt9ToFloat (floatToDpt9 67076095) = 67043328 ∧
    floatToDpt9 67076097 = invalid := by decide +kernel

/-- **C27, finding.** The header says to use `INVALID_DPT_FLOAT` (32767) to encode "invalid data", but
`floatToDpt9` encodes it as the ordinary value 327.52; and the largest value it accepts, 670760.96, is
encoded as "invalid data". -/
theorem C27_invalid_not_encodable : floatToDpt9 32767 ≠ invalid ∧ dpt9ToFloat (floatToDpt9 32767) = 32752 ∧
    floatToDpt9 67076096 = invalid := by decide +kernel

end Verif.Dpt9
