import Verif.Util.PrintFloat
import Verif.Util.TextProps
import Verif.Gas.Nearest
import Mathlib.Tactic.Linarith
import Mathlib.Tactic.NormNum
import Mathlib.Tactic.Positivity
import Mathlib.Tactic.IntervalCases

/-!
# C101: printing of floats

The float operations are those of `Verif.Gas.Spec`, with rounding to the nearest number.
-/

namespace Verif.Text

open Verif.Gas

/-! ## Specification -/

/-- The text is a number with `places` decimal places: an optional minus sign, digits, a point and
digits; `x` is the number it denotes. -/
def Denotes (s : List Byte) (places : ℕ) (x : ℝ) : Prop :=
  ∃ (neg : Bool) (ti td : List Byte) (I D : ℕ),
    s = (if neg then [0x2D#8] else []) ++ ti ++ 0x2E#8 :: td ∧
    ti ≠ [] ∧ textVal 10 ti = some I ∧ td.length = places ∧ textVal 10 td = some D ∧
    x = (if neg then -1 else 1) * (I + D / 10 ^ places)

/-- `v` is a number of the format: the significand has 24 bits, and rounding leaves it alone. -/
def IsFloat (F : Flt) (v : ℝ) : Prop := F.rnd v = v ∧ ∃ n e : ℤ, |n| ≤ 2 ^ 24 ∧ v = n * 2 ^ e

/-! ## The whole part and the fraction -/

variable {F : Flt}

theorem truncate_int_eq (z : ℤ) : truncate (z : ℝ) = z := by
  unfold truncate
  by_cases h : (z : ℝ) < 0
  · rw [if_pos h, ← Int.cast_neg, Int.floor_intCast, neg_neg]
  · rw [if_neg h, Int.floor_intCast]

theorem truncate_pos {v : ℝ} (h : 0 ≤ v) : 0 ≤ truncate v ∧ 0 ≤ v - truncate v ∧ v - truncate v < 1 := by
  unfold truncate
  rw [if_neg (not_lt.2 h)]
  have f1 := Int.floor_le v
  have f2 := Int.lt_floor_add_one v
  exact ⟨Int.floor_nonneg.2 h, by linarith, by linarith⟩

theorem truncate_negative {v : ℝ} (h : v < 0) :
    truncate v ≤ 0 ∧ v - truncate v ≤ 0 ∧ -1 < v - truncate v := by
  unfold truncate
  rw [if_pos h]
  have f1 := Int.floor_le (-v)
  have f2 := Int.lt_floor_add_one (-v)
  have f3 : 0 ≤ ⌊-v⌋ := Int.floor_nonneg.2 (by linarith)
  push_cast
  exact ⟨by omega, by linarith, by linarith⟩

theorem truncate_frac (v : ℝ) : |v - truncate v| < 1 := by
  rcases lt_or_ge v 0 with h | h
  · have := truncate_negative h
    rw [abs_lt]
    constructor <;> linarith
  · have := truncate_pos h
    rw [abs_lt]
    constructor <;> linarith

theorem truncate_abs_le (v : ℝ) : |(truncate v : ℝ)| ≤ |v| := by
  rcases lt_or_ge v 0 with h | h
  · have := truncate_negative h
    have h1 : (truncate v : ℝ) ≤ 0 := by exact_mod_cast this.1
    rw [abs_of_nonpos h1, abs_of_neg h]
    linarith
  · have := truncate_pos h
    have h1 : (0 : ℝ) ≤ truncate v := by exact_mod_cast this.1
    rw [abs_of_nonneg h1, abs_of_nonneg h]
    linarith

/-- Subtracting the whole part is exact, and the fraction is at most `1 - 2 ^ -24`. -/
theorem fraction_exact (h : Ieee F) {v : ℝ} (hv : IsFloat F v) :
    F.rnd (v - F.rnd (truncate v)) = v - truncate v ∧ |v - truncate v| ≤ 1 - 1 / 2 ^ 24 := by
  obtain ⟨hr, n, e, hn, rfl⟩ := hv
  have zero : F.rnd 0 = 0 := by
    have := h.exact 0 0 (by norm_num) (by norm_num)
    simpa using this
  rcases le_or_gt 0 e with he | he
  · obtain ⟨k, rfl⟩ := Int.eq_ofNat_of_zero_le he
    have hz : (n : ℝ) * 2 ^ (k : ℤ) = ((n * 2 ^ k : ℤ) : ℝ) := by push_cast; rw [zpow_natCast]
    rw [hz] at hr ⊢
    rw [truncate_int_eq, hr, sub_self, zero]
    exact ⟨rfl, by norm_num⟩
  · obtain ⟨k, hk⟩ := Int.eq_ofNat_of_zero_le (by omega : 0 ≤ -e)
    have hz : (n : ℝ) * 2 ^ e = n / 2 ^ k := by
      rw [show e = -(k : ℤ) by omega, zpow_neg, zpow_natCast, div_eq_mul_inv]
    rw [hz] at hr ⊢
    have hp : (0 : ℝ) < 2 ^ k := by positivity
    have hfr := truncate_frac ((n : ℝ) / 2 ^ k)
    have hle := truncate_abs_le ((n : ℝ) / 2 ^ k)
    generalize truncate ((n : ℝ) / 2 ^ k) = t at *
    have hdiff : (n : ℝ) / 2 ^ k - t = ((n - t * 2 ^ k : ℤ) : ℝ) / 2 ^ k := by
      push_cast
      field_simp
    have hn' : |(n : ℝ)| ≤ 2 ^ 24 := by exact_mod_cast hn
    by_cases hk24 : k ≤ 24
    · -- multiples of `2 ^ -k`
      have hkle : (2 : ℝ) ^ k ≤ 2 ^ 24 := pow_le_pow_right₀ (by norm_num) hk24
      have hlt : |n - t * 2 ^ k| < 2 ^ k := by
        rw [hdiff, abs_div, abs_of_pos hp, div_lt_one hp] at hfr
        exact_mod_cast hfr
      have ht : |t| ≤ 2 ^ 24 := by
        have h1 : |(n : ℝ) / 2 ^ k| ≤ 2 ^ 24 := by
          rw [abs_div, abs_of_pos hp]
          have : (1 : ℝ) ≤ 2 ^ k := one_le_pow₀ (by norm_num)
          exact (div_le_self (abs_nonneg _) this).trans hn'
        have h2 := hle.trans h1
        exact_mod_cast h2
      have hkz : (2 : ℤ) ^ k ≤ 2 ^ 24 := by exact_mod_cast hkle
      constructor
      · rw [rnd_int h t ht, hdiff]
        exact h.exact _ k (by omega) (by omega)
      · rw [hdiff, abs_div, abs_of_pos hp]
        have h1 : |((n - t * 2 ^ k : ℤ) : ℝ)| ≤ 2 ^ k - 1 := by
          have : |n - t * 2 ^ k| ≤ 2 ^ k - 1 := by omega
          exact_mod_cast this
        calc |((n - t * 2 ^ k : ℤ) : ℝ)| / 2 ^ k ≤ (2 ^ k - 1) / 2 ^ k :=
              div_le_div_of_nonneg_right h1 hp.le
          _ = 1 - 1 / 2 ^ k := by field_simp
          _ ≤ 1 - 1 / 2 ^ 24 := by
              have := one_div_le_one_div_of_le hp hkle
              linarith
    · have hk25 : (2 : ℝ) ^ 25 ≤ 2 ^ k := pow_le_pow_right₀ (by norm_num) (by omega)
      have hsmall : |(n : ℝ) / 2 ^ k| ≤ 1 / 2 := by
        rw [abs_div, abs_of_pos hp]
        calc |(n : ℝ)| / 2 ^ k ≤ 2 ^ 24 / 2 ^ 25 := div_le_div₀ (by norm_num) hn' (by norm_num) hk25
          _ = 1 / 2 := by norm_num
      have ht : t = 0 := by
        have h1 : |(t : ℝ)| < 1 := lt_of_le_of_lt (hle.trans hsmall) (by norm_num)
        exact Int.abs_lt_one_iff.1 (by exact_mod_cast h1)
      subst ht
      rw [Int.cast_zero, zero, sub_zero]
      exact ⟨hr, hsmall.trans (by norm_num)⟩

/-! ## The digits after the point -/

/-- `scale` on numbers. -/
def scaleR (F : Flt) : ℕ → ℝ → ℝ
  | 0, x => x
  | n + 1, x => scaleR F n (F.rnd (x * 10))

theorem scale_some (h : Ieee F) (p : ℕ) (x : ℝ) : scale (floats F) p (some x) = some (scaleR F p x) := by
  induction p generalizing x with
  | zero => rfl
  | succ p ih =>
    have : (floats F).mul (some x) ((floats F).ofInt 10) = some (F.rnd (x * 10)) := by
      simp only [floats, Option.bind_some, Option.map_some]
      rw [rnd_int h 10 (by norm_num)]
      push_cast
      rfl
    rw [scale, this, ih]
    rfl

/-- The largest value after so many rounds. -/
noncomputable def top : ℕ → ℝ
  | 0 => 1 - 1 / 2 ^ 24
  | 1 => 10 - 1 / 2 ^ 20
  | 2 => 100 - 1 / 2 ^ 17
  | 3 => 1000 - 1 / 2 ^ 14
  | 4 => 10000 - 1 / 2 ^ 10
  | 5 => 100000 - 1 / 2 ^ 7
  | 6 => 1000000 - 1 / 2 ^ 4
  | _ => 9999999

theorem top_step (hn : Nearest F) (i : ℕ) (hi : i < 7) : F.rnd (top i * 10) = top (i + 1) := by
  interval_cases i
  · have := hn (top 0 * 10) (10 * 2 ^ 20 - 1) 20 (by norm_num) (by norm_num) (by norm_num)
      (by rw [abs_lt]; norm_num [top])
    rw [this]; norm_num [top]
  · have := hn (top 1 * 10) (100 * 2 ^ 17 - 1) 17 (by norm_num) (by norm_num) (by norm_num)
      (by rw [abs_lt]; norm_num [top])
    rw [this]; norm_num [top]
  · have := hn (top 2 * 10) (1000 * 2 ^ 14 - 1) 14 (by norm_num) (by norm_num) (by norm_num)
      (by rw [abs_lt]; norm_num [top])
    rw [this]; norm_num [top]
  · have := hn (top 3 * 10) (10000 * 2 ^ 10 - 1) 10 (by norm_num) (by norm_num) (by norm_num)
      (by rw [abs_lt]; norm_num [top])
    rw [this]; norm_num [top]
  · have := hn (top 4 * 10) (100000 * 2 ^ 7 - 1) 7 (by norm_num) (by norm_num) (by norm_num)
      (by rw [abs_lt]; norm_num [top])
    rw [this]; norm_num [top]
  · have := hn (top 5 * 10) (1000000 * 2 ^ 4 - 1) 4 (by norm_num) (by norm_num) (by norm_num)
      (by rw [abs_lt]; norm_num [top])
    rw [this]; norm_num [top]
  · have := hn (top 6 * 10) 9999999 0 (by norm_num) (by norm_num) (by norm_num)
      (by rw [abs_lt]; norm_num [top])
    rw [this]; norm_num [top]

theorem top_lt (i : ℕ) (hi : i ≤ 7) : top i < 10 ^ i := by
  interval_cases i <;> norm_num [top]

theorem scaleR_bounds (h : Ieee F) (hn : Nearest F) (f : ℝ) (p : ℕ) : ∀ (i : ℕ) (x : ℝ), i + p ≤ 7 →
    0 ≤ x → x ≤ top i → |x - f * 10 ^ i| ≤ i * 10 ^ i * (1 / 2 ^ 23 + 1 / 2 ^ 100) →
    0 ≤ scaleR F p x ∧ scaleR F p x ≤ top (i + p) ∧
      |scaleR F p x - f * 10 ^ (i + p)| ≤ (i + p : ℕ) * 10 ^ (i + p) * (1 / 2 ^ 23 + 1 / 2 ^ 100) := by
  induction p with
  | zero => intro i x _ h0 h1 h2; exact ⟨h0, h1, h2⟩
  | succ p ih =>
    intro i x hi h0 h1 h2
    have zero : F.rnd 0 = 0 := by
      have := h.exact 0 0 (by norm_num) (by norm_num)
      simpa using this
    have a0 : 0 ≤ F.rnd (x * 10) := by
      have := h.mono 0 (x * 10) (by linarith)
      rwa [zero] at this
    have a1 : F.rnd (x * 10) ≤ top (i + 1) := by
      rw [← top_step hn i (by omega)]
      exact h.mono _ _ (by linarith)
    have a2 : |F.rnd (x * 10) - f * 10 ^ (i + 1)| ≤
        (i + 1 : ℕ) * 10 ^ (i + 1) * (1 / 2 ^ 23 + 1 / 2 ^ 100) := by
      have e1 := h.err (x * 10)
      rw [abs_of_nonneg (by linarith : 0 ≤ x * 10)] at e1
      have e2 := top_lt i (by omega)
      have e3 : (1 : ℝ) ≤ 10 ^ (i + 1) := one_le_pow₀ (by norm_num)
      have e4 : x * 10 ≤ 10 ^ (i + 1) := by rw [pow_succ]; linarith
      have e5 : x * 10 / 2 ^ 23 ≤ 10 ^ (i + 1) / 2 ^ 23 := div_le_div_of_nonneg_right e4 (by norm_num)
      calc |F.rnd (x * 10) - f * 10 ^ (i + 1)|
          = |(F.rnd (x * 10) - x * 10) + (x - f * 10 ^ i) * 10| := by rw [pow_succ]; ring_nf
        _ ≤ |F.rnd (x * 10) - x * 10| + |(x - f * 10 ^ i) * 10| := abs_add_le _ _
        _ = |F.rnd (x * 10) - x * 10| + |x - f * 10 ^ i| * 10 := by
            rw [abs_mul]; norm_num
        _ ≤ (10 ^ (i + 1) / 2 ^ 23 + 10 ^ (i + 1) * (1 / 2 ^ 100)) +
              (i * 10 ^ i * (1 / 2 ^ 23 + 1 / 2 ^ 100)) * 10 := by
            have : (1 : ℝ) / 2 ^ 100 ≤ 10 ^ (i + 1) * (1 / 2 ^ 100) := by
              have : (0 : ℝ) < 1 / 2 ^ 100 := by positivity
              nlinarith
            linarith
        _ = (i + 1 : ℕ) * 10 ^ (i + 1) * (1 / 2 ^ 23 + 1 / 2 ^ 100) := by
            push_cast; rw [pow_succ]; ring
    have := ih (i + 1) (F.rnd (x * 10)) (by omega) a0 a1 a2
    rw [show i + 1 + p = i + (p + 1) by omega] at this
    exact this

/-! ## The texts of the two numbers -/

theorem printInt_whole (t : ℤ) (ht : |t| < 2147483648) :
    ∃ ti, printInt (BitVec.ofInt 32 t) 10 (-1) = some ((if t < 0 then [0x2D#8] else []) ++ ti) ∧
      ti ≠ [] ∧ textVal 10 ti = some t.natAbs := by
  rw [abs_lt] at ht
  have hti : (BitVec.ofInt 32 t).toInt = t := by
    rw [BitVec.toInt_ofInt]
    apply Int.bmod_eq_of_le <;> omega
  have hslt : (BitVec.ofInt 32 t).slt 0#32 = decide (t < 0) := by
    rw [BitVec.slt_eq_decide, hti]; rfl
  unfold printInt
  rw [hslt]
  by_cases hneg : t < 0
  · obtain ⟨s, s1, s2, -, s4, -⟩ := C35_print_unsigned (-(BitVec.ofInt 32 t)) 10 (by omega) (by omega)
      (-1 - 1) (by omega)
    rw [if_pos (by simpa using hneg), s1, if_pos hneg]
    refine ⟨s, rfl, s4, ?_⟩
    rw [s2]
    congr 1
    rw [← BitVec.ofInt_neg, BitVec.toNat_ofInt]
    omega
  · obtain ⟨s, s1, s2, -, s4, -⟩ := C35_print_unsigned (BitVec.ofInt 32 t) 10 (by omega) (by omega)
      (-1) (by omega)
    rw [if_neg (by simpa using hneg), s1, if_neg hneg]
    refine ⟨s, rfl, s4, ?_⟩
    rw [s2]
    congr 1
    rw [BitVec.toNat_ofInt]
    omega

/-- A number below `10 ^ p` printed with `p` digits has exactly `p` digits. -/
theorem printInt_digits (d p : ℕ) (hd : d < 10 ^ p) (hp : 1 ≤ p) (hp' : p ≤ 7) :
    ∃ td, printInt (BitVec.ofInt 32 (d : ℤ)) 10 (p : ℤ) = some td ∧ td.length = p ∧
      textVal 10 td = some d := by
  have h7 : 10 ^ p ≤ 10 ^ 7 := Nat.pow_le_pow_right (by omega) hp'
  have hd' : d < 10000000 := by
    have : (10 : ℕ) ^ 7 = 10000000 := by norm_num
    omega
  have hn : (BitVec.ofInt 32 (d : ℤ)).toNat = d := by
    rw [BitVec.toNat_ofInt]
    omega
  have hti : (BitVec.ofInt 32 (d : ℤ)).toInt = d := by
    rw [BitVec.toInt_ofInt]
    apply Int.bmod_eq_of_le <;> omega
  have hslt : (BitVec.ofInt 32 (d : ℤ)).slt 0#32 = false := by
    rw [BitVec.slt_eq_decide, hti]
    simp
  unfold printInt
  rw [hslt, if_neg Bool.false_ne_true]
  unfold printUInt
  dsimp only
  rw [show (if (10 : ℕ) < 2 then 2 else 10) = 10 from rfl, hn]
  have hlt : d < 2 ^ ((p : ℤ).toNat + 33) :=
    lt_of_lt_of_le (by norm_num; omega : d < 2 ^ 33) (Nat.pow_le_pow_right (by omega) (by omega))
  obtain ⟨k, k1, k2, k3, k4, k5, -⟩ := printLoop_spec 10 (by omega) (by omega) ((p : ℤ).toNat + 33) d p [] 0
    rfl hlt (by omega) (by omega)
  simp only [List.length_nil, Nat.add_zero] at k2
  have hkp : k = p := by
    by_cases h1 : k = 1
    · omega
    · rcases k5 h1 with h | h
      · omega
      · by_contra hne
        have : 10 ^ p ≤ 10 ^ (k - 1) := Nat.pow_le_pow_right (by omega) (by omega)
        omega
  rw [if_pos (by rw [k2, hkp]; unfold PRINTBUF_SIZE; omega)]
  refine ⟨_, rfl, by rw [k2, hkp], ?_⟩
  rw [k3]
  simp

/-! ## The whole call -/

theorem toInt32_some (x : ℝ) (hx : |truncate x| < 2147483648) :
    toInt32 (floats F) (some x) = some (BitVec.ofInt 32 (truncate x)) := by
  rw [abs_lt] at hx
  unfold toInt32
  rw [show (floats F).toInt (some x) = truncate x from rfl]
  dsimp only
  rw [if_pos (by omega)]

theorem truncate_range {v : ℝ} (hr : |v| < 2 ^ 31) : |truncate v| < 2147483648 := by
  have := lt_of_le_of_lt (truncate_abs_le v) hr
  have h2 : |(truncate v : ℝ)| < ((2147483648 : ℤ) : ℝ) := by push_cast; linarith
  exact_mod_cast h2

/-- What is printed: the whole part, a point, and `p` digits of the fraction, cut off. -/
theorem printFloat_text (h : Ieee F) (hn : Nearest F) {v : ℝ} (hv : IsFloat F v) (hr : |v| < 2 ^ 31)
    (p : ℤ) (hp : 1 ≤ p) :
    ∃ (ti td : List Byte) (D : ℕ), printFloat (floats F) (some v) p =
        some ((if truncate v < 0 then [0x2D#8] else []) ++ ti ++ 0x2E#8 :: td) ∧
      ti ≠ [] ∧ textVal 10 ti = some (truncate v).natAbs ∧ td.length = (min p 7).toNat ∧
      textVal 10 td = some D ∧
      |(D : ℝ) / 10 ^ (min p 7).toNat - (|v - truncate v|)| ≤ 1 / 10 ^ (min p 7).toNat + 1 / 2 ^ 20 := by
  have hrange := truncate_range hr
  obtain ⟨hex, hfr⟩ := fraction_exact h hv
  obtain ⟨ti, hti, hti0, htiv⟩ := printInt_whole _ hrange
  have zero : F.rnd 0 = 0 := by
    have := h.exact 0 0 (by norm_num) (by norm_num)
    simpa using this
  have hback : (BitVec.ofInt 32 (truncate v)).toInt = truncate v := by
    rw [abs_lt] at hrange
    rw [BitVec.toInt_ofInt]
    apply Int.bmod_eq_of_le <;> omega
  have hsub : (floats F).sub (some v) ((floats F).ofInt (truncate v)) = some (v - truncate v) := by
    simp only [floats, Option.bind_some, Option.map_some]
    rw [hex]
  have habs : (if (floats F).lt ((floats F).ofInt 0) (some (v - truncate v)) then some (v - truncate v)
      else (floats F).neg (some (v - truncate v))) = some |v - truncate v| := by
    have hlt : (floats F).lt ((floats F).ofInt 0) (some (v - truncate v)) = decide (0 < v - truncate v) := by
      simp only [floats]
      rw [Int.cast_zero, zero]
    rw [hlt]
    by_cases hc : 0 < v - truncate v
    · rw [if_pos (by simpa using hc), abs_of_pos hc]
    · rw [if_neg (by simpa using hc), abs_of_nonpos (not_lt.1 hc)]
      rfl
  -- the precision
  have hmin : (if 7 < p then 7 else p) = min p 7 := by
    by_cases h7 : 7 < p
    · rw [if_pos h7]; omega
    · rw [if_neg h7]; omega
  obtain ⟨q, hq⟩ : ∃ q : ℕ, min p 7 = q := ⟨(min p 7).toNat, by omega⟩
  have hq1 : 1 ≤ q := by omega
  have hq7 : q ≤ 7 := by omega
  rw [hq, Int.toNat_natCast]
  -- the digits
  obtain ⟨b0, b1, b2⟩ := scaleR_bounds h hn |v - truncate v| q 0 |v - truncate v| (by omega)
    (abs_nonneg _) (by simpa [top] using hfr) (by simp)
  rw [Nat.zero_add] at b1 b2
  generalize hx : scaleR F q |v - truncate v| = x at *
  have hfl : truncate x = ⌊x⌋ := by unfold truncate; rw [if_neg (not_lt.2 b0)]
  have hD0 : 0 ≤ truncate x := by rw [hfl]; exact Int.floor_nonneg.2 b0
  obtain ⟨D, hD⟩ := Int.eq_ofNat_of_zero_le hD0
  have f1 := Int.floor_le x
  have f2 := Int.lt_floor_add_one x
  rw [← hfl, hD] at f1 f2
  push_cast at f1 f2
  have hDlt : D < 10 ^ q := by
    have := top_lt q hq7
    have : (D : ℝ) < 10 ^ q := by linarith
    exact_mod_cast this
  obtain ⟨td, htd, htdl, htdv⟩ := printInt_digits D q hDlt hq1 hq7
  have hD7 : D < 2147483648 := by
    have h7 : 10 ^ q ≤ 10 ^ 7 := Nat.pow_le_pow_right (by omega) hq7
    have : (10 : ℕ) ^ 7 = 10000000 := by norm_num
    omega
  refine ⟨ti, td, D, ?_, hti0, htiv, htdl, htdv, ?_⟩
  · unfold printFloat
    rw [toInt32_some v hrange, Option.bind_some]
    dsimp only
    rw [hback, hsub, habs, hti, Option.bind_some, if_neg (by omega), hmin, hq, Int.toNat_natCast,
      scale_some h, hx, toInt32_some x (by rw [hD, abs_of_nonneg (by omega)]; omega), Option.bind_some,
      hD]
    rw [htd]
    rfl
  · have hpow : (0 : ℝ) < 10 ^ q := by positivity
    have hq' : (q : ℝ) ≤ 7 := by exact_mod_cast hq7
    have h1 : |(D : ℝ) - |v - truncate v| * 10 ^ q| ≤ 1 + 10 ^ q / 2 ^ 20 := by
      have c1 : (q : ℝ) * 10 ^ q * (1 / 2 ^ 23 + 1 / 2 ^ 100) ≤ 10 ^ q / 2 ^ 20 := by
        have : (q : ℝ) * 10 ^ q ≤ 7 * 10 ^ q := mul_le_mul_of_nonneg_right hq' hpow.le
        calc (q : ℝ) * 10 ^ q * (1 / 2 ^ 23 + 1 / 2 ^ 100) ≤ 7 * 10 ^ q * (1 / 2 ^ 23 + 1 / 2 ^ 100) :=
              mul_le_mul_of_nonneg_right this (by positivity)
          _ = 10 ^ q * (7 * (1 / 2 ^ 23 + 1 / 2 ^ 100)) := by ring
          _ ≤ 10 ^ q * (1 / 2 ^ 20) := mul_le_mul_of_nonneg_left (by norm_num) hpow.le
          _ = 10 ^ q / 2 ^ 20 := by ring
      have := abs_le.1 (b2.trans c1)
      rw [abs_le]
      constructor <;> linarith
    have h2 : (D : ℝ) / 10 ^ q - |v - truncate v| = ((D : ℝ) - |v - truncate v| * 10 ^ q) / 10 ^ q := by
      field_simp
    rw [h2, abs_div, abs_of_pos hpow, div_le_iff₀ hpow]
    refine h1.trans (le_of_eq ?_)
    field_simp

/-! ## The property -/

/-- **C101 (part).** For every float below 2^31 that is not between -1 and 0, and every precision of at
least 1, `print` writes a decimal number with that many places, at most 7, which differs from the
float by less than one unit of the last place plus 2^-20.  Missing: the numbers between -1 and 0 lose
their sign, see `C101_sign_lost`; from 2^31 the result is undefined, see `C101_out_of_range`. -/
theorem C101_print_float_partial (h : Ieee F) (hn : Nearest F) (v : ℝ) (hv : IsFloat F v)
    (hr : |v| < 2 ^ 31) (h0 : 0 ≤ v ∨ v ≤ -1) (p : ℤ) (hp : 1 ≤ p) :
    ∃ s x, printFloat (floats F) (some v) p = some s ∧ Denotes s (min p 7).toNat x ∧
      |x - v| ≤ 1 / 10 ^ (min p 7).toNat + 1 / 2 ^ 20 := by
  obtain ⟨ti, td, D, e, ht0, htv, hdl, hdv, hD⟩ := printFloat_text h hn hv hr p hp
  generalize (min p 7).toNat = q at *
  rcases h0 with h0 | h0
  · obtain ⟨a1, a2, -⟩ := truncate_pos h0
    refine ⟨_, _, e, ⟨false, ti, td, (truncate v).natAbs, D, ?_, ht0, htv, hdl, hdv, rfl⟩, ?_⟩
    · rw [if_neg (by omega)]; rfl
    · have hc : (((truncate v).natAbs : ℕ) : ℝ) = truncate v := by
        rw [Nat.cast_natAbs, abs_of_nonneg a1]
      rw [abs_of_nonneg a2] at hD
      rw [hc]
      have : (if false = true then (-1 : ℝ) else 1) * ((truncate v : ℝ) + D / 10 ^ q) - v =
          D / 10 ^ q - (v - truncate v) := by
        rw [if_neg Bool.false_ne_true]; ring
      rw [this]
      exact hD
  · have hneg : v < 0 := by linarith
    obtain ⟨a1, a2, a3⟩ := truncate_negative hneg
    have hlt : truncate v < 0 := by
      unfold truncate
      rw [if_pos hneg]
      have : 1 ≤ ⌊-v⌋ := Int.le_floor.2 (by push_cast; linarith)
      omega
    refine ⟨_, _, e, ⟨true, ti, td, (truncate v).natAbs, D, ?_, ht0, htv, hdl, hdv, rfl⟩, ?_⟩
    · rw [if_pos hlt]; rfl
    · have hc : (((truncate v).natAbs : ℕ) : ℝ) = -truncate v := by
        rw [Nat.cast_natAbs, abs_of_nonpos a1]
        push_cast
        rfl
      rw [abs_of_nonpos a2] at hD
      rw [hc]
      have : (if true = true then (-1 : ℝ) else 1) * (-(truncate v : ℝ) + D / 10 ^ q) - v =
          -(D / 10 ^ q - -(v - truncate v)) := by
        rw [if_pos rfl]; ring
      rw [this, abs_neg]
      exact hD

/-- **C101**, finding.  The numbers between -1 and 0 are written without their sign: the same text as
for the positive number. -/
theorem C101_sign_lost (h : Ieee F) (v : ℝ) (hv : IsFloat F v) (hv' : IsFloat F (-v)) (h0 : -1 < v)
    (h1 : v < 0) (p : ℤ) : printFloat (floats F) (some v) p = printFloat (floats F) (some (-v)) p := by
  have zero : F.rnd 0 = 0 := by
    have := h.exact 0 0 (by norm_num) (by norm_num)
    simpa using this
  have t1 : truncate v = 0 := by
    unfold truncate
    rw [if_pos h1]
    have : ⌊-v⌋ = 0 := Int.floor_eq_zero_iff.2 ⟨by linarith, by linarith⟩
    omega
  have t2 : truncate (-v) = 0 := by
    unfold truncate
    rw [if_neg (by linarith)]
    exact Int.floor_eq_zero_iff.2 ⟨by linarith, by linarith⟩
  have hz : ∀ w : ℝ, truncate w = 0 → IsFloat F w →
      (floats F).sub (some w) ((floats F).ofInt ((BitVec.ofInt 32 0).toInt)) = some w := by
    intro w _ hw
    simp only [floats, Option.bind_some, Option.map_some]
    rw [show ((BitVec.ofInt 32 0).toInt : ℝ) = 0 by norm_num, zero, sub_zero, hw.1]
  have hlt : ∀ w : ℝ, (floats F).lt ((floats F).ofInt 0) (some w) = decide (0 < w) := by
    intro w
    simp only [floats]
    rw [Int.cast_zero, zero]
  unfold printFloat
  rw [toInt32_some v (by rw [t1]; norm_num), toInt32_some (-v) (by rw [t2]; norm_num), t1, t2]
  simp only [Option.bind_some]
  have e1 : (if (floats F).lt ((floats F).ofInt 0) (some v) then some v else (floats F).neg (some v)) =
      some (-v) := by
    rw [hlt, if_neg (by simpa using h1.le)]
    rfl
  have e2 : (if (floats F).lt ((floats F).ofInt 0) (some (-v)) then some (-v)
      else (floats F).neg (some (-v))) = some (-v) := by
    rw [hlt, if_pos (by simpa using h1)]
  rw [hz v t1 hv, hz (-v) t2 hv', e1, e2]

/-- **C101.** With a precision below 1 only the whole part is written. -/
theorem C101_no_places (v : ℝ) (hr : |v| < 2 ^ 31) (p : ℤ) (hp : p < 1) :
    ∃ ti, printFloat (floats F) (some v) p = some ((if truncate v < 0 then [0x2D#8] else []) ++ ti) ∧
      ti ≠ [] ∧ textVal 10 ti = some (truncate v).natAbs := by
  have hrange := truncate_range hr
  obtain ⟨ti, hti, hti0, htiv⟩ := printInt_whole _ hrange
  refine ⟨ti, ?_, hti0, htiv⟩
  unfold printFloat
  rw [toInt32_some v hrange, Option.bind_some]
  dsimp only
  rw [hti, Option.bind_some, if_pos hp]

/-- **C101**, finding.  From 2^31 on the conversion to `int` is undefined. -/
theorem C101_out_of_range (v : ℝ) (hr : 2 ^ 31 ≤ v) (p : ℤ) :
    printFloat (floats F) (some v) p = none := by
  have : ¬ (truncate v ≤ 2147483647) := by
    unfold truncate
    rw [if_neg (by linarith [show (0 : ℝ) < 2 ^ 31 by norm_num])]
    have : (2147483648 : ℤ) ≤ ⌊v⌋ := Int.le_floor.2 (by push_cast; linarith)
    omega
  have h1 : toInt32 (floats F) (some v) = none := by
    unfold toInt32
    rw [show (floats F).toInt (some v) = truncate v from rfl]
    dsimp only
    rw [if_neg (by omega)]
  unfold printFloat
  rw [h1]
  rfl

/-- **C101.** `println` adds a line end. -/
theorem C101_println (v : ℝ) (p : ℤ) (s : List Byte) (hs : printFloat (floats F) (some v) p = some s) :
    printlnFloat (floats F) (some v) p = some (s ++ [0x0D#8, 0x0A#8]) := by
  unfold printlnFloat
  rw [hs]
  rfl

/-! Concrete cases with binary32, rounding to the nearest: 21.75 and -5.5 are printed with two places,
-0.5 like 0.5. -/

theorem isFloat_frac (n : ℤ) (k : ℕ) (hn : |n| ≤ 2 ^ 24) (hk : k ≤ 100) :
    IsFloat nearest32 ((n : ℝ) / 2 ^ k) :=
  ⟨nearest32_ieee.exact n k hn hk, n, -(k : ℤ), hn, by
    rw [zpow_neg, zpow_natCast, div_eq_mul_inv]⟩

example : ∃ s x, printFloat (floats nearest32) (some 21.75) 2 = some s ∧ Denotes s 2 x ∧
    |x - 21.75| ≤ 0.0101 := by
  have hf := isFloat_frac 87 2 (by norm_num) (by norm_num)
  have e : ((87 : ℤ) : ℝ) / 2 ^ 2 = 21.75 := by norm_num
  rw [e] at hf
  obtain ⟨s, x, h1, h2, h3⟩ := C101_print_float_partial nearest32_ieee nearest32_nearest 21.75 hf
    (by rw [abs_of_pos] <;> norm_num) (by norm_num) 2 (by norm_num)
  refine ⟨s, x, h1, h2, h3.trans ?_⟩
  rw [show (min 2 7 : ℤ).toNat = 2 from rfl]
  norm_num

example : ∃ s x, printFloat (floats nearest32) (some (-5.5)) 2 = some s ∧ Denotes s 2 x ∧
    |x - -5.5| ≤ 0.0101 := by
  have hf := isFloat_frac (-11) 1 (by norm_num) (by norm_num)
  have e : ((-11 : ℤ) : ℝ) / 2 ^ 1 = -5.5 := by norm_num
  rw [e] at hf
  obtain ⟨s, x, h1, h2, h3⟩ := C101_print_float_partial nearest32_ieee nearest32_nearest (-5.5) hf
    (by rw [abs_of_neg] <;> norm_num) (by norm_num) 2 (by norm_num)
  refine ⟨s, x, h1, h2, h3.trans ?_⟩
  rw [show (min 2 7 : ℤ).toNat = 2 from rfl]
  norm_num

example : printFloat (floats nearest32) (some (-0.5)) 2 = printFloat (floats nearest32) (some (- -0.5)) 2 := by
  have hf := isFloat_frac (-1) 1 (by norm_num) (by norm_num)
  have hf' := isFloat_frac 1 1 (by norm_num) (by norm_num)
  have e : ((-1 : ℤ) : ℝ) / 2 ^ 1 = -0.5 := by norm_num
  have e' : ((1 : ℤ) : ℝ) / 2 ^ 1 = - -0.5 := by norm_num
  rw [e] at hf
  rw [e'] at hf'
  exact C101_sign_lost nearest32_ieee (-0.5) hf hf' (by norm_num) (by norm_num) 2

/-- The text `-5.50` denotes -5.5. -/
example : Denotes [0x2D#8, 0x35#8, 0x2E#8, 0x35#8, 0x30#8] 2 (-5.5) :=
  ⟨true, [0x35#8], [0x35#8, 0x30#8], 5, 50, rfl, by decide, rfl, rfl, rfl, by norm_num⟩

end Verif.Text
