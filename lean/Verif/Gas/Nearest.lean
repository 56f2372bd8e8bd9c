import Verif.Gas.Binary32

/-!
# Rounding to the nearest number

`Nearest` is what some properties need in addition to `Ieee`: the rounding of the processor's
default mode.  `nearest32` is such a rounding.
-/

namespace Verif.Gas

/-- A number closer than half a unit in the last place to a number with 24 significant bits is
rounded to that. -/
def Nearest (F : Flt) : Prop := ∀ (x : ℝ) (n : ℤ) (k : ℕ), 2 ^ 23 < n → n < 2 ^ 24 → k ≤ 100 →
  |x - n / 2 ^ k| < 1 / 2 ^ (k + 1) → F.rnd x = n / 2 ^ k

/-- Rounding upwards. -/
noncomputable def up (x : ℝ) : ℝ := -down (-x)

theorem Format.neg {g : ℝ} (h : Format g) : Format (-g) := by
  obtain ⟨m, e, hm, he, rfl⟩ := h
  exact ⟨-m, e, by rwa [abs_neg], he, by push_cast; ring⟩

theorem le_up (x : ℝ) : x ≤ up x := by
  have := down_le (-x)
  unfold up
  linarith

theorem up_format (x : ℝ) : Format (up x) := (down_format (-x)).neg

theorem up_le {x g : ℝ} (hg : Format g) (h : x ≤ g) : up x ≤ g := by
  have := le_down hg.neg (by linarith : -g ≤ -x)
  unfold up
  linarith

/-- The nearer one of the two neighbours, the lower one if both are equally near.  (The processor
takes the even one of the two then; no property depends on that.) -/
noncomputable def nearest (x : ℝ) : ℝ := if x - down x ≤ up x - x then down x else up x

theorem nearest_format (x : ℝ) : Format (nearest x) := by
  unfold nearest
  by_cases h : x - down x ≤ up x - x
  · rw [if_pos h]; exact down_format x
  · rw [if_neg h]; exact up_format x

theorem down_le_nearest (x : ℝ) : down x ≤ nearest x := by
  have h1 := down_le x
  have h2 := le_up x
  unfold nearest
  by_cases h : x - down x ≤ up x - x
  · rw [if_pos h]
  · rw [if_neg h]; linarith

theorem nearest_le_up (x : ℝ) : nearest x ≤ up x := by
  have h1 := down_le x
  have h2 := le_up x
  unfold nearest
  by_cases h : x - down x ≤ up x - x
  · rw [if_pos h]; linarith
  · rw [if_neg h]

theorem nearest_eq {g : ℝ} (hg : Format g) : nearest g = g := by
  refine le_antisymm ((nearest_le_up g).trans (up_le hg le_rfl)) ?_
  exact (le_down hg le_rfl).trans (down_le_nearest g)

theorem nearest_dist (x : ℝ) {g : ℝ} (hg : Format g) : |nearest x - x| ≤ |g - x| := by
  have h1 := down_le x
  have h2 := le_up x
  rcases le_total g x with hx | hx
  · have hd := le_down hg hx
    rw [abs_of_nonpos (by linarith : g - x ≤ 0)]
    unfold nearest
    by_cases h : x - down x ≤ up x - x
    · rw [if_pos h, abs_of_nonpos (by linarith)]; linarith
    · rw [if_neg h, abs_of_nonneg (by linarith)]; linarith
  · have hu := up_le hg hx
    rw [abs_of_nonneg (by linarith : 0 ≤ g - x)]
    unfold nearest
    by_cases h : x - down x ≤ up x - x
    · rw [if_pos h, abs_of_nonpos (by linarith)]; linarith
    · rw [if_neg h, abs_of_nonneg (by linarith)]; linarith

theorem nearest_mono {x y : ℝ} (h : x ≤ y) : nearest x ≤ nearest y := by
  by_cases hy : up x ≤ y
  · exact (nearest_le_up x).trans ((le_down (up_format x) hy).trans (down_le_nearest y))
  · have hy' : y < up x := not_le.1 hy
    have hd : down y = down x := by
      refine le_antisymm ?_ (le_down (down_format x) ((down_le x).trans h))
      refine le_down (down_format y) ?_
      by_contra hh
      have := up_le (down_format y) (not_le.1 hh).le
      have := down_le y
      linarith
    have hu : up y = up x :=
      le_antisymm (up_le (up_format x) hy'.le) (up_le (up_format y) (h.trans (le_up y)))
    have h1 := down_le x
    have h2 := le_up x
    unfold nearest
    rw [hd, hu]
    by_cases c : x - down x ≤ up x - x
    · rw [if_pos c]
      by_cases c' : y - down x ≤ up x - y
      · rw [if_pos c']
      · rw [if_neg c']; linarith
    · rw [if_neg c, if_neg (by linarith)]

theorem nearest_err (x : ℝ) : |nearest x - x| ≤ |x| / 2 ^ 23 + 1 / 2 ^ 100 :=
  (nearest_dist x (down_format x)).trans (down_err x)

/-- Binary32 without overflow, rounding to the nearest number. -/
noncomputable def nearest32 : Flt := { rnd := nearest, exp := fun x => nearest (Real.exp x) }

theorem format_frac (n : ℤ) (k : ℕ) (hn : |n| ≤ 2 ^ 24) (hk : k ≤ 149) : Format ((n : ℝ) / 2 ^ k) :=
  ⟨n, -(k : ℤ), hn, by omega, by rw [zpow_neg, zpow_natCast, div_eq_mul_inv]⟩

theorem nearest32_ieee : Ieee nearest32 where
  mono _ _ h := nearest_mono h
  idem x := nearest_eq (nearest_format x)
  exact n k hn hk := nearest_eq (format_frac n k hn (by omega))
  err := nearest_err
  exp_nonneg x := by
    have h0 : Format 0 := ⟨0, 0, by decide, by decide, by simp⟩
    have := nearest_mono (Real.exp_pos x).le
    rwa [nearest_eq h0] at this
  exp_err x _ := by
    have := nearest_err (Real.exp x)
    rw [abs_of_pos (Real.exp_pos x)] at this
    refine le_trans this ?_
    have p := Real.exp_pos x
    have : Real.exp x / 2 ^ 23 ≤ Real.exp x / 2 ^ 20 :=
      div_le_div_of_nonneg_left p.le (by norm_num) (by norm_num)
    linarith

theorem nearest32_nearest : Nearest nearest32 := by
  intro x n k hn hn' hk hx
  have hp : (0 : ℝ) < 2 ^ k := by positivity
  have hf := format_frac n k (by rw [abs_of_pos (by omega)]; omega) (by omega : k ≤ 149)
  have hd := nearest_dist x hf
  rw [abs_sub_comm ((n : ℝ) / 2 ^ k) x] at hd
  obtain ⟨m, e, hm, -, hg⟩ := nearest_format x
  show nearest x = _
  -- the result is less than one unit away
  have hclose : |nearest x - n / 2 ^ k| < 1 / 2 ^ k := by
    calc |nearest x - n / 2 ^ k| = |(nearest x - x) + (x - n / 2 ^ k)| := by ring_nf
      _ ≤ |nearest x - x| + |x - n / 2 ^ k| := abs_add_le _ _
      _ < 1 / 2 ^ (k + 1) + 1 / 2 ^ (k + 1) := by linarith
      _ = 1 / 2 ^ k := by rw [pow_succ]; field_simp; norm_num
  rw [hg] at hclose ⊢
  -- and a multiple of the unit
  have hbig : (2 : ℝ) ^ 23 / 2 ^ k < m * 2 ^ e := by
    have h1 := (abs_lt.1 hclose).1
    have h2 : ((2 : ℝ) ^ 23 + 1) / 2 ^ k ≤ n / 2 ^ k := by
      apply div_le_div_of_nonneg_right _ hp.le
      exact_mod_cast (by omega : (2 : ℤ) ^ 23 + 1 ≤ n)
    have h3 : ((2 : ℝ) ^ 23 + 1) / 2 ^ k = 2 ^ 23 / 2 ^ k + 1 / 2 ^ k := by ring
    linarith
  have he : -(k : ℤ) ≤ e := by
    by_contra hc
    have hm' : (m : ℝ) ≤ 2 ^ 24 := by exact_mod_cast (abs_le.1 hm).2
    have h1 : (m : ℝ) * 2 ^ e ≤ 2 ^ 24 * 2 ^ (-(k : ℤ) - 1) := by
      refine mul_le_mul hm' (zpow_le_zpow_right₀ (by norm_num) (by omega)) (two_pos _).le (by norm_num)
    have h2 : (2 : ℝ) ^ 24 * 2 ^ (-(k : ℤ) - 1) = 2 ^ 23 / 2 ^ k := by
      rw [zpow_sub₀ (by norm_num), zpow_neg, zpow_natCast]
      field_simp
    linarith
  obtain ⟨d, hd'⟩ := Int.le.dest he
  have hmul : (m : ℝ) * 2 ^ e = ((m * 2 ^ d : ℤ) : ℝ) / 2 ^ k := by
    rw [← hd', zpow_add₀ (by norm_num), zpow_neg, zpow_natCast, zpow_natCast]
    push_cast
    field_simp
  rw [hmul] at hclose ⊢
  have : |((m * 2 ^ d - n : ℤ) : ℝ)| < 1 := by
    rw [← sub_div, abs_div, abs_of_pos hp, div_lt_div_iff_of_pos_right hp] at hclose
    push_cast at hclose ⊢
    exact hclose
  have h0 : |m * 2 ^ d - n| < 1 := by exact_mod_cast this
  have : m * 2 ^ d - n = 0 := Int.abs_lt_one_iff.1 h0
  rw [show m * 2 ^ d = n by omega]

end Verif.Gas
