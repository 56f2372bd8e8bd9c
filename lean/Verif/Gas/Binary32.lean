import Mathlib.Data.Int.Log
import Verif.Gas.Num

/-!
# A float arithmetic that meets the assumptions

Numbers of the form `m * 2 ^ e` with a significand of 24 bits and `e ≥ -149` — the numbers of
IEEE 754 binary32, without an upper limit of the exponent — rounded downwards.
-/

namespace Verif.Gas

/-- The exponent of the last bit of the significand of a number near `x`. -/
noncomputable def ulpExp (x : ℝ) : ℤ := max (Int.log 2 |x| - 23) (-149)

/-- Rounding downwards to 24 bits. -/
noncomputable def down (x : ℝ) : ℝ := ⌊x / 2 ^ ulpExp x⌋ * 2 ^ ulpExp x

/-- The numbers of the format. -/
def Format (g : ℝ) : Prop := ∃ m e : ℤ, |m| ≤ 2 ^ 24 ∧ -149 ≤ e ∧ g = m * 2 ^ e

theorem two_pos (e : ℤ) : (0 : ℝ) < 2 ^ e := by positivity

theorem down_le (x : ℝ) : down x ≤ x := by
  unfold down
  have := Int.floor_le (x / 2 ^ ulpExp x)
  rwa [le_div_iff₀ (two_pos _)] at this

theorem lt_down (x : ℝ) : x - 2 ^ ulpExp x < down x := by
  unfold down
  have := Int.lt_floor_add_one (x / 2 ^ ulpExp x)
  rw [div_lt_iff₀ (two_pos _)] at this
  linarith

theorem abs_lt_ulp (x : ℝ) : |x| < 2 ^ (ulpExp x + 24) := by
  have h1 : |x| < (2 : ℝ) ^ (Int.log 2 |x| + 1) := by
    have := Int.lt_zpow_succ_log_self (b := 2) (by norm_num) |x|
    exact_mod_cast this
  refine lt_of_lt_of_le h1 (zpow_le_zpow_right₀ (by norm_num) ?_)
  have : Int.log 2 |x| - 23 ≤ ulpExp x := le_max_left _ _
  omega

theorem down_format (x : ℝ) : Format (down x) := by
  refine ⟨⌊x / 2 ^ ulpExp x⌋, ulpExp x, ?_, le_max_right _ _, rfl⟩
  have h := abs_lt.1 (abs_lt_ulp x)
  have e : (2 : ℝ) ^ (ulpExp x + 24) = 2 ^ 24 * 2 ^ ulpExp x := by
    rw [zpow_add₀ (by norm_num), mul_comm]; norm_num
  rw [e] at h
  refine abs_le.2 ⟨Int.le_floor.2 ?_, ?_⟩
  · push_cast; rw [le_div_iff₀ (two_pos _)]; linarith
  · have : ⌊x / 2 ^ ulpExp x⌋ < 2 ^ 24 := Int.floor_lt.2 (by
      push_cast; rw [div_lt_iff₀ (two_pos _)]; linarith)
    omega

/-- A multiple of the last bit below `x` is not above the rounded value. -/
theorem le_down_mult (x : ℝ) (z : ℤ) (h : z * 2 ^ ulpExp x ≤ x) :
    z * 2 ^ ulpExp x ≤ down x := by
  unfold down
  refine mul_le_mul_of_nonneg_right ?_ (two_pos _).le
  have : z ≤ ⌊x / 2 ^ ulpExp x⌋ := Int.le_floor.2 (by rw [le_div_iff₀ (two_pos _)]; exact h)
  exact_mod_cast this

theorem le_down {x g : ℝ} (hg : Format g) (h : g ≤ x) : g ≤ down x := by
  obtain ⟨m, f, hm, hf, rfl⟩ := hg
  by_cases hc : ulpExp x ≤ f
  · obtain ⟨d, hd⟩ := Int.le.dest hc
    have e : (m : ℝ) * 2 ^ f = ((m * 2 ^ d : ℤ) : ℝ) * 2 ^ ulpExp x := by
      rw [← hd, zpow_add₀ (by norm_num)]; push_cast; rw [zpow_natCast]; ring
    rw [e] at h ⊢
    exact le_down_mult x _ h
  · have hc' : f + 1 ≤ ulpExp x := by omega
    have hlog : ulpExp x = Int.log 2 |x| - 23 := by
      unfold ulpExp at hc' ⊢
      rcases max_choice (Int.log 2 |x| - 23) (-149) with hh | hh
      · exact hh
      · rw [hh] at hc'; omega
    have ab : |(m : ℝ) * 2 ^ f| ≤ 2 ^ (ulpExp x + 23) := by
      rw [abs_mul, abs_of_pos (two_pos f)]
      have hm' : |(m : ℝ)| ≤ 2 ^ 24 := by exact_mod_cast hm
      calc |(m : ℝ)| * 2 ^ f ≤ 2 ^ 24 * 2 ^ f := mul_le_mul_of_nonneg_right hm' (two_pos f).le
        _ = 2 ^ (f + 24) := by rw [zpow_add₀ (by norm_num), mul_comm]; norm_num
        _ ≤ 2 ^ (ulpExp x + 23) := zpow_le_zpow_right₀ (by norm_num) (by omega)
    have e23 : ∀ s : ℤ, ((s * 2 ^ 23 : ℤ) : ℝ) * 2 ^ ulpExp x = s * 2 ^ (ulpExp x + 23) := by
      intro s
      rw [zpow_add₀ (by norm_num)]; push_cast; norm_num; ring
    by_cases x0 : x = 0
    · subst x0
      have hm0 : m ≤ 0 := by
        have : (m : ℝ) ≤ 0 := by
          by_contra hh
          have := mul_pos (by linarith : (0 : ℝ) < m) (two_pos f)
          linarith
        exact_mod_cast this
      have := le_down_mult 0 0 (by simp)
      refine le_trans h ?_
      simpa using this
    · have low : (2 : ℝ) ^ (ulpExp x + 23) ≤ |x| := by
        have := Int.zpow_log_le_self (b := 2) (by norm_num) (abs_pos.2 x0)
        rw [hlog, sub_add_cancel]
        exact_mod_cast this
      have ab2 := abs_le.1 ab
      by_cases xp : 0 ≤ x
      · rw [abs_of_nonneg xp] at low
        have := le_down_mult x (1 * 2 ^ 23) (by rw [e23]; simpa using low)
        rw [e23] at this
        refine le_trans ab2.2 ?_
        simpa using this
      · rw [abs_of_neg (by linarith)] at low
        have eqg : (m : ℝ) * 2 ^ f = -(2 ^ (ulpExp x + 23)) := by linarith [ab2.1]
        have := le_down_mult x (-1 * 2 ^ 23) (by rw [e23]; push_cast; linarith)
        rw [e23] at this
        rw [eqg]
        simpa using this

theorem down_eq {g : ℝ} (hg : Format g) : down g = g :=
  le_antisymm (down_le g) (le_down hg (le_refl g))

theorem ulp_le {x : ℝ} (x0 : x ≠ 0) : (2 : ℝ) ^ ulpExp x ≤ |x| / 2 ^ 23 + 1 / 2 ^ 149 := by
  unfold ulpExp
  rcases max_choice (Int.log 2 |x| - 23) (-149) with hh | hh
  · rw [hh]
    have := Int.zpow_log_le_self (b := 2) (by norm_num) (abs_pos.2 x0)
    have t : (2 : ℝ) ^ Int.log 2 |x| ≤ |x| := by exact_mod_cast this
    have e : (2 : ℝ) ^ (Int.log 2 |x| - 23) = 2 ^ Int.log 2 |x| / 2 ^ 23 := by
      rw [zpow_sub₀ (by norm_num)]; norm_num
    rw [e]
    have : (2 : ℝ) ^ Int.log 2 |x| / 2 ^ 23 ≤ |x| / 2 ^ 23 :=
      div_le_div_of_nonneg_right t (by norm_num)
    have : (0 : ℝ) ≤ 1 / 2 ^ 149 := by positivity
    linarith
  · rw [hh]
    have : (0 : ℝ) ≤ |x| / 2 ^ 23 := by positivity
    have e : (2 : ℝ) ^ (-149 : ℤ) = 1 / 2 ^ 149 := by
      rw [zpow_neg]; norm_num
    rw [e]; linarith

theorem down_err (x : ℝ) : |down x - x| ≤ |x| / 2 ^ 23 + 1 / 2 ^ 100 := by
  have t : (1 : ℝ) / 2 ^ 149 ≤ 1 / 2 ^ 100 := by norm_num
  by_cases x0 : x = 0
  · subst x0
    have : down 0 = 0 := down_eq ⟨0, 0, by decide, by decide, by simp⟩
    rw [this]; simp
  · have h1 := down_le x
    have h2 := lt_down x
    have h3 := ulp_le x0
    rw [abs_of_nonpos (by linarith)]
    linarith

/-- Binary32 without overflow, rounding downwards, with an exponential function that is
rounded once. -/
noncomputable def binary32 : Flt := { rnd := down, exp := fun x => down (Real.exp x) }

theorem binary32_ieee : Ieee binary32 where
  mono x y h := le_down (down_format x) (le_trans (down_le x) h)
  idem x := down_eq (down_format x)
  exact n k hn hk := down_eq ⟨n, -(k : ℤ), hn, by omega, by
    rw [zpow_neg, zpow_natCast, div_eq_mul_inv]⟩
  err := down_err
  exp_nonneg x := le_down ⟨0, 0, by decide, by decide, by simp⟩ (Real.exp_pos x).le
  exp_err x _ := by
    have := down_err (Real.exp x)
    rw [abs_of_pos (Real.exp_pos x)] at this
    refine le_trans this ?_
    have p := Real.exp_pos x
    have : Real.exp x / 2 ^ 23 ≤ Real.exp x / 2 ^ 20 :=
      div_le_div_of_nonneg_left p.le (by norm_num) (by norm_num)
    linarith

/-- Exact arithmetic meets the assumptions too; the examples are computed in it. -/
noncomputable def exactly : Flt := { rnd := id, exp := Real.exp }

theorem exactly_ieee : Ieee exactly where
  mono _ _ h := h
  idem _ := rfl
  exact _ _ _ _ := rfl
  err x := by simp [exactly]; positivity
  exp_nonneg x := (Real.exp_pos x).le
  exp_err x _ := by
    have p := Real.exp_pos x
    simp only [exactly, sub_self, abs_zero]
    positivity

end Verif.Gas
