import Verif.Sht.DewModel
import Verif.Sht.DewSpec
import Verif.Sht.Num
import Verif.Sht.Props
import Mathlib.Tactic.FieldSimp

/-!
# C105: lemmas on dew points
-/

namespace Verif.Sht

open Verif.Gas

/-! ## The Magnus formula -/

section
variable {a b t h d : ℝ}

theorem dew_iff (hh : 0 < h) :
    DewPoint a b t h d ↔ -b < d ∧ a * d / (b + d) = Real.log (h / 100) + a * t / (b + t) := by
  unfold DewPoint saturation
  have h0 : 0 < h / 100 := by positivity
  constructor
  · rintro ⟨h1, h2⟩
    refine ⟨h1, ?_⟩
    have := congrArg Real.log h2
    rwa [Real.log_exp, Real.log_mul h0.ne' (Real.exp_ne_zero _), Real.log_exp] at this
  · rintro ⟨h1, h2⟩
    refine ⟨h1, ?_⟩
    rw [h2, Real.exp_add, Real.exp_log h0]

/-- The reciprocals of the temperatures over `-b` differ by a term of the humidity alone. -/
theorem dew_inv (ha : 0 < a) (hb : 0 < b) (ht : -b < t) (hh : 0 < h) (hd : DewPoint a b t h d) :
    1 / (b + d) = 1 / (b + t) + -Real.log (h / 100) / (a * b) := by
  obtain ⟨h1, h2⟩ := (dew_iff hh).1 hd
  have hu : 0 < b + d := by linarith
  have hv : 0 < b + t := by linarith
  have e : Real.log (h / 100) = a * d / (b + d) - a * t / (b + t) := by linarith
  rw [e]
  field_simp
  ring

theorem dew_formula (ha : 0 < a) (hb : 0 < b) (hh : 0 < h)
    (hg : Real.log (h / 100) + a * t / (b + t) < a) :
    DewPoint a b t h (b * (Real.log (h / 100) + a * t / (b + t)) /
      (a - (Real.log (h / 100) + a * t / (b + t)))) := by
  rw [dew_iff hh]
  generalize Real.log (h / 100) + a * t / (b + t) = g at hg
  have h0 : 0 < a - g := by linarith
  constructor
  · rw [lt_div_iff₀ h0]
    nlinarith
  · have : b + b * g / (a - g) = a * b / (a - g) := by field_simp; ring
    rw [this]
    field_simp

theorem dew_unique (ha : 0 < a) (hb : 0 < b) (ht : -b < t) (hh : 0 < h) {e : ℝ}
    (hd : DewPoint a b t h d) (he : DewPoint a b t h e) : d = e := by
  have h1 := dew_inv ha hb ht hh hd
  have h2 := dew_inv ha hb ht hh he
  rw [← h2] at h1
  have hu : 0 < b + d := by linarith [hd.1]
  have hv : 0 < b + e := by linarith [he.1]
  have : b + d = b + e := by
    rw [div_eq_div_iff hu.ne' hv.ne'] at h1
    linarith
  linarith

/-- What the humidity adds to the reciprocal: nothing for saturated air, more for drier air. -/
theorem dry_nonneg (ha : 0 < a) (hb : 0 < b) (hh : 0 < h) (h1 : h ≤ 100) :
    0 ≤ -Real.log (h / 100) / (a * b) := by
  have := Real.log_nonpos (show (0 : ℝ) ≤ h / 100 by positivity) (by linarith)
  have : 0 ≤ -Real.log (h / 100) := by linarith
  positivity

theorem dew_value (ha : 0 < a) (hb : 0 < b) (ht : -b < t) (hh : 0 < h) (hd : DewPoint a b t h d)
    {k : ℝ} (hk : k = -Real.log (h / 100) / (a * b)) (hp : 0 < 1 + k * (b + t)) :
    b + d = (b + t) / (1 + k * (b + t)) := by
  have h1 := dew_inv ha hb ht hh hd
  rw [← hk] at h1
  have hu : 0 < b + d := by linarith [hd.1]
  have hv : 0 < b + t := by linarith
  rw [eq_div_iff hp.ne']
  field_simp at h1
  linarith

/-- Air is not cooler than its dew point. -/
theorem dew_le (ha : 0 < a) (hb : 0 < b) (ht : -b < t) (hh : 0 < h) (h1 : h ≤ 100)
    (hd : DewPoint a b t h d) : d ≤ t := by
  have hk := dry_nonneg ha hb hh h1
  have hv : 0 < b + t := by linarith
  have hp := mul_nonneg hk hv.le
  have := dew_value ha hb ht hh hd rfl (by linarith)
  have h2 : (b + t) / (1 + -Real.log (h / 100) / (a * b) * (b + t)) ≤ b + t :=
    div_le_self hv.le (by linarith)
  linarith

/-- The dew point changes by no more than the temperature. -/
theorem dew_lipschitz (ha : 0 < a) (hb : 0 < b) (hh : 0 < h) (h1 : h ≤ 100) {t' d' : ℝ}
    (ht : -b < t) (ht' : -b < t') (hd : DewPoint a b t h d) (hd' : DewPoint a b t' h d') :
    |d - d'| ≤ |t - t'| := by
  have hk := dry_nonneg ha hb hh h1
  generalize e : -Real.log (h / 100) / (a * b) = k at hk
  have hv : 0 < b + t := by linarith
  have hv' : 0 < b + t' := by linarith
  have hp := mul_nonneg hk hv.le
  have hp' := mul_nonneg hk hv'.le
  have e1 := dew_value ha hb ht hh hd e.symm (by linarith)
  have e2 := dew_value ha hb ht' hh hd' e.symm (by linarith)
  have e3 : d - d' = (t - t') / ((1 + k * (b + t)) * (1 + k * (b + t'))) := by
    have : d - d' = (b + d) - (b + d') := by ring
    rw [this, e1, e2]
    have q1 : 1 + k * (b + t) ≠ 0 := by linarith
    have q2 : 1 + k * (b + t') ≠ 0 := by linarith
    field_simp
    ring
  rw [e3, abs_div]
  refine div_le_self (abs_nonneg _) ?_
  have : (1 : ℝ) ≤ (1 + k * (b + t)) * (1 + k * (b + t')) := by nlinarith
  rw [abs_of_pos (by linarith)]
  exact this

end

end Verif.Sht
