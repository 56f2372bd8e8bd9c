import Mathlib.Analysis.SpecialFunctions.Log.Basic
import Verif.Gas.Spec

/-!
# What a dew point is

The dew point is the temperature to which air has to be cooled for its water vapour to saturate
it.  The saturation pressure is given by the Magnus formula `exp (a * t / (b + t))` (up to a
factor), with the constants of the driver.
-/

namespace Verif.Sht

/-- The saturation pressure at `t` degrees Celsius, relative to that at 0 degrees. -/
noncomputable def saturation (a b t : ℝ) : ℝ := Real.exp (a * t / (b + t))

/-- `d` is the dew point of air of `t` degrees Celsius with a relative humidity of `h` percent:
the pressure of the water vapour, which is `h` percent of the saturation pressure at `t`, is the
saturation pressure at `d`. -/
def DewPoint (a b t h d : ℝ) : Prop :=
  -b < d ∧ saturation a b d = h / 100 * saturation a b t

/-- What is assumed of `logf`: an error of about eight units in the last place. -/
def LogOk (L : ℝ → ℝ) : Prop :=
  ∀ x, 0 < x → |L x - Real.log x| ≤ |Real.log x| / 2 ^ 20 + 1 / 2 ^ 100

open Classical in
/-- `logf`: for 0 and below the result is minus infinity or not a number; both spread. -/
noncomputable def flog (L : ℝ → ℝ) (a : Option ℝ) : Option ℝ :=
  a.bind fun x => if x ≤ 0 then none else some (L x)

end Verif.Sht
