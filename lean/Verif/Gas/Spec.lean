import Mathlib.Analysis.Complex.ExponentialBounds
import Verif.Gas.Model

/-!
# Float arithmetic and the histories of the gas index algorithm

What is assumed of `float`: `Ieee`.  A value is `some x` for a number `x` and `none` for
anything that is not a number; a division by zero and the root of a negative number give
`none`, `none` spreads through every operation and every comparison with it is false.
Overflow is not modelled: a number may be as large as it likes.
-/

namespace Verif.Gas

/-- A rounding function and an exponential function. -/
structure Flt where
  rnd : ℝ → ℝ
  exp : ℝ → ℝ

/-- What is assumed of them.  Every rounding mode of IEEE 754 binary32 (with an unbounded
exponent range upwards) meets the first four; `exp` is the accuracy wanted of `expf`, about
eight units in the last place. -/
structure Ieee (F : Flt) : Prop where
  mono : ∀ x y, x ≤ y → F.rnd x ≤ F.rnd y
  idem : ∀ x, F.rnd (F.rnd x) = F.rnd x
  exact : ∀ (n : ℤ) (k : ℕ), |n| ≤ 2 ^ 24 → k ≤ 100 → F.rnd (n / 2 ^ k) = n / 2 ^ k
  err : ∀ x, |F.rnd x - x| ≤ |x| / 2 ^ 23 + 1 / 2 ^ 100
  exp_nonneg : ∀ x, 0 ≤ F.exp x
  exp_err : ∀ x, x ≤ 50 → |F.exp x - Real.exp x| ≤ Real.exp x / 2 ^ 20 + 1 / 2 ^ 100

/-- The conversion of a float to `int32_t`: towards zero. -/
noncomputable def truncate (x : ℝ) : ℤ := if x < 0 then -⌊-x⌋ else ⌊x⌋

open Classical in
/-- The float operations over the rounding function.  The conversion of something that is not
a number to an integer is undefined in C++; here it gives -1, which no property allows. -/
noncomputable def floats (F : Flt) : Arith (Option ℝ) where
  ofInt n := some (F.rnd n)
  lit q := some (F.rnd q)
  neg a := a.map (- ·)
  add a b := a.bind fun x => b.map fun y => F.rnd (x + y)
  sub a b := a.bind fun x => b.map fun y => F.rnd (x - y)
  mul a b := a.bind fun x => b.map fun y => F.rnd (x * y)
  div a b := a.bind fun x => b.bind fun y => if y = 0 then none else some (F.rnd (x / y))
  sqrt a := a.bind fun x => if x < 0 then none else some (F.rnd (Real.sqrt x))
  exp a := a.map F.exp
  lt a b := match a, b with
    | some x, some y => decide (x < y)
    | _, _ => false
  le a b := match a, b with
    | some x, some y => decide (x ≤ y)
    | _, _ => false
  eq a b := match a, b with
    | some x, some y => decide (x = y)
    | _, _ => false
  toInt a := match a with
    | some x => truncate x
    | none => -1

/-- The calls of the API (sblib/inc/sblib/i2c/sensirion_gas_index_algorithm.h:160-290). -/
inductive Call where
  | init (nox : Bool) (seconds : ℤ)
  | reset
  | setStates (mean std : ℝ)
  | setTuning (t : Tuning)
  | process (sraw : ℤ)

/-- The arguments the header allows
(sensirion_gas_index_algorithm.h:97-108, 171-182, 205-218, 220-260): a sampling interval of
1 to 10 whole seconds, tuning parameters in their ranges, a deviation that is not negative.
Any `sraw` is allowed. -/
def Call.Allowed : Call → Prop
  | .init _ s => 1 ≤ s ∧ s ≤ 10
  | .reset => True
  | .setStates _ d => 0 ≤ d
  | .setTuning t =>
    (1 ≤ t.offset ∧ t.offset ≤ 250) ∧ (1 ≤ t.learnOffset ∧ t.learnOffset ≤ 1000) ∧
    (1 ≤ t.learnGain ∧ t.learnGain ≤ 1000) ∧ (0 ≤ t.gating ∧ t.gating ≤ 3000) ∧
    (10 ≤ t.std ∧ t.std ≤ 5000) ∧ (1 ≤ t.gain ∧ t.gain ≤ 1000)
  | .process _ => True

/-- What a call does to the state. -/
noncomputable def call (F : Flt) (P : Par (Option ℝ)) : Call → Par (Option ℝ)
  | .init nox s => initWith (floats F) P nox (some (s : ℝ))
  | .reset => reset (floats F) P
  | .setStates m d => setStates (floats F) P (some m) (some d)
  | .setTuning t => setTuning (floats F) P t
  | .process s => (process (floats F) P s).1

/-- The state after a history. -/
noncomputable def after (F : Flt) (P : Par (Option ℝ)) (h : List Call) : Par (Option ℝ) :=
  h.foldl (call F) P

/-- The sampling interval after a call: `init` sets it. -/
def nextInterval (s : ℤ) : Call → ℤ
  | .init _ s' => s'
  | _ => s

/-- The number of measurements since the last `init` or `reset`, after a call. -/
def nextMeasured (k : ℕ) : Call → ℕ
  | .init _ _ => 0
  | .reset => 0
  | .process _ => k + 1
  | _ => k

/-- The sampling interval of a history: that of the last `init`. -/
def interval (h : List Call) : ℤ := h.foldl nextInterval 1

/-- How many measurements were processed since the last `init` or `reset`. -/
def measured (h : List Call) : ℕ := h.foldl nextMeasured 0

end Verif.Gas
