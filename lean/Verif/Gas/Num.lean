import Verif.Gas.Spec

/-!
# Bounds of the float operations
-/

namespace Verif.Gas

variable {F : Flt}

theorem rnd_int (h : Ieee F) (n : ℤ) (hn : |n| ≤ 2 ^ 24) : F.rnd n = n := by
  have := h.exact n 0 hn (by decide)
  simpa using this

theorem rnd_le_int (h : Ieee F) {x : ℝ} (n : ℤ) (hn : |n| ≤ 2 ^ 24) (hx : x ≤ n) :
    F.rnd x ≤ n := by
  rw [← rnd_int h n hn]; exact h.mono _ _ hx

theorem int_le_rnd (h : Ieee F) {x : ℝ} (n : ℤ) (hn : |n| ≤ 2 ^ 24) (hx : (n : ℝ) ≤ x) :
    (n : ℝ) ≤ F.rnd x := by
  rw [← rnd_int h n hn]; exact h.mono _ _ hx

theorem rnd_nonneg (h : Ieee F) {x : ℝ} (hx : 0 ≤ x) : 0 ≤ F.rnd x := by
  have := int_le_rnd h (x := x) 0 (by decide) (by simpa using hx)
  simpa using this

theorem rnd_nonpos (h : Ieee F) {x : ℝ} (hx : x ≤ 0) : F.rnd x ≤ 0 := by
  have := rnd_le_int h (x := x) 0 (by decide) (by simpa using hx)
  simpa using this

theorem rnd_zero (h : Ieee F) : F.rnd 0 = 0 := by
  have := rnd_int h 0 (by decide)
  simpa using this

theorem rnd_one (h : Ieee F) : F.rnd 1 = 1 := by
  have := rnd_int h 1 (by decide)
  simpa using this

theorem rnd_le_one (h : Ieee F) {x : ℝ} (hx : x ≤ 1) : F.rnd x ≤ 1 := by
  rw [← rnd_one h]; exact h.mono _ _ hx

theorem one_le_rnd (h : Ieee F) {x : ℝ} (hx : 1 ≤ x) : 1 ≤ F.rnd x := by
  rw [← rnd_one h]; exact h.mono _ _ hx

theorem rnd_half (h : Ieee F) : F.rnd (1 / 2) = 1 / 2 := by
  have := h.exact 1 1 (by decide) (by decide)
  simpa using this

theorem rnd_le (h : Ieee F) {x : ℝ} (hx : 0 ≤ x) :
    F.rnd x ≤ x + x / 2 ^ 23 + 1 / 2 ^ 100 := by
  have := (abs_le.1 (h.err x)).2
  rw [abs_of_nonneg hx] at this
  linarith

theorem le_rnd (h : Ieee F) {x : ℝ} (hx : 0 ≤ x) :
    x - x / 2 ^ 23 - 1 / 2 ^ 100 ≤ F.rnd x := by
  have := (abs_le.1 (h.err x)).1
  rw [abs_of_nonneg hx] at this
  linarith

/-- An upper bound by way of a number above. -/
theorem rnd_le_of (h : Ieee F) {x b : ℝ} (hb : 0 ≤ b) (hx : x ≤ b) :
    F.rnd x ≤ b + b / 2 ^ 23 + 1 / 2 ^ 100 :=
  le_trans (h.mono _ _ hx) (rnd_le h hb)

theorem le_rnd_of (h : Ieee F) {x b : ℝ} (hb : 0 ≤ b) (hx : b ≤ x) :
    b - b / 2 ^ 23 - 1 / 2 ^ 100 ≤ F.rnd x :=
  le_trans (le_rnd h hb) (h.mono _ _ hx)

theorem exp_le (h : Ieee F) {x : ℝ} (hx : x ≤ 50) :
    F.exp x ≤ Real.exp x + Real.exp x / 2 ^ 20 + 1 / 2 ^ 100 := by
  have := (abs_le.1 (h.exp_err x hx)).2
  linarith

theorem le_exp (h : Ieee F) {x : ℝ} (hx : x ≤ 50) :
    Real.exp x - Real.exp x / 2 ^ 20 - 1 / 2 ^ 100 ≤ F.exp x := by
  have := (abs_le.1 (h.exp_err x hx)).1
  linarith

/-! ## The operations on numbers -/

section ops
variable (F)

theorem ofInt_eq (h : Ieee F) (n : ℤ) (hn : |n| ≤ 2 ^ 24) :
    (floats F).ofInt n = some (n : ℝ) := by
  show some (F.rnd n) = _
  rw [rnd_int h n hn]

theorem lit_eq (q : ℚ) : (floats F).lit q = some (F.rnd q) := rfl
theorem neg_eq (x : ℝ) : (floats F).neg (some x) = some (-x) := rfl
theorem add_eq (x y : ℝ) : (floats F).add (some x) (some y) = some (F.rnd (x + y)) := rfl
theorem sub_eq (x y : ℝ) : (floats F).sub (some x) (some y) = some (F.rnd (x - y)) := rfl
theorem mul_eq (x y : ℝ) : (floats F).mul (some x) (some y) = some (F.rnd (x * y)) := rfl
theorem exp_eq (x : ℝ) : (floats F).exp (some x) = some (F.exp x) := rfl

theorem div_eq (x y : ℝ) (hy : y ≠ 0) :
    (floats F).div (some x) (some y) = some (F.rnd (x / y)) := by
  simp [floats, hy]

theorem sqrt_eq (x : ℝ) (hx : 0 ≤ x) :
    (floats F).sqrt (some x) = some (F.rnd (Real.sqrt x)) := by
  simp [floats, not_lt.2 hx]

theorem lt_eq (x y : ℝ) : ((floats F).lt (some x) (some y) = true) = (x < y) := by
  simp [floats]

theorem le_eq (x y : ℝ) : ((floats F).le (some x) (some y) = true) = (x ≤ y) := by
  simp [floats]

theorem eq_eq (x y : ℝ) : ((floats F).eq (some x) (some y) = true) = (x = y) := by
  simp [floats]

theorem toInt_eq (x : ℝ) : (floats F).toInt (some x) = truncate x := rfl

end ops

/-- The value is a number. -/
def Num (a : Option ℝ) : Prop := ∃ x, a = some x

theorem num_some (x : ℝ) : Num (some x) := ⟨x, rfl⟩
theorem num_int (n : ℤ) : Num ((floats F).ofInt n) := ⟨_, rfl⟩
theorem num_lit (q : ℚ) : Num ((floats F).lit q) := ⟨_, rfl⟩

theorem num_neg {a : Option ℝ} (ha : Num a) : Num ((floats F).neg a) := by
  obtain ⟨x, rfl⟩ := ha; exact ⟨_, rfl⟩

theorem num_add {a b : Option ℝ} (ha : Num a) (hb : Num b) : Num ((floats F).add a b) := by
  obtain ⟨x, rfl⟩ := ha; obtain ⟨y, rfl⟩ := hb; exact ⟨_, rfl⟩

theorem num_sub {a b : Option ℝ} (ha : Num a) (hb : Num b) : Num ((floats F).sub a b) := by
  obtain ⟨x, rfl⟩ := ha; obtain ⟨y, rfl⟩ := hb; exact ⟨_, rfl⟩

theorem num_mul {a b : Option ℝ} (ha : Num a) (hb : Num b) : Num ((floats F).mul a b) := by
  obtain ⟨x, rfl⟩ := ha; obtain ⟨y, rfl⟩ := hb; exact ⟨_, rfl⟩

theorem num_exp {a : Option ℝ} (ha : Num a) : Num ((floats F).exp a) := by
  obtain ⟨x, rfl⟩ := ha; exact ⟨_, rfl⟩

theorem num_div {a b : Option ℝ} (ha : Num a) (hb : ∃ y, b = some y ∧ y ≠ 0) :
    Num ((floats F).div a b) := by
  obtain ⟨x, rfl⟩ := ha; obtain ⟨y, rfl, hy⟩ := hb; exact ⟨_, div_eq F x y hy⟩

theorem num_divInt (h : Ieee F) {a : Option ℝ} (ha : Num a) (n : ℤ) (hn : |n| ≤ 2 ^ 24)
    (h0 : n ≠ 0) : Num ((floats F).div a ((floats F).ofInt n)) :=
  num_div ha ⟨n, ofInt_eq F h n hn, by exact_mod_cast h0⟩

theorem num_ite {c : Prop} [Decidable c] {a b : Option ℝ} (ha : Num a) (hb : Num b) :
    Num (if c then a else b) := by
  by_cases hc : c
  · rw [if_pos hc]; exact ha
  · rw [if_neg hc]; exact hb

/-! ## The logistic function -/

/-- The sigmoid is a number between 0 and 1. -/
theorem sigmoid_range (h : Ieee F) (K X0 s : ℝ) :
    ∃ y, sigmoid (floats F) (some K) (some X0) (some s) = some y ∧ 0 ≤ y ∧ y ≤ 1 := by
  unfold sigmoid
  simp only [sub_eq, mul_eq, ofInt_eq F h (-50) (by decide), ofInt_eq F h 50 (by decide),
    ofInt_eq F h 0 (by decide), ofInt_eq F h 1 (by decide), lt_eq, exp_eq, add_eq]
  generalize F.rnd (K * F.rnd (s - X0)) = x
  by_cases h1 : x < ((-50 : ℤ) : ℝ)
  · rw [if_pos h1]; exact ⟨_, rfl, by norm_num, by norm_num⟩
  · rw [if_neg h1]
    by_cases h2 : ((50 : ℤ) : ℝ) < x
    · rw [if_pos h2]; exact ⟨_, rfl, by norm_num, by norm_num⟩
    · rw [if_neg h2]
      have hd : (1 : ℝ) ≤ F.rnd (((1 : ℤ) : ℝ) + F.exp x) :=
        one_le_rnd h (by have := h.exp_nonneg x; push_cast; linarith)
      rw [div_eq F _ _ (by linarith)]
      have hp : (0 : ℝ) < F.rnd (((1 : ℤ) : ℝ) + F.exp x) := by linarith
      refine ⟨_, rfl, rnd_nonneg h ?_, rnd_le_one h ?_⟩
      · exact div_nonneg (by norm_num) hp.le
      · rw [div_le_one hp]; simpa using hd

/-- A later centre gives a larger sigmoid, but for the error of the exponential function. -/
theorem sigmoid_mono (h : Ieee F) (K X0 X1 s y z : ℝ) (hK : 0 ≤ K) (hX : X0 ≤ X1)
    (hy : sigmoid (floats F) (some K) (some X0) (some s) = some y)
    (hz : sigmoid (floats F) (some K) (some X1) (some s) = some z) :
    y - 1 / 2 ^ 17 ≤ z := by
  have ry := sigmoid_range h K X0 s
  have rz := sigmoid_range h K X1 s
  rw [hy] at ry; rw [hz] at rz
  obtain ⟨y', e, y0, y1⟩ := ry; obtain rfl := Option.some.inj e
  obtain ⟨z', e, z0, z1⟩ := rz; obtain rfl := Option.some.inj e
  unfold sigmoid at hy hz
  simp only [sub_eq, mul_eq, ofInt_eq F h (-50) (by decide), ofInt_eq F h 50 (by decide),
    ofInt_eq F h 0 (by decide), ofInt_eq F h 1 (by decide), lt_eq, exp_eq, add_eq] at hy hz
  have hle : F.rnd (K * F.rnd (s - X1)) ≤ F.rnd (K * F.rnd (s - X0)) :=
    h.mono _ _ (mul_le_mul_of_nonneg_left (h.mono _ _ (by linarith)) hK)
  revert hle hy hz
  generalize F.rnd (K * F.rnd (s - X0)) = a
  generalize F.rnd (K * F.rnd (s - X1)) = b
  intro hy hz hle
  have t17 : (0 : ℝ) < 1 / 2 ^ 17 := by positivity
  by_cases h1 : b < ((-50 : ℤ) : ℝ)
  · rw [if_pos h1] at hz
    have := Option.some.inj hz
    push_cast at this; linarith
  · by_cases h2 : ((50 : ℤ) : ℝ) < a
    · rw [if_neg (by push_cast at h2 ⊢; linarith), if_pos h2] at hy
      have := Option.some.inj hy
      push_cast at this; linarith
    · rw [if_neg h1, if_neg (by linarith)] at hz
      rw [if_neg (by linarith), if_neg h2] at hy
      have ea := h.exp_nonneg a
      have eb := h.exp_nonneg b
      have da : (1 : ℝ) ≤ F.rnd (((1 : ℤ) : ℝ) + F.exp a) :=
        one_le_rnd h (by push_cast; linarith)
      have db : (1 : ℝ) ≤ F.rnd (((1 : ℤ) : ℝ) + F.exp b) :=
        one_le_rnd h (by push_cast; linarith)
      rw [div_eq F _ _ (by linarith)] at hy hz
      have hy := Option.some.inj hy
      have hz := Option.some.inj hz
      push_cast at hy hz h1 h2 da db
      -- the exponentials
      have a50 : a ≤ 50 := by linarith
      have b50 : b ≤ 50 := by linarith
      have hab : Real.exp b ≤ Real.exp a := Real.exp_le_exp.2 hle
      have e1 := exp_le h b50
      have e2 := le_exp h a50
      have pa := Real.exp_pos a
      have pb := Real.exp_pos b
      -- the denominators
      set ea' := F.exp a with hea
      set eb' := F.exp b with heb
      have k1 : 1 + eb' ≤ (1 + ea') * (1 + 1 / 2 ^ 18) := by
        have t : Real.exp a * (1 - 1 / 2 ^ 20) ≤ ea' + 1 / 2 ^ 100 := by linarith
        have t2 : eb' ≤ Real.exp a * (1 + 1 / 2 ^ 20) + 1 / 2 ^ 100 := by
          nlinarith
        have t3 : Real.exp a * (1 + 1 / 2 ^ 20) ≤
            (ea' + 1 / 2 ^ 100) * (1 + 1 / 2 ^ 18 - 1 / 2 ^ 19 + 1 / 2 ^ 30) := by
          have : Real.exp a * (1 + 1 / 2 ^ 20) ≤
              Real.exp a * (1 - 1 / 2 ^ 20) * (1 + 1 / 2 ^ 18 - 1 / 2 ^ 19 + 1 / 2 ^ 30) := by
            nlinarith
          refine le_trans this (mul_le_mul_of_nonneg_right t (by norm_num))
        nlinarith
      have r1 : F.rnd (1 + eb') ≤ (1 + eb') * (1 + 1 / 2 ^ 22) := by
        have := rnd_le h (x := 1 + eb') (by linarith)
        nlinarith
      have r2 : (1 + ea') * (1 - 1 / 2 ^ 22) ≤ F.rnd (1 + ea') := by
        have := le_rnd h (x := 1 + ea') (by linarith)
        nlinarith
      have k2 : F.rnd (1 + eb') * (1 - 1 / 2 ^ 18 - 1 / 2 ^ 20) ≤ F.rnd (1 + ea') := by
        have : F.rnd (1 + eb') ≤ (1 + ea') * (1 + 1 / 2 ^ 18) * (1 + 1 / 2 ^ 22) :=
          le_trans r1 (mul_le_mul_of_nonneg_right k1 (by norm_num))
        have u : F.rnd (1 + eb') * (1 - 1 / 2 ^ 18 - 1 / 2 ^ 20) ≤
            (1 + ea') * (1 + 1 / 2 ^ 18) * (1 + 1 / 2 ^ 22) * (1 - 1 / 2 ^ 18 - 1 / 2 ^ 20) :=
          mul_le_mul_of_nonneg_right this (by norm_num)
        refine le_trans u (le_trans ?_ r2)
        nlinarith
      have q : 1 / F.rnd (1 + ea') * (1 - 1 / 2 ^ 18 - 1 / 2 ^ 20) ≤ 1 / F.rnd (1 + eb') := by
        rw [div_mul_eq_mul_div, div_le_div_iff₀ (by linarith) (by linarith)]
        linarith
      have pa' : 0 ≤ 1 / F.rnd (1 + ea') := by positivity
      have pa1 : 1 / F.rnd (1 + ea') ≤ 1 := by rw [div_le_one (by linarith)]; exact da
      have pb' : 0 ≤ 1 / F.rnd (1 + eb') := by positivity
      have f1 := rnd_le h pa'
      have f2 := le_rnd h pb'
      have pb1 : 1 / F.rnd (1 + eb') ≤ 1 := by rw [div_le_one (by linarith)]; exact db
      rw [hy] at f1
      rw [hz] at f2
      nlinarith

end Verif.Gas
