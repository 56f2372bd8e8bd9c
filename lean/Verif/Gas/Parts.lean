import Verif.Gas.Num

/-!
# Bounds of the parts of the algorithm
-/

namespace Verif.Gas

variable {F : Flt}

/-! ## The scaled sigmoid -/

/-- The parameters of the scaled sigmoid are those of the algorithm type. -/
def ScaleOk (F : Flt) (P : Par (Option ℝ)) : Prop :=
  if P.nox then P.scK = some (-F.rnd (101 / 10000)) ∧ P.scX0 = some 614 ∧ P.scDef = some 1
  else P.scK = some (-F.rnd (65 / 10000)) ∧ P.scX0 = some 213 ∧ P.scDef = some 100

/-- The index offset is one of the allowed. -/
def OffOk (P : Par (Option ℝ)) : Prop := ∃ o : ℤ, P.off = some (o : ℝ) ∧ 1 ≤ o ∧ o ≤ 250

theorem shift_range (h : Ieee F) (P : Par (Option ℝ)) (hs : ScaleOk F P) (ho : OffOk P) :
    ∃ t, shiftOf (floats F) P = some t ∧ -250 ≤ t ∧ t ≤ 124 := by
  obtain ⟨o, eo, o1, o2⟩ := ho
  have o1' : (1 : ℝ) ≤ o := by exact_mod_cast o1
  have o2' : (o : ℝ) ≤ 250 := by exact_mod_cast o2
  have ab : |1 - o| ≤ 2 ^ 24 := abs_le.2 ⟨by omega, by omega⟩
  have ab5 : |5 * o| ≤ 2 ^ 24 := abs_le.2 ⟨by omega, by omega⟩
  have ab6 : |500 - 5 * o| ≤ 2 ^ 24 := abs_le.2 ⟨by omega, by omega⟩
  unfold shiftOf ScaleOk at *
  cases hn : P.nox
  · simp only [hn, Bool.false_eq_true, if_false] at hs
    rw [hs.2.2, eo, ofInt_eq F h 1 (by decide), if_neg (by rw [eq_eq]; norm_num),
      ofInt_eq F h 500 (by decide), ofInt_eq F h 5 (by decide), ofInt_eq F h 4 (by decide),
      mul_eq, sub_eq]
    have e5 : F.rnd (((5 : ℤ) : ℝ) * (o : ℝ)) = ((5 * o : ℤ) : ℝ) := by
      rw [← Int.cast_mul]; exact rnd_int h _ ab5
    have e6 : F.rnd (((500 : ℤ) : ℝ) - ((5 * o : ℤ) : ℝ)) = ((500 - 5 * o : ℤ) : ℝ) := by
      rw [← Int.cast_sub]; exact rnd_int h _ ab6
    rw [e5, e6, div_eq F _ _ (by norm_num)]
    refine ⟨_, rfl, ?_, ?_⟩
    · have := int_le_rnd h (x := ((500 - 5 * o : ℤ) : ℝ) / ((4 : ℤ) : ℝ)) (-250) (by decide)
        (by push_cast; linarith)
      simpa using this
    · have := rnd_le_int h (x := ((500 - 5 * o : ℤ) : ℝ) / ((4 : ℤ) : ℝ)) 124 (by decide)
        (by push_cast; linarith)
      simpa using this
  · simp only [hn, if_true] at hs
    rw [hs.2.2, eo, ofInt_eq F h 1 (by decide), if_pos (by rw [eq_eq]; norm_num),
      ofInt_eq F h 500 (by decide), ofInt_eq F h 499 (by decide), sub_eq,
      div_eq F _ _ (by norm_num)]
    have e1 : F.rnd (((1 : ℤ) : ℝ) - (o : ℝ)) = ((1 - o : ℤ) : ℝ) := by
      rw [← Int.cast_sub]; exact rnd_int h _ ab
    rw [e1, mul_eq]
    have q := rnd_le h (x := ((500 : ℤ) : ℝ) / ((499 : ℤ) : ℝ)) (by norm_num)
    have q0 : 0 ≤ F.rnd (((500 : ℤ) : ℝ) / ((499 : ℤ) : ℝ)) := rnd_nonneg h (by norm_num)
    have q1 : F.rnd (((500 : ℤ) : ℝ) / ((499 : ℤ) : ℝ)) ≤ 250 / 249 := by
      refine le_trans q ?_
      norm_num
    revert q0 q1
    generalize F.rnd (((500 : ℤ) : ℝ) / ((499 : ℤ) : ℝ)) = c
    intro q0 q1
    refine ⟨_, rfl, ?_, ?_⟩
    · have := int_le_rnd h (x := c * ((1 - o : ℤ) : ℝ)) (-250) (by decide)
        (by push_cast; nlinarith)
      simpa using this
    · have := rnd_le_int h (x := c * ((1 - o : ℤ) : ℝ)) 124 (by decide)
        (by push_cast; nlinarith)
      simpa using this

theorem exp_six : (387 : ℝ) ≤ Real.exp 6 := by
  have h := Real.exp_one_gt_d9
  have e : Real.exp 6 = Real.exp 1 ^ 6 := by rw [← Real.exp_nat_mul]; norm_num
  rw [e]
  have : (2.7 : ℝ) ^ 6 ≤ Real.exp 1 ^ 6 := pow_le_pow_left₀ (by norm_num) (by linarith) 6
  refine le_trans ?_ this
  norm_num

/-- The denominator of the scaled sigmoid. -/
theorem denom_ge (h : Ieee F) {x b : ℝ} (n : ℤ) (hn : |n| ≤ 2 ^ 24) (hx : x ≤ 50) (hb : b ≤ x)
    (hi : (n : ℝ) ≤ 1 + (Real.exp b * (1 - 1 / 2 ^ 20) - 1 / 2 ^ 100)) :
    (n : ℝ) ≤ F.rnd (1 + F.exp x) := by
  refine int_le_rnd h n hn (le_trans hi ?_)
  have h1 := le_exp h hx
  have h2 : Real.exp b ≤ Real.exp x := Real.exp_le_exp.2 hb
  have h3 : Real.exp b * (1 - 1 / 2 ^ 20) ≤ Real.exp x * (1 - 1 / 2 ^ 20) :=
    mul_le_mul_of_nonneg_right h2 (by norm_num)
  linarith

/-- The scaled sigmoid is a number not above 500, but for rounding. -/
theorem scaled_le (h : Ieee F) (P : Par (Option ℝ)) (hs : ScaleOk F P) (ho : OffOk P) (s : ℝ) :
    ∃ y, scaledProcess (floats F) P (some s) = some y ∧ y ≤ 500 + 1 / 1000 := by
  obtain ⟨K, X, D, eK, eX, eD⟩ : ∃ K X D : ℝ, P.scK = some K ∧ P.scX0 = some X ∧
      P.scDef = some D := by
    unfold ScaleOk at hs
    cases hn : P.nox
    · simp only [hn, Bool.false_eq_true, if_false] at hs; exact ⟨_, _, _, hs⟩
    · simp only [hn, if_true] at hs; exact ⟨_, _, _, hs⟩
  obtain ⟨t, et, t0, t1⟩ := shift_range h P hs ho
  obtain ⟨o, eo, o1, o2⟩ := ho
  have o1' : (1 : ℝ) ≤ o := by exact_mod_cast o1
  have o2' : (o : ℝ) ≤ 250 := by exact_mod_cast o2
  unfold scaledProcess
  simp only [et, eK, eX, eD, eo, sub_eq, mul_eq, ofInt_eq F h (-50) (by decide),
    ofInt_eq F h 50 (by decide), ofInt_eq F h 500 (by decide),
    ofInt_eq F h 0 (by decide), ofInt_eq F h 1 (by decide), lt_eq, le_eq, exp_eq, add_eq]
  by_cases h1 : F.rnd (K * F.rnd (s - X)) < ((-50 : ℤ) : ℝ)
  · rw [if_pos h1]; exact ⟨_, rfl, by norm_num⟩
  · rw [if_neg h1]
    by_cases h2 : ((50 : ℤ) : ℝ) < F.rnd (K * F.rnd (s - X))
    · rw [if_pos h2]; exact ⟨_, rfl, by norm_num⟩
    · rw [if_neg h2]
      have x50 : F.rnd (K * F.rnd (s - X)) ≤ 50 := by push_cast at h2; linarith
      have hd : (1 : ℝ) ≤ F.rnd (((1 : ℤ) : ℝ) + F.exp (F.rnd (K * F.rnd (s - X)))) :=
        one_le_rnd h (by
          have := h.exp_nonneg (F.rnd (K * F.rnd (s - X)))
          push_cast; linarith)
      by_cases h3 : ((0 : ℤ) : ℝ) ≤ s
      · rw [if_pos h3, div_eq F _ _ (by linarith), sub_eq]
        refine ⟨_, rfl, ?_⟩
        revert hd
        generalize F.rnd (((1 : ℤ) : ℝ) + F.exp (F.rnd (K * F.rnd (s - X)))) = d
        intro hd
        have T0 : 0 ≤ F.rnd (((500 : ℤ) : ℝ) + t) := rnd_nonneg h (by push_cast; linarith)
        have T1 := rnd_le h (x := ((500 : ℤ) : ℝ) + t) (by push_cast; linarith)
        have q : F.rnd (F.rnd (((500 : ℤ) : ℝ) + t) / d) ≤ F.rnd (((500 : ℤ) : ℝ) + t) := by
          rw [← h.idem (((500 : ℤ) : ℝ) + t)]
          refine h.mono _ _ ?_
          rw [h.idem]
          exact div_le_self T0 hd
        push_cast at T1 q
        have u : F.rnd (F.rnd (500 + t) / d) - t ≤ 500 + 1 / 10000 := by
          have : (500 + t) / 2 ^ 23 ≤ 624 / 2 ^ 23 := by
            apply div_le_div_of_nonneg_right _ (by norm_num); linarith
          have : (624 : ℝ) / 2 ^ 23 + 1 / 2 ^ 100 ≤ 1 / 10000 := by norm_num
          linarith
        have := rnd_le_of h (b := 500 + 1 / 10000) (by norm_num) u
        push_cast
        refine le_trans this ?_
        norm_num
      · rw [if_neg h3]
        have s0 : s ≤ 0 := by push_cast at h3; linarith
        have hD : D ≠ 0 := by
          unfold ScaleOk at hs
          cases hn : P.nox
          · simp only [hn, Bool.false_eq_true, if_false] at hs
            rw [Option.some.inj (eD.symm.trans hs.2.2)]; norm_num
          · simp only [hn, if_true] at hs
            rw [Option.some.inj (eD.symm.trans hs.2.2)]; norm_num
        rw [div_eq F _ _ hD, div_eq F _ _ (by linarith), mul_eq]
        refine ⟨_, rfl, ?_⟩
        -- the two algorithm types
        have fin : ∀ (n m b : ℤ) (c : ℝ), 0 < n → (0 : ℝ) ≤ c →
            (n : ℝ) ≤ F.rnd (((1 : ℤ) : ℝ) + F.exp (F.rnd (K * F.rnd (s - X)))) →
            F.rnd ((o : ℝ) / D) ≤ c → 0 ≤ F.rnd ((o : ℝ) / D) →
            (500 : ℝ) / n ≤ m → |m| ≤ 2 ^ 24 → c * m ≤ 500 →
            F.rnd (F.rnd ((o : ℝ) / D) * F.rnd (((500 : ℤ) : ℝ) /
              F.rnd (((1 : ℤ) : ℝ) + F.exp (F.rnd (K * F.rnd (s - X)))))) ≤ 500 + 1 / 1000 := by
          intro n m b c n0 c0 hn hc hc0 hm hm' hcm
          have n0' : (0 : ℝ) < n := by exact_mod_cast n0
          have e1 : F.rnd (((500 : ℤ) : ℝ) /
              F.rnd (((1 : ℤ) : ℝ) + F.exp (F.rnd (K * F.rnd (s - X))))) ≤ m := by
            refine rnd_le_int h m hm' (le_trans ?_ hm)
            push_cast at hn ⊢
            exact div_le_div_of_nonneg_left (by norm_num) n0' hn
          have e0 : 0 ≤ F.rnd (((500 : ℤ) : ℝ) /
              F.rnd (((1 : ℤ) : ℝ) + F.exp (F.rnd (K * F.rnd (s - X))))) :=
            rnd_nonneg h (div_nonneg (by norm_num) (by linarith))
          have e2 : F.rnd ((o : ℝ) / D) * F.rnd (((500 : ℤ) : ℝ) /
              F.rnd (((1 : ℤ) : ℝ) + F.exp (F.rnd (K * F.rnd (s - X))))) ≤ ((500 : ℤ) : ℝ) := by
            refine le_trans (mul_le_mul hc e1 e0 c0) ?_
            push_cast; exact hcm
          have := rnd_le_int h 500 (by decide) e2
          push_cast at this ⊢
          linarith
        unfold ScaleOk at hs
        cases hn : P.nox
        · simp only [hn, Bool.false_eq_true, if_false] at hs
          have eK' := Option.some.inj (eK.symm.trans hs.1)
          have eX' := Option.some.inj (eX.symm.trans hs.2.1)
          have eD' := Option.some.inj (eD.symm.trans hs.2.2)
          have k := le_rnd h (x := 65 / 10000) (by norm_num)
          have kn : (64 / 10000 : ℝ) ≤ F.rnd (65 / 10000) := le_trans (by norm_num) k
          have d1 : F.rnd (s - X) ≤ -213 := by
            have := rnd_le_int h (x := s - X) (-213) (by decide)
              (by rw [eX']; push_cast; linarith)
            simpa using this
          have xk : (13632 / 10000 : ℝ) ≤ K * F.rnd (s - X) := by
            rw [eK']
            nlinarith
          have xge : (136 / 100 : ℝ) ≤ F.rnd (K * F.rnd (s - X)) :=
            le_trans (by norm_num) (le_rnd_of h (by norm_num) xk)
          have dn3 : ((3 : ℤ) : ℝ) ≤
              F.rnd (((1 : ℤ) : ℝ) + F.exp (F.rnd (K * F.rnd (s - X)))) := by
            have := denom_ge h 3 (by decide) x50 xge (by
              have := Real.add_one_le_exp (136 / 100 : ℝ)
              push_cast; nlinarith)
            simpa using this
          have oD : (o : ℝ) / D ≤ 5 / 2 := by rw [eD']; linarith
          have oD0 : 0 ≤ (o : ℝ) / D := by rw [eD']; positivity
          have c1 : F.rnd ((o : ℝ) / D) ≤ 251 / 100 :=
            le_trans (rnd_le_of h (by norm_num) oD) (by norm_num)
          exact fin 3 167 0 (251 / 100) (by decide) (by norm_num) dn3 c1 (rnd_nonneg h oD0)
            (by norm_num) (by decide) (by norm_num)
        · simp only [hn, if_true] at hs
          have eK' := Option.some.inj (eK.symm.trans hs.1)
          have eX' := Option.some.inj (eX.symm.trans hs.2.1)
          have eD' := Option.some.inj (eD.symm.trans hs.2.2)
          have k := le_rnd h (x := 101 / 10000) (by norm_num)
          have kn : (100 / 10000 : ℝ) ≤ F.rnd (101 / 10000) := le_trans (by norm_num) k
          have d1 : F.rnd (s - X) ≤ -614 := by
            have := rnd_le_int h (x := s - X) (-614) (by decide)
              (by rw [eX']; push_cast; linarith)
            simpa using this
          have xk : (614 / 100 : ℝ) ≤ K * F.rnd (s - X) := by
            rw [eK']
            nlinarith
          have xge : (6 : ℝ) ≤ F.rnd (K * F.rnd (s - X)) :=
            le_trans (by norm_num) (le_rnd_of h (by norm_num) xk)
          have dn : ((300 : ℤ) : ℝ) ≤
              F.rnd (((1 : ℤ) : ℝ) + F.exp (F.rnd (K * F.rnd (s - X)))) := by
            have := denom_ge h 300 (by decide) x50 xge (by
              have := exp_six
              push_cast; nlinarith)
            simpa using this
          have c1 : F.rnd ((o : ℝ) / D) ≤ 250 := by
            have := rnd_le_int h (x := (o : ℝ) / D) 250 (by decide) (by rw [eD']; simpa using o2')
            simpa using this
          have oD0 : 0 ≤ (o : ℝ) / D := by rw [eD']; positivity
          exact fin 300 2 0 250 (by decide) (by norm_num) dn c1 (rnd_nonneg h oD0)
            (by norm_num) (by decide) (by norm_num)

/-! ## The low pass -/

/-- The factor of the adaptive low pass lies between 1/512 and 1. -/
theorem adapt_range (h : Ieee F) (n : ℤ) (n1 : 1 ≤ n) (n10 : n ≤ 10) (x1 x2 : ℝ) :
    ∃ a, adaptA (floats F) (some (n : ℝ)) (some x1) (some x2) = some a ∧ 1 / 512 ≤ a ∧ a ≤ 1 := by
  have n1' : (1 : ℝ) ≤ n := by exact_mod_cast n1
  have n10' : (n : ℝ) ≤ 10 := by exact_mod_cast n10
  have ab : |n| ≤ 2 ^ 24 := abs_le.2 ⟨by omega, by omega⟩
  unfold adaptA
  simp only [sub_eq, ofInt_eq F h (-1) (by decide), ofInt_eq F h 0 (by decide),
    ofInt_eq F h 500 (by decide), ofInt_eq F h 20 (by decide), mul_eq, lt_eq, lit_eq, neg_eq]
  obtain ⟨d, ed, d0⟩ : ∃ d, (if F.rnd (x1 - x2) < ((0 : ℤ) : ℝ) then
      some (F.rnd (((-1 : ℤ) : ℝ) * F.rnd (x1 - x2))) else some (F.rnd (x1 - x2))) = some d ∧
      0 ≤ d := by
    by_cases hd : F.rnd (x1 - x2) < ((0 : ℤ) : ℝ)
    · rw [if_pos hd]
      refine ⟨_, rfl, rnd_nonneg h ?_⟩
      push_cast at hd ⊢; linarith
    · rw [if_neg hd]
      refine ⟨_, rfl, ?_⟩
      push_cast at hd; linarith
  rw [ed]
  simp only [mul_eq, exp_eq, add_eq]
  have e480 : F.rnd (((500 : ℤ) : ℝ) - ((20 : ℤ) : ℝ)) = 480 := by
    have := rnd_int h 480 (by decide)
    push_cast at this ⊢
    have e : (500 : ℝ) - 20 = 480 := by norm_num
    rw [e, this]
  rw [e480]
  have c0 : 0 ≤ F.rnd (((2 / 10 : ℚ) : ℝ)) := rnd_nonneg h (by norm_num)
  have z0 : F.rnd (-F.rnd (((2 / 10 : ℚ) : ℝ)) * d) ≤ 0 := rnd_nonpos h (by nlinarith)
  revert z0
  generalize F.rnd (-F.rnd (((2 / 10 : ℚ) : ℝ)) * d) = z
  intro z0
  have f0 := h.exp_nonneg z
  have f1 : F.exp z ≤ 1 + 1 / 1000 := by
    have := exp_le h (x := z) (by linarith)
    have e1 : Real.exp z ≤ 1 := Real.exp_le_one_iff.2 z0
    refine le_trans this ?_
    nlinarith
  have m0 : 0 ≤ F.rnd (480 * F.exp z) := rnd_nonneg h (by positivity)
  have m1 : F.rnd (480 * F.exp z) ≤ 481 := by
    have := rnd_le_int h (x := 480 * F.exp z) 481 (by decide) (by push_cast; linarith)
    simpa using this
  have t0 : 20 ≤ F.rnd (F.rnd (480 * F.exp z) + ((20 : ℤ) : ℝ)) := by
    have := int_le_rnd h (x := F.rnd (480 * F.exp z) + ((20 : ℤ) : ℝ)) 20 (by decide)
      (by linarith)
    simpa using this
  have t1 : F.rnd (F.rnd (480 * F.exp z) + ((20 : ℤ) : ℝ)) ≤ 501 := by
    have := rnd_le_int h (x := F.rnd (480 * F.exp z) + ((20 : ℤ) : ℝ)) 501 (by decide)
      (by push_cast; linarith)
    simpa using this
  revert t0 t1
  generalize F.rnd (F.rnd (480 * F.exp z) + ((20 : ℤ) : ℝ)) = tau
  intro t0 t1
  have s1 : F.rnd ((n : ℝ) + tau) ≤ 511 := by
    have := rnd_le_int h (x := (n : ℝ) + tau) 511 (by decide) (by push_cast; linarith)
    simpa using this
  have s0 : (n : ℝ) ≤ F.rnd ((n : ℝ) + tau) := int_le_rnd h n ab (by linarith)
  rw [div_eq F _ _ (by linarith)]
  refine ⟨_, rfl, ?_, rnd_le_one h ?_⟩
  · have : (1 / 511 : ℝ) ≤ (n : ℝ) / F.rnd ((n : ℝ) + tau) := by
      rw [div_le_div_iff₀ (by norm_num) (by linarith)]
      linarith
    exact le_trans (by norm_num) (le_rnd_of h (by norm_num) this)
  · rw [div_le_one (by linarith)]; exact s0

/-- The low pass keeps its bound. -/
theorem blend_le (h : Ieee F) (a x s : ℝ) (a0 : 1 / 512 ≤ a) (a1 : a ≤ 1)
    (hx : x ≤ 500 + 1 / 4) (hs : s ≤ 500 + 1 / 1000) :
    ∃ y, blend (floats F) (some a) (some x) (some s) = some y ∧ y ≤ 500 + 1 / 4 := by
  unfold blend
  rw [ofInt_eq F h 1 (by decide), sub_eq, mul_eq, mul_eq, add_eq]
  refine ⟨_, rfl, ?_⟩
  have b0 : 0 ≤ F.rnd (((1 : ℤ) : ℝ) - a) := rnd_nonneg h (by push_cast; linarith)
  have b1 := rnd_le h (x := ((1 : ℤ) : ℝ) - a) (by push_cast; linarith)
  have b2 : F.rnd (((1 : ℤ) : ℝ) - a) ≤ 1 := rnd_le_one h (by push_cast; linarith)
  push_cast at b0 b1 b2 ⊢
  revert b0 b1 b2
  generalize F.rnd (1 - a) = b
  intro b0 b1 b2
  have p1 : b * x ≤ b * (500 + 1 / 4) := mul_le_mul_of_nonneg_left hx b0
  have p2 : a * s ≤ a * (500 + 1 / 1000) := mul_le_mul_of_nonneg_left hs (by linarith)
  have q1 := rnd_le_of h (b := b * (500 + 1 / 4)) (by positivity) p1
  have q2 := rnd_le_of h (b := a * (500 + 1 / 1000)) (by nlinarith) p2
  have u : F.rnd (b * x) + F.rnd (a * s) ≤ 500 + 1 / 4 - 2 / 10000 := by
    nlinarith
  exact le_trans (rnd_le_of h (by norm_num) u) (by norm_num)

theorem num_blend {a x s : Option ℝ} (ha : Num a) (hx : Num x) (hs : Num s) :
    Num (blend (floats F) a x s) :=
  num_add (num_mul (num_sub (num_int 1) ha) hx) (num_mul ha hs)

/-! ## The estimator -/

theorem scaling_ge (h : Ieee F) (std d : ℝ) :
    ∃ c, scaling (floats F) (some std) (some d) = some c ∧ 1 ≤ c := by
  unfold scaling
  simp only [lt_eq, sub_eq, add_eq, ofInt_eq F h 0 (by decide), ofInt_eq F h 1440 (by decide),
    ofInt_eq F h 1 (by decide)]
  obtain ⟨c, ec⟩ : ∃ c, (if d < ((0 : ℤ) : ℝ) then some (F.rnd (std - d))
      else some (F.rnd (std + d))) = some c := num_ite ⟨_, rfl⟩ ⟨_, rfl⟩
  rw [ec]
  simp only [lt_eq]
  by_cases hc : ((1440 : ℤ) : ℝ) < c
  · rw [if_pos hc, div_eq F _ _ (by norm_num), mul_eq]
    refine ⟨_, rfl, one_le_rnd h ?_⟩
    have : 1 ≤ F.rnd (c / ((1440 : ℤ) : ℝ)) := by
      refine one_le_rnd h ?_
      rw [le_div_iff₀ (by norm_num)]; linarith
    nlinarith
  · rw [if_neg hc]
    exact ⟨_, rfl, by norm_num⟩

theorem newStd_nonneg (h : Ieee F) (std g d c : ℝ) (hs : 0 ≤ std) (g0 : 0 ≤ g) (g1 : g ≤ 64)
    (hc : 1 ≤ c) :
    ∃ y, newStd (floats F) (some std) (some g) (some d) (some c) = some y ∧ 0 ≤ y := by
  unfold newStd
  simp only [ofInt_eq F h 64 (by decide), sub_eq, mul_eq]
  have c64 : 1 ≤ F.rnd (((64 : ℤ) : ℝ) * c) := one_le_rnd h (by push_cast; linarith)
  rw [div_eq F _ _ (by linarith), div_eq F _ _ (by linarith), mul_eq, mul_eq, add_eq,
    sqrt_eq F _ (rnd_nonneg h (mul_nonneg (by linarith)
      (rnd_nonneg h (by push_cast; linarith)))), sqrt_eq F _ (rnd_nonneg h (add_nonneg
      (rnd_nonneg h (mul_nonneg hs (rnd_nonneg h (div_nonneg hs (by linarith))))) ?_)), mul_eq]
  · exact ⟨_, rfl, rnd_nonneg h (mul_nonneg (rnd_nonneg h (Real.sqrt_nonneg _))
      (rnd_nonneg h (Real.sqrt_nonneg _)))⟩
  · refine rnd_nonneg h ?_
    by_cases hd : 0 ≤ d
    · exact mul_nonneg (rnd_nonneg h (div_nonneg (rnd_nonneg h (mul_nonneg g0 hd))
        (by linarith))) hd
    · have hd' : d ≤ 0 := by linarith
      exact mul_nonneg_of_nonpos_of_nonpos (rnd_nonpos h (div_nonpos_of_nonpos_of_nonneg
        (rnd_nonpos h (mul_nonpos_of_nonneg_of_nonpos g0 hd')) (by linarith))) hd'

end Verif.Gas
