import Verif.Gas.Typical

/-!
# The learned mean stays within the measured values
-/

namespace Verif.Gas

variable {F : Flt}

/-- The factors of the mean. -/
def MeanOk (P : Par (Option ℝ)) : Prop :=
  ∃ b i : ℝ, P.bMean = some b ∧ P.iMean = some i ∧ 0 ≤ b ∧ b ≤ i ∧ i ≤ 200

theorem gamma_mean (h : Ieee F) (n : ℤ) (n1 : 1 ≤ n) (n10 : n ≤ 10) (t : ℤ) (t1 : 1 ≤ t)
    (t2 : t ≤ 1000) (c : ℤ) (hc : c = 20 ∨ c = 1200) :
    ∃ b i : ℝ,
      gammaOf (floats F) ((floats F).mul ((floats F).ofInt 8) ((floats F).ofInt 64)) (some (t : ℝ))
        ((floats F).div (some (n : ℝ)) ((floats F).ofInt 3600)) = some b ∧
      gammaOf (floats F) ((floats F).mul ((floats F).ofInt 8) ((floats F).ofInt 64))
        ((floats F).ofInt c) (some (n : ℝ)) = some i ∧
      0 ≤ b ∧ b ≤ i ∧ i ≤ 200 := by
  have n1' : (1 : ℝ) ≤ n := by exact_mod_cast n1
  have n10' : (n : ℝ) ≤ 10 := by exact_mod_cast n10
  have t1' : (1 : ℝ) ≤ t := by exact_mod_cast t1
  have c1 : 20 ≤ c := by omega
  have c2 : c ≤ 1200 := by omega
  have c1' : (20 : ℝ) ≤ c := by exact_mod_cast c1
  have c2' : (c : ℝ) ≤ 1200 := by exact_mod_cast c2
  have ab512 : |512 * n| ≤ 2 ^ 24 := abs_le.2 ⟨by omega, by omega⟩
  have abc : |c + n| ≤ 2 ^ 24 := abs_le.2 ⟨by omega, by omega⟩
  have abc' : |c| ≤ 2 ^ 24 := abs_le.2 ⟨by omega, by omega⟩
  have abt : |t| ≤ 2 ^ 24 := abs_le.2 ⟨by omega, by omega⟩
  unfold gammaOf
  rw [ofInt_eq F h 8 (by decide), ofInt_eq F h 64 (by decide), ofInt_eq F h c abc',
    ofInt_eq F h 3600 (by decide), div_eq F _ _ (by norm_num), mul_eq, mul_eq, mul_eq, add_eq,
    add_eq]
  have e512 : F.rnd (((8 : ℤ) : ℝ) * ((64 : ℤ) : ℝ)) = ((512 : ℤ) : ℝ) := by
    rw [← Int.cast_mul]; exact rnd_int h _ (by decide)
  rw [e512]
  have en : F.rnd (((512 : ℤ) : ℝ) * (n : ℝ)) = ((512 * n : ℤ) : ℝ) := by
    rw [← Int.cast_mul]; exact rnd_int h _ ab512
  have ec : F.rnd ((c : ℝ) + (n : ℝ)) = ((c + n : ℤ) : ℝ) := by
    rw [← Int.cast_add]; exact rnd_int h _ abc
  rw [en, ec]
  have hp : (0 : ℝ) ≤ (n : ℝ) / ((3600 : ℤ) : ℝ) := by push_cast; positivity
  have h1 := rnd_le h hp
  have hh0 := rnd_nonneg h hp
  revert h1 hh0
  generalize F.rnd ((n : ℝ) / ((3600 : ℤ) : ℝ)) = hh
  intro h1 hh0
  have h1' : hh ≤ (n : ℝ) / 3600 * (1 + 1 / 2 ^ 20) := by
    push_cast at h1
    nlinarith
  have s0 : (0 : ℝ) ≤ ((512 : ℤ) : ℝ) * hh := by push_cast; positivity
  have u1 := rnd_le h s0
  have w0 := rnd_nonneg h s0
  revert u1 w0
  generalize F.rnd (((512 : ℤ) : ℝ) * hh) = w
  intro u1 w0
  push_cast at u1
  have w1 : w ≤ 512 * (n : ℝ) / 3600 * (1 + 1 / 2 ^ 18) := by nlinarith
  have d1 : 1 ≤ F.rnd ((t : ℝ) + hh) := le_trans t1' (int_le_rnd h t abt (by linarith))
  revert d1
  generalize F.rnd ((t : ℝ) + hh) = d
  intro d1
  rw [div_eq F _ _ (by linarith), div_eq F _ _ (by push_cast; linarith)]
  have b1 : F.rnd (w / d) ≤ 512 * (n : ℝ) / 3600 * (1 + 1 / 2 ^ 16) := by
    have : w / d ≤ w := div_le_self w0 d1
    have := rnd_le_of h w0 this
    nlinarith
  have i1 : 512 * (n : ℝ) / 1210 ≤ ((512 * n : ℤ) : ℝ) / ((c + n : ℤ) : ℝ) := by
    push_cast
    exact div_le_div_of_nonneg_left (by linarith) (by linarith) (by linarith)
  have j1 := le_rnd_of h (by positivity) i1
  have i2 : ((512 * n : ℤ) : ℝ) / ((c + n : ℤ) : ℝ) ≤ ((200 : ℤ) : ℝ) := by
    push_cast
    rw [div_le_iff₀ (by linarith)]
    nlinarith
  refine ⟨_, _, rfl, rfl, rnd_nonneg h (by positivity), by nlinarith, ?_⟩
  have := rnd_le_int h 200 (by decide) i2
  simpa using this

theorem initInstances_keeps (A : Arith (Option ℝ)) (P : Par (Option ℝ)) :
    (initInstances A P).bMean = gammaOf A (A.mul (A.ofInt 8) (A.ofInt 64)) (initInstances A P).tauMean
        (A.div (initInstances A P).dt (A.ofInt 3600)) ∧
      (initInstances A P).iMean = gammaOf A (A.mul (A.ofInt 8) (A.ofInt 64))
        (if P.nox then A.ofInt 1200 else A.ofInt 20) (initInstances A P).dt := by
  unfold initInstances estSet moxSet scaledSet lowpassSet
  dsimp only
  split <;> exact ⟨rfl, rfl⟩

theorem initInstances_mean (h : Ieee F) (P : Par (Option ℝ)) (n : ℤ)
    (c : Cfg (initInstances (floats F) P) n) : MeanOk (initInstances (floats F) P) := by
  obtain ⟨t, et, t1, t2⟩ := c.tauMean
  obtain ⟨k1, k2⟩ := initInstances_keeps (floats F) P
  rw [et, c.dt] at k1
  rw [c.dt] at k2
  split at k2
  · obtain ⟨b, i, eb, ei, r⟩ := gamma_mean h n c.n1 c.n10 t t1 t2 1200 (Or.inr rfl)
    exact ⟨b, i, k1.trans eb, k2.trans ei, r⟩
  · obtain ⟨b, i, eb, ei, r⟩ := gamma_mean h n c.n1 c.n10 t t1 t2 20 (Or.inl rfl)
    exact ⟨b, i, k1.trans eb, k2.trans ei, r⟩

/-- The fields of the estimator that matter for the mean. -/
def est (P : Par (Option ℝ)) : Bool × Option ℝ × Option ℝ × Option ℝ × Option ℝ :=
  (P.eInit, P.eMean, P.eOff, P.bMean, P.iMean)

theorem calculateGamma_est (A : Arith (Option ℝ)) (P : Par (Option ℝ)) :
    est (calculateGamma A P) = est P := by
  unfold est calculateGamma sigmoidSet
  dsimp only
  split <;> split <;> rfl

theorem calculateGamma_form (A : Arith (Option ℝ)) (P : Par (Option ℝ)) :
    (calculateGamma A P).gMean =
      A.mul (sigmoid A (A.lit (9 / 100))
          (A.add P.gateThr (A.mul (A.sub (A.ofInt 510) P.gateThr)
            (sigmoid A (A.lit (1 / 100)) P.initMean (advance A P.dt P.upGating)))) P.idx)
        (A.add P.bMean (A.mul (A.sub P.iMean P.bMean)
          (sigmoid A (A.lit (1 / 100)) P.initMean (advance A P.dt P.upGamma)))) := by
  unfold calculateGamma sigmoidSet
  dsimp only
  split <;> split <;> rfl

/-- The factor of the mean after `calculate_gamma`. -/
theorem calculateGamma_gMean (h : Ieee F) (P : Par (Option ℝ)) (n : ℤ) (c : Cfg P n)
    (iu1 : Num P.upGamma) (iu2 : Num P.upGating) (hm : MeanOk P) (hidx : Num P.idx) :
    ∃ g : ℝ, (calculateGamma (floats F) P).gMean = some g ∧ 0 ≤ g ∧ g ≤ 256 := by
  obtain ⟨b, i, eb, ei, b0, bi, i2⟩ := hm
  obtain ⟨m, v, em, ev, mv⟩ := c.dur
  obtain ⟨idx, eidx⟩ := hidx
  obtain ⟨u1, eu1⟩ : Num (advance (floats F) P.dt P.upGamma) :=
    num_advance ⟨_, c.dt⟩ iu1
  obtain ⟨u2, eu2⟩ : Num (advance (floats F) P.dt P.upGating) :=
    num_advance ⟨_, c.dt⟩ iu2
  obtain ⟨sm, esm, sm0, sm1⟩ := sigmoid_range h (F.rnd (((1 / 100 : ℚ) : ℝ))) m u1
  obtain ⟨tm, etm, _⟩ := sigmoid_range h (F.rnd (((1 / 100 : ℚ) : ℝ))) m u2
  obtain ⟨g, eg⟩ := c.gateThr
  obtain ⟨th, eth⟩ : Num ((floats F).add (some g) ((floats F).mul
      ((floats F).sub ((floats F).ofInt 510) (some g)) (some tm))) :=
    num_add (num_some _) (num_mul (num_sub (num_int _) (num_some _)) (num_some _))
  obtain ⟨gm, egm, gm0, gm1⟩ := sigmoid_range h (F.rnd (((9 / 100 : ℚ) : ℝ))) th idx
  have e : (calculateGamma (floats F) P).gMean =
      some (F.rnd (gm * F.rnd (b + F.rnd (F.rnd (i - b) * sm)))) := by
    rw [calculateGamma_form]
    simp only [sigmoidProcess, threshold, eu1, eu2, em, eidx, lit_eq, esm, etm, eg, eth, egm, eb,
      ei, sub_eq, mul_eq, add_eq]
  refine ⟨_, e, ?_, ?_⟩
  · have p1 : 0 ≤ F.rnd (i - b) := rnd_nonneg h (by linarith)
    have p2 : 0 ≤ F.rnd (F.rnd (i - b) * sm) := rnd_nonneg h (mul_nonneg p1 sm0)
    have p3 : 0 ≤ F.rnd (b + F.rnd (F.rnd (i - b) * sm)) := rnd_nonneg h (by linarith)
    exact rnd_nonneg h (mul_nonneg gm0 p3)
  · have p1 : 0 ≤ F.rnd (i - b) := rnd_nonneg h (by linarith)
    have q1 := rnd_le h (x := i - b) (by linarith)
    have q2 := rnd_le h (x := F.rnd (i - b) * sm) (mul_nonneg p1 sm0)
    have p2 : 0 ≤ F.rnd (F.rnd (i - b) * sm) := rnd_nonneg h (mul_nonneg p1 sm0)
    have r1 : F.rnd (i - b) * sm ≤ F.rnd (i - b) * 1 := mul_le_mul_of_nonneg_left sm1 p1
    have r2 : b + F.rnd (F.rnd (i - b) * sm) ≤ ((201 : ℤ) : ℝ) := by
      push_cast
      nlinarith
    have q3 := rnd_le_int h 201 (by decide) r2
    have p3 : 0 ≤ F.rnd (b + F.rnd (F.rnd (i - b) * sm)) := rnd_nonneg h (by linarith)
    have r3 : gm * F.rnd (b + F.rnd (F.rnd (i - b) * sm)) ≤ ((201 : ℤ) : ℝ) := by
      push_cast at q3 ⊢
      nlinarith
    have := rnd_le_int h 201 (by decide) r3
    push_cast at this
    linarith

/-- The magnitude grows little by rounding. -/
theorem abs_rnd_le (h : Ieee F) (x : ℝ) : |F.rnd x| ≤ |x| * (1 + 1 / 1000) + 1 / 2 ^ 100 := by
  have e := h.err x
  have : |F.rnd x| ≤ |F.rnd x - x| + |x| := by
    have := abs_add_le (F.rnd x - x) x
    simpa using this
  have p := abs_nonneg x
  nlinarith

/-- The step of the mean has the sign of the difference and is at most as large. -/
theorem step_bound (h : Ieee F) (z g : ℝ) (g0 : 0 ≤ g) (g1 : g ≤ 256) :
    let q := F.rnd (F.rnd (g * F.rnd (F.rnd z / 64)) / 8)
    (0 ≤ z → 0 ≤ q) ∧ (z ≤ 0 → q ≤ 0) ∧ |q| ≤ |z| + 1 / 2 ^ 90 := by
  intro q
  refine ⟨fun hz => ?_, fun hz => ?_, ?_⟩
  · have a1 := rnd_nonneg h hz
    have a2 := rnd_nonneg h (x := F.rnd z / 64) (by positivity)
    have a3 := rnd_nonneg h (mul_nonneg g0 a2)
    exact rnd_nonneg h (by positivity)
  · have a1 := rnd_nonpos h hz
    have a2 := rnd_nonpos h (x := F.rnd z / 64) (by linarith)
    have a3 := rnd_nonpos h (x := g * F.rnd (F.rnd z / 64)) (mul_nonpos_of_nonneg_of_nonpos g0 a2)
    exact rnd_nonpos h (by linarith)
  · have a1 := abs_rnd_le h z
    have a2 := abs_rnd_le h (F.rnd z / 64)
    have a3 := abs_rnd_le h (g * F.rnd (F.rnd z / 64))
    have a4 := abs_rnd_le h (F.rnd (g * F.rnd (F.rnd z / 64)) / 8)
    rw [abs_div, abs_of_pos (by norm_num : (0 : ℝ) < 64)] at a2
    rw [abs_mul, abs_of_nonneg g0] at a3
    rw [abs_div, abs_of_pos (by norm_num : (0 : ℝ) < 8)] at a4
    have p := abs_nonneg (F.rnd (F.rnd z / 64))
    have p0 := abs_nonneg z
    have a5 : g * |F.rnd (F.rnd z / 64)| ≤ 256 * |F.rnd (F.rnd z / 64)| :=
      mul_le_mul_of_nonneg_right g1 p
    show |F.rnd (F.rnd (g * F.rnd (F.rnd z / 64)) / 8)| ≤ _
    linarith

/-- The learned mean, offset and rest, lies within 1/64 of the values from `lo` to `hi`. -/
structure Learned (F : Flt) (P : Par (Option ℝ)) (lo hi : ℤ) : Prop where
  mean : MeanOk P
  est : P.eInit = true → ∃ o m : ℝ, P.eOff = some o ∧ P.eMean = some m ∧ F.rnd m = m ∧
    0 ≤ o ∧ o ≤ 32768 ∧ (lo : ℝ) - 1 / 64 ≤ o + m ∧ o + m ≤ (hi : ℝ) + 1 / 64

theorem rnd_hi (h : Ieee F) (z : ℤ) (z0 : 1 ≤ z) (z1 : z ≤ 32767) {x : ℝ}
    (hx : x ≤ (z : ℝ) + 1 / 64) : F.rnd x ≤ (z : ℝ) + 1 / 64 := by
  have e := h.exact (64 * z + 1) 6 (abs_le.2 ⟨by omega, by omega⟩) (by decide)
  have e2 : ((64 * z + 1 : ℤ) : ℝ) / 2 ^ 6 = (z : ℝ) + 1 / 64 := by push_cast; ring
  rw [e2] at e
  rw [← e]
  exact h.mono _ _ hx

theorem rnd_lo (h : Ieee F) (z : ℤ) (z0 : 1 ≤ z) (z1 : z ≤ 32767) {x : ℝ}
    (hx : (z : ℝ) - 1 / 64 ≤ x) : (z : ℝ) - 1 / 64 ≤ F.rnd x := by
  have e := h.exact (64 * z - 1) 6 (abs_le.2 ⟨by omega, by omega⟩) (by decide)
  have e2 : ((64 * z - 1 : ℤ) : ℝ) / 2 ^ 6 = (z : ℝ) - 1 / 64 := by push_cast; ring
  rw [e2] at e
  rw [← e]
  exact h.mono _ _ hx

/-- One step of the estimator. -/
theorem estProcess_learned (h : Ieee F) (P : Par (Option ℝ)) (n : ℤ) (c : Cfg P n)
    (iu1 : Num P.upGamma) (iu2 : Num P.upGating) (hidx : Num P.idx) (lo hi : ℤ) (lo1 : 1 ≤ lo) (hi1 : hi ≤ 32767)
    (l : Learned F P lo hi) (s : ℤ) (s0 : lo ≤ s) (s1 : s ≤ hi) :
    Learned F (estProcess (floats F) P (some (s : ℝ))) lo hi ∧
      (estProcess (floats F) P (some (s : ℝ))).eInit = true := by
  have lo1' : (1 : ℝ) ≤ lo := by exact_mod_cast lo1
  have hi1' : (hi : ℝ) ≤ 32767 := by exact_mod_cast hi1
  have s0' : (lo : ℝ) ≤ s := by exact_mod_cast s0
  have s1' : (s : ℝ) ≤ hi := by exact_mod_cast s1
  obtain ⟨hm, he⟩ := l
  unfold estProcess
  by_cases hi' : P.eInit = true
  · rw [if_pos hi']
    obtain ⟨o, m, eo, em, fm, o0, o1, b0, b1⟩ := he hi'
    -- the offset
    obtain ⟨m', o', eQ, fm', o0', o1', b0', b1'⟩ : ∃ m' o' : ℝ,
        (if (floats F).le ((floats F).ofInt 100) P.eMean ||
            (floats F).le P.eMean ((floats F).ofInt (-100)) then
          { P with eOff := (floats F).add P.eOff P.eMean, eMean := (floats F).ofInt 0 }
        else P) = { P with eMean := some m', eOff := some o' } ∧ F.rnd m' = m' ∧ 0 ≤ o' ∧
        o' ≤ 32768 ∧ (lo : ℝ) - 1 / 64 ≤ o' + m' ∧ o' + m' ≤ (hi : ℝ) + 1 / 64 := by
      split
      · refine ⟨0, F.rnd (o + m), ?_, rnd_zero h, rnd_nonneg h (by linarith), ?_, ?_, ?_⟩
        · rw [eo, em, add_eq, ofInt_eq F h 0 (by decide), Int.cast_zero]
        · have := rnd_hi h hi (by omega) hi1 b1
          linarith
        · rw [add_zero]; exact rnd_lo h lo lo1 (by omega) b0
        · rw [add_zero]; exact rnd_hi h hi (by omega) hi1 b1
      · exact ⟨m, o, by rw [← eo, ← em], fm, o0, o1, b0, b1⟩
    simp only [eQ]
    have c' : Cfg { P with eMean := some m', eOff := some o' } n :=
      ⟨c.dt, c.n1, c.n10, c.off, c.gateMax, c.gain, c.dur, c.gateThr, c.tauMean, c.tauVar,
        c.stdInit⟩
    have eE := calculateGamma_est (floats F) { P with eMean := some m', eOff := some o' }
    obtain ⟨g, eg, g0, g1⟩ := calculateGamma_gMean h _ n c' iu1 iu2 hm hidx
    revert eE eg
    generalize calculateGamma (floats F) { P with eMean := some m', eOff := some o' } = Q
    intro eE eg
    simp only [est, Prod.mk.injEq] at eE
    obtain ⟨q1, q2, q3, q4, q5⟩ := eE
    simp only [q2, q3, eg]
    rw [ofInt_eq F h 64 (by decide), ofInt_eq F h 8 (by decide), sub_eq, sub_eq,
      div_eq F _ _ (by norm_num), mul_eq, div_eq F _ _ (by norm_num), add_eq]
    push_cast
    obtain ⟨k1, k2, k3⟩ := step_bound h (F.rnd ((s : ℝ) - o') - m') g g0 g1
    revert k1 k2 k3
    generalize F.rnd (F.rnd (g * F.rnd (F.rnd (F.rnd ((s : ℝ) - o') - m') / 64)) / 8) = q
    intro k1 k2 k3
    have er := abs_le.1 (h.err ((s : ℝ) - o'))
    have ab : |(s : ℝ) - o'| ≤ 32768 := abs_le.2 ⟨by linarith, by linarith⟩
    obtain ⟨er1, er2⟩ := er
    revert er1 er2 k1 k2 k3
    generalize F.rnd ((s : ℝ) - o') = x
    intro k1 k2 k3 er1 er2
    have tiny : (1 : ℝ) / 2 ^ 100 ≤ 1 / 1000000 := by norm_num
    have tiny2 : (1 : ℝ) / 2 ^ 90 ≤ 1 / 1000000 := by norm_num
    have x1 : (s : ℝ) - 1 / 200 ≤ o' + x := by linarith
    have x2 : o' + x ≤ (s : ℝ) + 1 / 200 := by linarith
    have er' := abs_le.1 (h.err (m' + q))
    obtain ⟨er1', er2'⟩ := er'
    refine ⟨⟨?_, fun _ => ⟨o', F.rnd (m' + q), rfl, rfl, h.idem _, o0', o1', ?_, ?_⟩⟩, ?_⟩
    · obtain ⟨b, i, eb, ei, r⟩ := hm
      exact ⟨b, i, q4.trans eb, q5.trans ei, r⟩
    · by_cases hz : 0 ≤ x - m'
      · have := h.mono m' (m' + q) (by linarith [k1 hz])
        rw [fm'] at this
        linarith
      · have z0 : x - m' ≤ 0 := by linarith
        rw [abs_of_nonpos z0] at k3
        have k2' := k2 z0
        rw [abs_of_nonpos k2'] at k3
        have ab2 : |m' + q| ≤ 32768 + 1 / 10 := abs_le.2 ⟨by linarith, by linarith⟩
        linarith
    · by_cases hz : 0 ≤ x - m'
      · rw [abs_of_nonneg hz] at k3
        have k1' := k1 hz
        rw [abs_of_nonneg k1'] at k3
        have ab2 : |m' + q| ≤ 32768 + 1 / 10 := abs_le.2 ⟨by linarith, by linarith⟩
        linarith
      · have := h.mono (m' + q) m' (by linarith [k2 (by linarith)])
        rw [fm'] at this
        linarith
    · exact q1.trans hi'
  · rw [if_neg hi']
    refine ⟨⟨hm, fun _ => ⟨s, 0, rfl, ?_, rnd_zero h, by linarith, by linarith, by linarith,
      by linarith⟩⟩, rfl⟩
    show (floats F).ofInt 0 = _
    rw [ofInt_eq F h 0 (by decide), Int.cast_zero]

theorem estProcess_idx (A : Arith (Option ℝ)) (Q : Par (Option ℝ)) (q : Option ℝ) :
    (estProcess A Q q).idx = Q.idx := by
  have hg : ∀ R : Par (Option ℝ), (calculateGamma A R).idx = R.idx := by
    intro R
    unfold calculateGamma sigmoidSet
    dsimp only
    split <;> split <;> rfl
  unfold estProcess
  split
  · dsimp only
    rw [hg]
    split <;> rfl
  · rfl

/-- What a measurement does to the estimator after the blackout. -/
theorem process_est (h : Ieee F) (P : Par (Option ℝ)) (n : ℤ) (k : ℕ) (i : Inv F P n k)
    (hk : 45 < k * n) (lo hi : ℤ) (lo1 : 1 ≤ lo) (hi1 : hi ≤ 32767) (l : Learned F P lo hi)
    (hmin : P.min = 10000 ∨ P.min = 20000) (s : ℤ) (s0 : lo ≤ s - P.min) (s1 : s - P.min ≤ hi) :
    Learned F (process (floats F) P s).1 lo hi ∧ (process (floats F) P s).1.eInit = true := by
  obtain ⟨c, ins, ⟨j, ej, j1, j2, j3, j4⟩, ⟨sr, esr⟩, ⟨y, ey, y0⟩⟩ := i
  have cond : ¬ (floats F).le P.uptime ((floats F).ofInt 45) = true := by
    rw [ej, ofInt_eq F h 45 (by decide), le_eq]
    intro hh
    have : (j * n : ℤ) ≤ 45 := by exact_mod_cast hh
    have := j2 hk
    omega
  have et : takeSraw (floats F) P s = { P with sraw := some ((s - P.min : ℤ) : ℝ) } := by
    unfold takeSraw
    rw [if_pos (by omega)]
    dsimp only
    rw [if_neg (by omega), if_neg (by omega), ofInt_eq F h _ (abs_le.2 ⟨by omega, by omega⟩)]
  -- the state before the estimator
  have i1 := process_inv h P n k ⟨c, ins, ⟨j, ej, j1, j2, j3, j4⟩, ⟨sr, esr⟩, ⟨y, ey, y0⟩⟩ s
  unfold process
  rw [if_neg cond]
  simp only [et]
  unfold process at i1
  rw [if_neg cond] at i1
  simp only [et] at i1
  generalize rawIndex (floats F) { P with sraw := some ((s - P.min : ℤ) : ℝ) } = r at i1 ⊢
  obtain ⟨x1, x2, x3, elp⟩ : ∃ x1 x2 x3, lowpassProcess (floats F)
      { P with sraw := some ((s - P.min : ℤ) : ℝ) } r =
        { P with sraw := some ((s - P.min : ℤ) : ℝ), x1 := x1, x2 := x2, x3 := x3, lpInit := true } := by
    unfold lowpassProcess
    by_cases hl : P.lpInit = true
    · refine ⟨blend (floats F) P.a1 P.x1 r, blend (floats F) P.a2 P.x2 r, blend (floats F)
        (adaptA (floats F) P.dt (blend (floats F) P.a1 P.x1 r) (blend (floats F) P.a2 P.x2 r)) P.x3 r,
        ?_⟩
      rw [if_pos hl]
      simp only [hl]
    · refine ⟨blend (floats F) P.a1 r r, blend (floats F) P.a2 r r, blend (floats F)
        (adaptA (floats F) P.dt (blend (floats F) P.a1 r r) (blend (floats F) P.a2 r r)) r r, ?_⟩
      rw [if_neg hl]
  simp only [elp] at i1 ⊢
  generalize (if (floats F).lt x3 ((floats F).lit (1 / 2)) = true then (floats F).lit (1 / 2)
    else x3) = w at i1 ⊢
  have cond2 : (floats F).lt ((floats F).ofInt 0) (some ((s - P.min : ℤ) : ℝ)) = true := by
    rw [ofInt_eq F h 0 (by decide), lt_eq]
    have : 0 < s - P.min := by omega
    exact_mod_cast this
  rw [if_pos cond2] at i1 ⊢
  obtain ⟨v, ev, _⟩ := i1.1.idx
  simp only [moxSet, estProcess_idx] at ev
  have c2 : Cfg { P with
      sraw := some ((s - P.min : ℤ) : ℝ), x1 := x1, x2 := x2, x3 := x3, lpInit := true
      idx := w } n :=
    ⟨c.dt, c.n1, c.n10, c.off, c.gateMax, c.gain, c.dur, c.gateThr, c.tauMean, c.tauVar,
      c.stdInit⟩
  obtain ⟨l1, l2⟩ := estProcess_learned h _ n c2 ins.upGamma ins.upGating ⟨v, ev⟩ lo hi lo1 hi1
    ⟨l.mean, l.est⟩ (s - P.min) s0 s1
  exact ⟨⟨l1.mean, l1.est⟩, l2⟩

/-- A run of measurements. -/
theorem run_learned (h : Ieee F) (lo hi : ℤ) (lo1 : 1 ≤ lo) (hi1 : hi ≤ 32767) (nox : Bool)
    (n : ℤ) : ∀ (raws : List ℤ) (P : Par (Option ℝ)) (k : ℕ), Inv F P n k → Learned F P lo hi →
      P.min = rawMin nox → (∀ s ∈ raws, rawMin nox + lo ≤ s ∧ s ≤ rawMin nox + hi) →
      Learned F (after F P (raws.map .process)) lo hi ∧
        (P.eInit = true ∨ (raws ≠ [] ∧ 45 < (k + raws.length - 1) * n) →
          (after F P (raws.map .process)).eInit = true) := by
  intro raws
  induction raws with
  | nil =>
    intro P k i l _ _
    exact ⟨l, fun hh => hh.elim id (fun q => absurd rfl q.1)⟩
  | cons s raws ih =>
    intro P k i l hmin hs
    have rm : rawMin nox = 10000 ∨ rawMin nox = 20000 := by unfold rawMin; split <;> simp
    have hs0 := hs s (by simp)
    have i1 := (process_inv h P n k i s).1
    have hmin1 : (process (floats F) P s).1.min = rawMin nox := by
      have := congrArg Prod.snd (process_kind (floats F) P s)
      exact this.trans hmin
    have e : after F P ((s :: raws).map .process) =
        after F (process (floats F) P s).1 (raws.map .process) := rfl
    rw [e]
    by_cases hk : (k : ℤ) * n ≤ 45
    · obtain ⟨u, eu⟩ := process_blackout h P n k i hk s
      have l1 : Learned F (process (floats F) P s).1 lo hi := by
        rw [eu]; exact ⟨l.mean, l.est⟩
      obtain ⟨r1, r2⟩ := ih _ (k + 1) i1 l1 hmin1 (fun s' h' => hs s' (by simp [h']))
      refine ⟨r1, fun hh => r2 ?_⟩
      rcases hh with hh | ⟨_, hh⟩
      · left; rw [eu]; exact hh
      · right
        constructor
        · rintro rfl
          simp at hh
          omega
        · simp only [List.length_cons, Nat.cast_add, Nat.cast_one] at hh ⊢
          have e3 : ((k : ℤ) + 1 + raws.length - 1) = (k + (raws.length + 1) - 1) := by ring
          rw [e3]; exact hh
    · obtain ⟨l1, l2⟩ := process_est h P n k i (by omega) lo hi lo1 hi1 l (by omega) s (by omega)
        (by omega)
      obtain ⟨r1, r2⟩ := ih _ (k + 1) i1 l1 hmin1 (fun s' h' => hs s' (by simp [h']))
      exact ⟨r1, fun _ => r2 (Or.inl l2)⟩

/-- The call makes the algorithm forget what it has learned. -/
def Call.restarts : Call → Bool
  | .init _ _ => true
  | .reset => true
  | .setTuning _ => true
  | _ => false

/-- A history that ends with such a call leaves an estimator that has learned nothing. -/
theorem fresh_state (h : Ieee F) (P : Par (Option ℝ)) (n : ℤ) (c : Call)
    (hcfg : Cfg (call F P c) n) (hr : c.restarts = true) :
    MeanOk (call F P c) ∧ (call F P c).eInit = false ∧ (call F P c).eOff = some 0 := by
  have hinit : ∀ Q : Par (Option ℝ), (initInstances (floats F) Q).eInit = false ∧
      (initInstances (floats F) Q).eOff = some 0 := by
    intro Q
    refine ⟨?_, by rw [initInstances_off, ofInt_eq F h 0 (by decide), Int.cast_zero]⟩
    unfold initInstances estSet moxSet scaledSet lowpassSet
    dsimp only
    split <;> rfl
  cases c with
  | setStates _ _ => cases hr
  | process _ => cases hr
  | reset => exact ⟨initInstances_mean h _ n hcfg, hinit _⟩
  | setTuning t => exact ⟨initInstances_mean h _ n hcfg, hinit _⟩
  | init nox s => exact ⟨initInstances_mean h _ n hcfg, hinit _⟩

theorem call_min (P : Par (Option ℝ)) (nox : Bool) (s : ℤ) (cs : List Call) :
    (after F P (.init nox s :: cs)).min = rawMin (isNox (.init nox s :: cs)) := by
  have := after_kind (F := F) cs (initWith (floats F) P nox (some (s : ℝ))) nox (by
    unfold initWith reset
    dsimp only
    rw [initInstances_kind]
    cases nox <;> rfl)
  exact congrArg Prod.snd this

theorem fresh_history (h : Ieee F) (P : Par (Option ℝ)) (nox : Bool) (s : ℤ) (s1 : 1 ≤ s)
    (s10 : s ≤ 10) (cs : List Call) (hc : ∀ c ∈ cs, c.Allowed)
    (hr : ((Call.init nox s :: cs).getLast (by simp)).restarts = true) :
    MeanOk (after F P (.init nox s :: cs)) ∧ (after F P (.init nox s :: cs)).eInit = false ∧
      (after F P (.init nox s :: cs)).eOff = some 0 := by
  have i := history_inv h P nox s s1 s10 cs hc
  have hd := List.dropLast_append_getLast (l := Call.init nox s :: cs) (by simp)
  have e : after F P (.init nox s :: cs) =
      call F (after F P (Call.init nox s :: cs).dropLast)
        ((Call.init nox s :: cs).getLast (by simp)) := by
    conv_lhs => rw [← hd]
    simp only [after, List.foldl_append, List.foldl_cons, List.foldl_nil]
  have hcfg := i.cfg
  rw [e] at hcfg ⊢
  exact fresh_state h _ _ _ hcfg hr

/-- **C97.** The learned mean lies within the measured values.  After any allowed history whose
last call is `init`, `reset` or `set_tuning_parameters`, let the algorithm measure raw values
that lie between `lo` and `hi` above the smallest raw value.  Once it has measured a value
after the blackout, the mean that `get_states` hands out is at most 1/64 below `lo` or above
`hi`, however long it goes on. -/
theorem C97_learned (h : Ieee F) (P : Par (Option ℝ)) (nox : Bool) (s : ℤ) (s1 : 1 ≤ s)
    (s10 : s ≤ 10) (cs : List Call) (hc : ∀ c ∈ cs, c.Allowed)
    (hr : ((Call.init nox s :: cs).getLast (by simp)).restarts = true)
    (lo hi : ℤ) (lo1 : 1 ≤ lo) (hi1 : hi ≤ 32767) (raws : List ℤ) (hne : raws ≠ []) :
    let before := Call.init nox s :: cs
    (∀ r ∈ raws, rawMin (isNox before) + lo ≤ r ∧ r ≤ rawMin (isNox before) + hi) →
    45 < (measured before + raws.length - 1) * interval before →
    ∃ mean std : ℝ,
      getStates (floats F) (after F P (before ++ raws.map .process)) = (some mean, some std) ∧
      (lo : ℝ) - 1 / 64 ≤ mean ∧ mean ≤ (hi : ℝ) + 1 / 64 := by
  intro before hraws hlong
  have i := history_inv h P nox s s1 s10 cs hc
  have hmin := call_min (F := F) P nox s cs
  obtain ⟨f1, f2, f3⟩ := fresh_history h P nox s s1 s10 cs hc hr
  have e : after F P (before ++ raws.map .process) =
      after F (after F P before) (raws.map .process) := by
    simp only [after, List.foldl_append]
  have l0 : Learned F (after F P before) lo hi :=
    ⟨f1, fun hh => absurd (f2.symm.trans hh) (by decide)⟩
  obtain ⟨l, le⟩ := run_learned h lo hi lo1 hi1 _ _ raws _ _ i l0 hmin hraws
  have hall : ∀ c ∈ cs ++ raws.map .process, c.Allowed := by
    intro c hm
    rcases List.mem_append.1 hm with hm | hm
    · exact hc c hm
    · obtain ⟨r, _, rfl⟩ := List.mem_map.1 hm
      trivial
  have i2 := history_inv h P nox s s1 s10 (cs ++ raws.map .process) hall
  obtain ⟨o, m, eo, em, _, _, _, b0, b1⟩ := l.est (le (Or.inr ⟨hne, hlong⟩))
  obtain ⟨d, ed, _⟩ := i2.inst.eStd
  rw [← e] at eo em
  refine ⟨F.rnd (m + o), d, ?_, ?_, ?_⟩
  · unfold getStates getMean getStd
    rw [em, eo, add_eq]
    exact congrArg _ ed
  · exact rnd_lo h lo lo1 (by
      obtain ⟨r, hr⟩ := List.exists_mem_of_ne_nil raws hne
      have := hraws r hr
      omega) (by linarith)
  · exact rnd_hi h hi (by
      obtain ⟨r, hr⟩ := List.exists_mem_of_ne_nil raws hne
      have := hraws r hr
      omega) hi1 (by linarith)

/-- **C97.** The same for an algorithm that is resumed with `set_states`, as the header says,
from a mean in that range: the mean never leaves the range, from the start on. -/
theorem C97_resumed (h : Ieee F) (P : Par (Option ℝ)) (nox : Bool) (s : ℤ) (s1 : 1 ≤ s)
    (s10 : s ≤ 10) (cs : List Call) (hc : ∀ c ∈ cs, c.Allowed)
    (hr : ((Call.init nox s :: cs).getLast (by simp)).restarts = true)
    (lo hi : ℤ) (lo1 : 1 ≤ lo) (hi1 : hi ≤ 32767) (m0 d0 : ℝ) (fm : F.rnd m0 = m0)
    (m1 : (lo : ℝ) ≤ m0) (m2 : m0 ≤ hi) (hd : 0 ≤ d0) (raws : List ℤ) :
    let before := Call.init nox s :: cs
    (∀ r ∈ raws, rawMin (isNox before) + lo ≤ r ∧ r ≤ rawMin (isNox before) + hi) →
    ∃ mean std : ℝ,
      getStates (floats F) (after F P (before ++ ([.setStates m0 d0] ++ raws.map .process))) =
        (some mean, some std) ∧
      (lo : ℝ) - 1 / 64 ≤ mean ∧ mean ≤ (hi : ℝ) + 1 / 64 := by
  intro before hraws
  have i := history_inv h P nox s s1 s10 cs hc
  have hmin := call_min (F := F) P nox s cs
  obtain ⟨f1, f2, f3⟩ := fresh_history h P nox s s1 s10 cs hc hr
  have e : after F P (before ++ ([.setStates m0 d0] ++ raws.map .process)) =
      after F (setStates (floats F) (after F P before) (some m0) (some d0))
        (raws.map .process) := by
    simp only [after, List.foldl_append, List.foldl_cons, List.foldl_nil, call]
  have key : ∀ B : Par (Option ℝ), MeanOk B → B.eOff = some 0 →
      Inv F B (interval before) (measured before) → B.min = rawMin (isNox before) →
      ∃ o m : ℝ,
        (after F (setStates (floats F) B (some m0) (some d0)) (raws.map .process)).eOff = some o ∧
        (after F (setStates (floats F) B (some m0) (some d0)) (raws.map .process)).eMean = some m ∧
        (lo : ℝ) - 1 / 64 ≤ o + m ∧ o + m ≤ (hi : ℝ) + 1 / 64 := by
    intro B f1 f3 i hmin
    have l0 : Learned F (setStates (floats F) B (some m0) (some d0)) lo hi :=
      ⟨f1, fun _ => ⟨0, m0, f3, rfl, fm, le_refl _, by norm_num, by linarith, by linarith⟩⟩
    have is := setStates_inv _ _ _ i m0 d0 hd
    obtain ⟨l, le⟩ := run_learned h lo hi lo1 hi1 (isNox before) _ raws _ _ is l0 hmin hraws
    obtain ⟨o, m, eo, em, _, _, _, b0, b1⟩ := l.est (le (Or.inl rfl))
    exact ⟨o, m, eo, em, b0, b1⟩
  obtain ⟨o, m, eo, em, b0, b1⟩ := key _ f1 f3 i hmin
  have hall : ∀ c ∈ cs ++ ([.setStates m0 d0] ++ raws.map .process), c.Allowed := by
    intro c hm
    rcases List.mem_append.1 hm with hm | hm
    · exact hc c hm
    · rcases List.mem_append.1 hm with hm | hm
      · rw [List.mem_singleton] at hm
        subst hm
        exact hd
      · obtain ⟨r, _, rfl⟩ := List.mem_map.1 hm
        trivial
  have i2 := history_inv h P nox s s1 s10 (cs ++ ([.setStates m0 d0] ++ raws.map .process)) hall
  obtain ⟨d, ed, _⟩ := i2.inst.eStd
  rw [← e] at eo em
  have lohi : lo ≤ hi := by
    have : (lo : ℝ) ≤ hi := le_trans m1 m2
    exact_mod_cast this
  refine ⟨F.rnd (m + o), d, ?_, rnd_lo h lo lo1 (by omega) (by linarith),
    rnd_hi h hi (by omega) hi1 (by linarith)⟩
  unfold getStates getMean getStd
  rw [em, eo, add_eq]
  exact congrArg _ ed

/-- A VOC sensor that reads 27000 and 27100 by turns for 100 measurements has learned a mean
between the two. -/
example (P : Par (Option ℝ)) : ∃ mean std : ℝ,
    getStates (floats binary32) (after binary32 P ([.init false 1] ++
      ((List.range 100).map (fun i => 27000 + 100 * ((i : ℤ) % 2))).map .process)) =
        (some mean, some std) ∧ ((7000 : ℤ) : ℝ) - 1 / 64 ≤ mean ∧ mean ≤ ((7100 : ℤ) : ℝ) + 1 / 64 :=
  C97_learned binary32_ieee P false 1 (by decide) (by decide) [] (by simp) rfl 7000 7100
    (by decide) (by decide) _ (by decide) (by decide +kernel) (by decide +kernel)

/-- A resumed NOx algorithm. -/
example (P : Par (Option ℝ)) : ∃ mean std : ℝ,
    getStates (floats binary32) (after binary32 P ([.init true 10, .reset] ++
      ([.setStates 6000 20] ++ [16010, 16100].map .process))) = (some mean, some std) ∧
      ((6000 : ℤ) : ℝ) - 1 / 64 ≤ mean ∧ mean ≤ ((6100 : ℤ) : ℝ) + 1 / 64 :=
  C97_resumed binary32_ieee P true 10 (by decide) (by decide) [.reset] (by simp [Call.Allowed]) rfl
    6000 6100 (by decide) (by decide) 6000 20
    (by have := rnd_int binary32_ieee 6000 (by decide); simpa using this) (by norm_num)
    (by norm_num) (by norm_num) _ (by decide)

end Verif.Gas
