import Verif.Gas.Props

/-!
# C96: typical conditions give the index offset
-/

namespace Verif.Gas

variable {F : Flt}

/-- `exp` lies near the exponential function of a number near. -/
theorem exp_between (h : Ieee F) {x lo hi : ℝ} (hx : x ≤ 50) (h1 : lo ≤ x) (h2 : x ≤ hi) :
    Real.exp lo * (1 - 1 / 2 ^ 20) - 1 / 2 ^ 100 ≤ F.exp x ∧
      F.exp x ≤ Real.exp hi * (1 + 1 / 2 ^ 20) + 1 / 2 ^ 100 := by
  have e1 : Real.exp lo ≤ Real.exp x := Real.exp_le_exp.2 h1
  have e2 : Real.exp x ≤ Real.exp hi := Real.exp_le_exp.2 h2
  have := le_exp h hx
  have := exp_le h hx
  constructor <;> nlinarith

/-- The exponential at the centre of the VOC curve is about 4. -/
theorem exp_voc : (3992 / 1000 : ℝ) ≤ Real.exp (13844 / 10000) ∧ Real.exp (1385 / 1000) ≤ 4 := by
  have e4 : Real.exp (2 * Real.log 2) = 4 := by
    rw [two_mul, Real.exp_add, Real.exp_log (by norm_num)]; norm_num
  have l1 := Real.log_two_gt_d9
  have l2 := Real.log_two_lt_d9
  constructor
  · have : Real.exp (13844 / 10000) = Real.exp (2 * Real.log 2) *
        Real.exp (13844 / 10000 - 2 * Real.log 2) := by rw [← Real.exp_add]; congr 1; ring
    rw [this, e4]
    have := Real.add_one_le_exp (13844 / 10000 - 2 * Real.log 2)
    linarith
  · rw [← e4]
    exact Real.exp_le_exp.2 (by linarith)

/-- The exponential at the centre of the NOx curve is about 493. -/
theorem exp_nox : (484 : ℝ) ≤ Real.exp (6201 / 1000) ∧ Real.exp (6202 / 1000) ≤ 507 := by
  have e6 : Real.exp 6 = Real.exp 1 ^ 6 := by rw [← Real.exp_nat_mul]; norm_num
  have g1 := Real.exp_one_gt_d9
  have g2 := Real.exp_one_lt_d9
  have lo : (403 : ℝ) ≤ Real.exp 6 := by
    rw [e6]
    refine le_trans ?_ (pow_le_pow_left₀ (by norm_num) g1.le 6)
    norm_num
  have hi : Real.exp 6 ≤ 404 := by
    rw [e6]
    refine le_trans (pow_le_pow_left₀ (by positivity) g2.le 6) ?_
    norm_num
  constructor
  · have e : Real.exp (6201 / 1000) = Real.exp 6 * Real.exp (201 / 1000) := by
      rw [← Real.exp_add]; congr 1; norm_num
    rw [e]
    have := Real.add_one_le_exp (201 / 1000 : ℝ)
    nlinarith
  · have e : Real.exp (6202 / 1000) * Real.exp (-(202 / 1000)) = Real.exp 6 := by
      rw [← Real.exp_add]; congr 1; norm_num
    have := Real.add_one_le_exp (-(202 / 1000) : ℝ)
    have p := Real.exp_pos (6202 / 1000)
    nlinarith

/-- A number near `b` rounds to a number near `b`. -/
theorem rnd_near (h : Ieee F) {x lo hi : ℝ} (l0 : 0 ≤ lo) (h1 : lo ≤ x) (h2 : x ≤ hi) :
    lo - lo / 2 ^ 23 - 1 / 2 ^ 100 ≤ F.rnd x ∧ F.rnd x ≤ hi + hi / 2 ^ 23 + 1 / 2 ^ 100 :=
  ⟨le_rnd_of h l0 h1, rnd_le_of h (by linarith) h2⟩

/-- The scaled sigmoid at zero is the index offset, up to a quarter. -/
theorem scaled_zero (h : Ieee F) (P : Par (Option ℝ)) (hs : ScaleOk F P) (o : ℤ)
    (eo : P.off = some (o : ℝ)) (o1 : 1 ≤ o) (o2 : o ≤ 250) :
    ∃ y, scaledProcess (floats F) P (some 0) = some y ∧ |y - o| ≤ 1 / 4 := by
  have o1' : (1 : ℝ) ≤ o := by exact_mod_cast o1
  have o2' : (o : ℝ) ≤ 250 := by exact_mod_cast o2
  have ab : |1 - o| ≤ 2 ^ 24 := abs_le.2 ⟨by omega, by omega⟩
  have ab5 : |5 * o| ≤ 2 ^ 24 := abs_le.2 ⟨by omega, by omega⟩
  have ab6 : |500 - 5 * o| ≤ 2 ^ 24 := abs_le.2 ⟨by omega, by omega⟩
  have ab7 : |2500 - 5 * o| ≤ 2 ^ 24 := abs_le.2 ⟨by omega, by omega⟩
  unfold ScaleOk at hs
  cases hn : P.nox
  · simp only [hn, Bool.false_eq_true, if_false] at hs
    -- the argument of the exponential
    have k := rnd_near h (x := 65 / 10000) (by norm_num) (le_refl _) (le_refl _)
    have e213 : F.rnd (0 - 213) = -213 := by
      have := rnd_int h (-213) (by decide)
      push_cast at this
      rw [zero_sub]; exact this
    have hx := rnd_near h (x := -F.rnd (65 / 10000) * F.rnd (0 - 213)) (lo := 138445 / 100000)
      (hi := 13847 / 10000) (by norm_num) (by rw [e213]; linarith) (by rw [e213]; linarith)
    have sh : shiftOf (floats F) P = some (((500 - 5 * (o : ℝ)) / 4 : ℝ)) := by
      unfold shiftOf
      rw [hs.2.2, eo, ofInt_eq F h 1 (by decide), if_neg (by rw [eq_eq]; norm_num),
        ofInt_eq F h 500 (by decide), ofInt_eq F h 5 (by decide), ofInt_eq F h 4 (by decide),
        mul_eq, sub_eq]
      have e5 : F.rnd (((5 : ℤ) : ℝ) * (o : ℝ)) = ((5 * o : ℤ) : ℝ) := by
        rw [← Int.cast_mul]; exact rnd_int h _ ab5
      have e6 : F.rnd (((500 : ℤ) : ℝ) - ((5 * o : ℤ) : ℝ)) = ((500 - 5 * o : ℤ) : ℝ) := by
        rw [← Int.cast_sub]; exact rnd_int h _ ab6
      rw [e5, e6, div_eq F _ _ (by norm_num)]
      have := h.exact (500 - 5 * o) 2 ab6 (by decide)
      norm_num at this ⊢
      exact this
    unfold scaledProcess
    simp only [sh, hs.1, hs.2.1, hs.2.2, eo, sub_eq, mul_eq, ofInt_eq F h (-50) (by decide),
      ofInt_eq F h 50 (by decide), ofInt_eq F h 500 (by decide),
      ofInt_eq F h 0 (by decide), ofInt_eq F h 1 (by decide), lt_eq, le_eq, exp_eq, add_eq]
    revert hx
    generalize F.rnd (-F.rnd (65 / 10000) * F.rnd (0 - 213)) = x
    rintro ⟨hx1, hx2⟩
    have x1 : (13844 / 10000 : ℝ) ≤ x := le_trans (by norm_num) hx1
    have x2 : x ≤ 1385 / 1000 := le_trans hx2 (by norm_num)
    rw [if_neg (by push_cast; linarith), if_neg (by push_cast; linarith), if_pos (by norm_num)]
    have ee := exp_between h (by linarith) x1 x2
    have d := rnd_near h (x := ((1 : ℤ) : ℝ) + F.exp x) (lo := 49919 / 10000) (hi := 50001 / 10000)
      (by norm_num) (by have := exp_voc.1; push_cast; nlinarith)
      (by have := exp_voc.2; push_cast; nlinarith)
    revert d
    generalize F.rnd (((1 : ℤ) : ℝ) + F.exp x) = D
    rintro ⟨hd1, hd2⟩
    have d1 : (49918 / 10000 : ℝ) ≤ D := le_trans (by norm_num) hd1
    have d2 : D ≤ 5001 / 1000 := le_trans hd2 (by norm_num)
    rw [div_eq F _ _ (by linarith), sub_eq]
    refine ⟨_, rfl, ?_⟩
    have eT : F.rnd (((500 : ℤ) : ℝ) + (500 - 5 * (o : ℝ)) / 4) = (2500 - 5 * (o : ℝ)) / 4 := by
      have := h.exact (2500 - 5 * o) 2 ab7 (by decide)
      norm_num at this
      have e : ((500 : ℤ) : ℝ) + (500 - 5 * (o : ℝ)) / 4 = (2500 - 5 * (o : ℝ)) / 4 := by
        push_cast; ring
      rw [e]; exact this
    rw [eT]
    have q1 : (2500 - 5 * (o : ℝ)) / 4 / (5001 / 1000) ≤ (2500 - 5 * (o : ℝ)) / 4 / D :=
      div_le_div_of_nonneg_left (by linarith) (by linarith) d2
    have q2 : (2500 - 5 * (o : ℝ)) / 4 / D ≤ (2500 - 5 * (o : ℝ)) / 4 / (49918 / 10000) :=
      div_le_div_of_nonneg_left (by linarith) (by norm_num) d1
    have r := rnd_near h (by linarith) q1 q2
    revert r
    generalize F.rnd ((2500 - 5 * (o : ℝ)) / 4 / D) = Q
    rintro ⟨r1, r2⟩
    have fin := rnd_near h (x := Q - (500 - 5 * (o : ℝ)) / 4) (lo := o - 1 / 10)
      (hi := o + 22 / 100) (by linarith) (by linarith) (by linarith)
    exact abs_le.2 ⟨by linarith [fin.1], by linarith [fin.2]⟩
  · simp only [hn, if_true] at hs
    have k := rnd_near h (x := 101 / 10000) (by norm_num) (le_refl _) (le_refl _)
    have e614 : F.rnd (0 - 614) = -614 := by
      have := rnd_int h (-614) (by decide)
      push_cast at this
      rw [zero_sub]; exact this
    have hx := rnd_near h (x := -F.rnd (101 / 10000) * F.rnd (0 - 614)) (lo := 62011 / 10000)
      (hi := 62017 / 10000) (by norm_num) (by rw [e614]; linarith) (by rw [e614]; linarith)
    have c := rnd_near h (x := ((500 : ℤ) : ℝ) / ((499 : ℤ) : ℝ)) (by norm_num) (le_refl _)
      (le_refl _)
    have sh : shiftOf (floats F) P =
        some (F.rnd (F.rnd (((500 : ℤ) : ℝ) / ((499 : ℤ) : ℝ)) * (1 - (o : ℝ)))) := by
      unfold shiftOf
      rw [hs.2.2, eo, ofInt_eq F h 1 (by decide), if_pos (by rw [eq_eq]; norm_num),
        ofInt_eq F h 500 (by decide), ofInt_eq F h 499 (by decide), sub_eq,
        div_eq F _ _ (by norm_num)]
      have e1 : F.rnd (((1 : ℤ) : ℝ) - (o : ℝ)) = 1 - (o : ℝ) := by
        have := rnd_int h _ ab
        push_cast at this ⊢
        exact this
      rw [e1, mul_eq]
    -- the shift
    obtain ⟨t, et, t1, t2⟩ : ∃ t, shiftOf (floats F) P = some t ∧
        -(500 / 499 * ((o : ℝ) - 1)) - 1 / 1000 ≤ t ∧
        t ≤ -(500 / 499 * ((o : ℝ) - 1)) + 1 / 1000 := by
      rw [sh]
      refine ⟨_, rfl, ?_⟩
      revert c
      generalize F.rnd (((500 : ℤ) : ℝ) / ((499 : ℤ) : ℝ)) = c
      rintro ⟨c1, c2⟩
      push_cast at c1 c2
      have c1' : (500 / 499 - 1 / 1000000 : ℝ) ≤ c := le_trans (by norm_num) c1
      have c2' : c ≤ 500 / 499 + 1 / 1000000 := le_trans c2 (by norm_num)
      have er := h.err (c * (1 - (o : ℝ)))
      rw [abs_of_nonpos (by nlinarith : c * (1 - (o : ℝ)) ≤ 0)] at er
      obtain ⟨er1, er2⟩ := abs_le.1 er
      have m1 : c * ((o : ℝ) - 1) ≤ (500 / 499 + 1 / 1000000) * ((o : ℝ) - 1) :=
        mul_le_mul_of_nonneg_right c2' (by linarith)
      have m2 : (500 / 499 - 1 / 1000000) * ((o : ℝ) - 1) ≤ c * ((o : ℝ) - 1) :=
        mul_le_mul_of_nonneg_right c1' (by linarith)
      have m3 : c * (1 - (o : ℝ)) = -(c * ((o : ℝ) - 1)) := by ring
      rw [m3] at er1 er2 ⊢
      constructor <;> linarith
    unfold scaledProcess
    simp only [et, hs.1, hs.2.1, hs.2.2, eo, sub_eq, mul_eq, ofInt_eq F h (-50) (by decide),
      ofInt_eq F h 50 (by decide), ofInt_eq F h 500 (by decide),
      ofInt_eq F h 0 (by decide), ofInt_eq F h 1 (by decide), lt_eq, le_eq, exp_eq, add_eq]
    revert hx
    generalize F.rnd (-F.rnd (101 / 10000) * F.rnd (0 - 614)) = x
    rintro ⟨hx1, hx2⟩
    have x1 : (6201 / 1000 : ℝ) ≤ x := le_trans (by norm_num) hx1
    have x2 : x ≤ 6202 / 1000 := le_trans hx2 (by norm_num)
    rw [if_neg (by push_cast; linarith), if_neg (by push_cast; linarith), if_pos (by norm_num)]
    have ee := exp_between h (by linarith) x1 x2
    have d := rnd_near h (x := ((1 : ℤ) : ℝ) + F.exp x) (lo := 484) (hi := 509)
      (by norm_num) (by have := exp_nox.1; push_cast; nlinarith)
      (by have := exp_nox.2; push_cast; nlinarith)
    revert d
    generalize F.rnd (((1 : ℤ) : ℝ) + F.exp x) = D
    rintro ⟨hd1, hd2⟩
    have d1 : (483 : ℝ) ≤ D := le_trans (by norm_num) hd1
    have d2 : D ≤ 510 := le_trans hd2 (by norm_num)
    rw [div_eq F _ _ (by linarith), sub_eq]
    refine ⟨_, rfl, ?_⟩
    have T := rnd_near h (x := ((500 : ℤ) : ℝ) + t)
      (lo := 500 - 500 / 499 * ((o : ℝ) - 1) - 1 / 1000)
      (hi := 500 - 500 / 499 * ((o : ℝ) - 1) + 1 / 1000) (by linarith) (by push_cast; linarith)
      (by push_cast; linarith)
    revert T
    generalize F.rnd (((500 : ℤ) : ℝ) + t) = T
    rintro ⟨T1, T2⟩
    have q1 : T / 510 ≤ T / D := div_le_div_of_nonneg_left (by linarith) (by linarith) d2
    have q2 : T / D ≤ T / 483 := div_le_div_of_nonneg_left (by linarith) (by norm_num) d1
    have r := rnd_near h (by linarith) q1 q2
    revert r
    generalize F.rnd (T / D) = Q
    rintro ⟨r1, r2⟩
    have fin := rnd_near h (x := Q - t) (lo := o - 1 / 10)
      (hi := o + 1 / 10) (by linarith) (by linarith) (by linarith)
    exact abs_le.2 ⟨by linarith [fin.1], by linarith [fin.2]⟩

/-- What never changes but by `init`: the algorithm type and the smallest raw value. -/
def kind (P : Par (Option ℝ)) : Bool × ℤ := (P.nox, P.min)

theorem initInstances_kind (A : Arith (Option ℝ)) (P : Par (Option ℝ)) :
    kind (initInstances A P) = kind P := by
  unfold kind initInstances estSet moxSet scaledSet lowpassSet
  dsimp only
  split <;> rfl

theorem estProcess_kind (A : Arith (Option ℝ)) (P : Par (Option ℝ)) (s : Option ℝ) :
    kind (estProcess A P s) = kind P := by
  have hg : ∀ R : Par (Option ℝ), kind (calculateGamma A R) = kind R := by
    intro R
    unfold kind calculateGamma sigmoidSet
    dsimp only
    split <;> split <;> rfl
  unfold estProcess
  split
  · have h1 : ∀ (Q : Par (Option ℝ)) (a b : Option ℝ),
        kind { Q with eStd := a, eMean := b } = kind Q := fun _ _ _ => rfl
    dsimp only
    rw [h1, hg]
    split <;> rfl
  · rfl

theorem process_kind (A : Arith (Option ℝ)) (P : Par (Option ℝ)) (s : ℤ) :
    kind (process A P s).1 = kind P := by
  have h1 : ∀ Q : Par (Option ℝ), kind (takeSraw A Q s) = kind Q := by
    intro Q; unfold takeSraw; split <;> rfl
  have h2 : ∀ (Q : Par (Option ℝ)) (r : Option ℝ), kind (lowpassProcess A Q r) = kind Q := by
    intro Q r; unfold lowpassProcess; dsimp only; split <;> rfl
  have h3 : ∀ (Q : Par (Option ℝ)) (r : Option ℝ), kind { Q with idx := r } = kind Q :=
    fun _ _ => rfl
  have h4 : ∀ (Q : Par (Option ℝ)) (a b : Option ℝ), kind (moxSet Q a b) = kind Q :=
    fun _ _ _ => rfl
  unfold process
  dsimp only
  split
  · rfl
  · split
    · rw [h4, estProcess_kind, h3, h2, h1]
    · rw [h3, h2, h1]

/-- The type of a history: that of the last `init`. -/
def isNox (h : List Call) : Bool :=
  h.foldl (fun b c => match c with | .init nox _ => nox | _ => b) false

/-- The smallest raw value of a sensor: 20000 for VOC, 10000 for NOx
(sblib/inc/sblib/i2c/sensirion_gas_index_algorithm.h:94-95). -/
def rawMin (nox : Bool) : ℤ := if nox then 10000 else 20000

theorem after_kind (cs : List Call) : ∀ (P : Par (Option ℝ)) (b : Bool), kind P = (b, rawMin b) →
    kind (after F P cs) =
      (cs.foldl (fun b c => match c with | .init nox _ => nox | _ => b) b,
        rawMin (cs.foldl (fun b c => match c with | .init nox _ => nox | _ => b) b)) := by
  induction cs with
  | nil => intro P b hb; exact hb
  | cons c cs ih =>
    intro P b hb
    refine ih (call F P c) _ ?_
    cases c with
    | init nox s =>
      show kind (initWith (floats F) P nox (some (s : ℝ))) = _
      unfold initWith reset
      dsimp only
      rw [initInstances_kind]
      cases nox <;> rfl
    | reset => exact (initInstances_kind _ _).trans hb
    | setStates m d => exact hb
    | setTuning t => exact (initInstances_kind _ _).trans hb
    | process s => exact (process_kind _ _ s).trans hb

/-- A measurement during the blackout changes nothing but the time. -/
theorem process_blackout (h : Ieee F) (P : Par (Option ℝ)) (n : ℤ) (k : ℕ) (i : Inv F P n k)
    (hk : (k : ℤ) * n ≤ 45) (s : ℤ) :
    ∃ u, (process (floats F) P s).1 = { P with uptime := u } := by
  obtain ⟨j, ej, j1, _⟩ := i.up
  have ejk := j1 hk
  subst ejk
  have cond : (floats F).le P.uptime ((floats F).ofInt 45) = true := by
    rw [ej, ofInt_eq F h 45 (by decide), le_eq]
    exact_mod_cast hk
  unfold process
  rw [if_pos cond]
  exact ⟨_, rfl⟩

theorem run_blackout (h : Ieee F) (n : ℤ) : ∀ (ss : List ℤ) (P : Par (Option ℝ)) (k : ℕ),
    Inv F P n k → ((k + ss.length : ℕ) : ℤ) * n ≤ 45 + n →
    ∃ u, after F P (ss.map .process) = { P with uptime := u } := by
  intro ss
  induction ss with
  | nil => intro P k _ _; exact ⟨P.uptime, rfl⟩
  | cons s ss ih =>
    intro P k i hk
    have n1 := i.cfg.n1
    have hk0 : (k : ℤ) * n ≤ 45 := by
      rw [List.length_cons] at hk
      push_cast at hk
      have : 0 ≤ (ss.length : ℤ) * n := by positivity
      nlinarith
    obtain ⟨u, eu⟩ := process_blackout h P n k i hk0 s
    have i2 := (process_inv h P n k i s).1
    obtain ⟨v, ev⟩ := ih _ (k + 1) i2 (by
      rw [List.length_cons] at hk
      push_cast at hk ⊢
      linarith)
    refine ⟨v, ?_⟩
    show after F (process (floats F) P s).1 (ss.map .process) = _
    rw [ev, eu]

/-- The first measurement after the blackout, near a whole number: that is the index. -/
theorem first_near (h : Ieee F) (P : Par (Option ℝ)) (n : ℤ) (k : ℕ) (i : Inv F P n k)
    (hk : 45 < k * n) (hl : P.lpInit = false) (s : ℤ) (r : ℝ) (o : ℤ) (o1 : 1 ≤ o) (o2 : o ≤ 250)
    (hr : rawIndex (floats F) (takeSraw (floats F) P s) = some r) (hro : |r - o| ≤ 1 / 4) :
    (process (floats F) P s).2 = o := by
  have o1' : (1 : ℝ) ≤ o := by exact_mod_cast o1
  have o2' : (o : ℝ) ≤ 250 := by exact_mod_cast o2
  obtain ⟨ro1, ro2⟩ := abs_le.1 hro
  obtain ⟨c, ins, ⟨j, ej, j1, j2, j3, j4⟩, ⟨sr, esr⟩, ⟨y, ey, y0⟩⟩ := i
  have half : (floats F).lit (1 / 2) = some (1 / 2 : ℝ) := by
    rw [lit_eq]; push_cast; rw [rnd_half h]
  unfold process
  have hb : 45 < j * n := j2 hk
  have cond : ¬ (floats F).le P.uptime ((floats F).ofInt 45) = true := by
    rw [ej, ofInt_eq F h 45 (by decide), le_eq]
    intro hh
    have : j * n ≤ 45 := by exact_mod_cast hh
    omega
  rw [if_neg cond]
  obtain ⟨t, et⟩ : ∃ t : ℝ, takeSraw (floats F) P s = { P with sraw := some t } := by
    unfold takeSraw
    split
    · exact ⟨_, rfl⟩
    · exact ⟨sr, by rw [← esr]⟩
  rw [et] at hr
  simp only [et, hr]
  obtain ⟨x1, x2, z, elp, hz⟩ : ∃ (x1 x2 : Option ℝ) (z : ℝ),
      lowpassProcess (floats F) { P with sraw := some t } (some r) =
        { P with sraw := some t, x1 := x1, x2 := x2, x3 := some z, lpInit := true } ∧
      |z - r| ≤ 1 / 100 := by
    unfold lowpassProcess
    simp only [hl, Bool.false_eq_true, if_false]
    obtain ⟨v1, ev1⟩ : Num (blend (floats F) P.a1 (some r) (some r)) :=
      num_blend ins.a1 (num_some _) (num_some _)
    obtain ⟨v2, ev2⟩ : Num (blend (floats F) P.a2 (some r) (some r)) :=
      num_blend ins.a2 (num_some _) (num_some _)
    obtain ⟨a, ea, a0, a1⟩ := adapt_range h n c.n1 c.n10 v1 v2
    refine ⟨some v1, some v2, F.rnd (F.rnd (F.rnd (((1 : ℤ) : ℝ) - a) * r) + F.rnd (a * r)),
      ?_, ?_⟩
    · simp only [ev1, ev2, c.dt, ea]
      unfold blend
      rw [ofInt_eq F h 1 (by decide), sub_eq, mul_eq, mul_eq, add_eq]
    · have r0 : 0 ≤ r := by linarith
      have b0 : 0 ≤ ((1 : ℤ) : ℝ) - a := by push_cast; linarith
      have b1 := rnd_near h b0 (le_refl _) (le_refl _)
      push_cast at b1 ⊢
      revert b1
      generalize F.rnd (1 - a) = b
      rintro ⟨b1, b2⟩
      have p1 : (1 - a - 1 / 1000000) * r ≤ b * r := mul_le_mul_of_nonneg_right (by linarith) r0
      have p2 : b * r ≤ (1 - a + 1 / 1000000) * r := mul_le_mul_of_nonneg_right (by linarith) r0
      have e1 := abs_le.1 (h.err (b * r))
      have e2 := abs_le.1 (h.err (a * r))
      have br : |b * r| ≤ 300 := abs_le.2 ⟨by nlinarith, by nlinarith⟩
      have ar : |a * r| ≤ 300 := abs_le.2 ⟨by nlinarith, by nlinarith⟩
      have e3 := abs_le.1 (h.err (F.rnd (b * r) + F.rnd (a * r)))
      have q1 : |b * r| / 2 ^ 23 ≤ 300 / 2 ^ 23 := div_le_div_of_nonneg_right br (by norm_num)
      have q2 : |a * r| / 2 ^ 23 ≤ 300 / 2 ^ 23 := div_le_div_of_nonneg_right ar (by norm_num)
      have sr' : |F.rnd (b * r) + F.rnd (a * r)| ≤ 1000 :=
        abs_le.2 ⟨by nlinarith, by nlinarith⟩
      have q3 : |F.rnd (b * r) + F.rnd (a * r)| / 2 ^ 23 ≤ 1000 / 2 ^ 23 :=
        div_le_div_of_nonneg_right sr' (by norm_num)
      exact abs_le.2 ⟨by nlinarith, by nlinarith⟩
  obtain ⟨z1, z2⟩ := abs_le.1 hz
  simp only [elp, half]
  have ew : (if (floats F).lt (some z) (some (1 / 2 : ℝ)) = true then
      (some (1 / 2 : ℝ)) else some z) = some z := by
    rw [if_neg]
    rw [lt_eq]; linarith
  simp only [ew]
  have fin : (floats F).toInt ((floats F).add (some z) (some (1 / 2 : ℝ))) = o := by
    rw [add_eq, toInt_eq]
    have q := rnd_near h (x := z + 1 / 2) (lo := o + 1 / 5) (hi := o + 4 / 5) (by linarith)
      (by linarith) (by linarith)
    have := truncate_range (x := F.rnd (z + 1 / 2)) o o (by linarith [q.1]) (by linarith [q.1])
      (by linarith [q.2])
    omega
  split
  · have hid : ∀ (Q : Par (Option ℝ)) (q : Option ℝ),
        (estProcess (floats F) Q q).idx = Q.idx := by
      intro Q q
      have hg : ∀ R : Par (Option ℝ), (calculateGamma (floats F) R).idx = R.idx := by
        intro R
        unfold calculateGamma sigmoidSet
        dsimp only
        split <;> split <;> rfl
      unfold estProcess
      split
      · dsimp only
        rw [hg]
        split <;> rfl
      · rfl
    simp only [moxSet, hid]
    exact fin
  · exact fin

/-- **C96.** Typical conditions give the index offset.  An algorithm that was initialised,
tuned and run in any allowed way and is then resumed as the header says — `reset`, then
`set_states` with a mean `m` from 1 to 32767 and any deviation — answers the first measurement
after the blackout with exactly its index offset, if the measured value is that mean. -/
theorem C96_typical (h : Ieee F) (P : Par (Option ℝ)) (nox : Bool) (s : ℤ) (s1 : 1 ≤ s)
    (s10 : s ≤ 10) (cs : List Call) (hc : ∀ c ∈ cs, c.Allowed) (m : ℤ) (m1 : 1 ≤ m)
    (m2 : m ≤ 32767) (d : ℝ) (hd : 0 ≤ d) (blackout : List ℤ) :
    let before := Call.init nox s :: cs
    let H := before ++ ([.reset, .setStates m d] ++ blackout.map .process)
    45 < blackout.length * interval before →
    (blackout.length - 1) * interval before ≤ 45 →
    (process (floats F) (after F P H) (rawMin (isNox before) + m)).2 =
      (getTuning (floats F) (after F P before)).offset := by
  intro before H hb1 hb2
  have m1' : (1 : ℝ) ≤ m := by exact_mod_cast m1
  have abm : |m| ≤ 2 ^ 24 := abs_le.2 ⟨by omega, by omega⟩
  have i0 := history_inv h P nox s s1 s10 cs hc
  have k0 : kind (after F P before) = (isNox before, rawMin (isNox before)) := by
    refine after_kind cs (initWith (floats F) P nox (some (s : ℝ))) nox ?_
    unfold initWith reset
    dsimp only
    rw [initInstances_kind]
    cases nox <;> rfl
  have eH : after F P H = after F (setStates (floats F) (reset (floats F) (after F P before))
      (some (m : ℝ)) (some d)) (blackout.map .process) := by
    simp [H, after, call]
  rw [eH]
  change Inv F (after F P before) (interval before) (measured before) at i0
  generalize after F P before = B at i0 k0 ⊢
  generalize interval before = n at i0 hb1 hb2
  have i1 := setStates_inv _ n 0 (reset_inv h B n i0.cfg) (m : ℝ) d hd
  obtain ⟨u, eu⟩ := run_blackout h n blackout _ 0 i1 (by
    push_cast
    linarith)
  have i2 : Inv F (after F (setStates (floats F) (reset (floats F) B) (some (m : ℝ)) (some d))
      (blackout.map .process)) n blackout.length := by
    have := after_inv h (blackout.map .process) (by
      intro c hcc
      obtain ⟨x, _, rfl⟩ := List.mem_map.1 hcc
      trivial) _ n 0 i1
    have f1 : ∀ (l : List ℤ) (a : ℤ), (l.map Call.process).foldl nextInterval a = a := by
      intro l
      induction l with
      | nil => intro a; rfl
      | cons x l ih => intro a; exact ih a
    have f2 : ∀ (l : List ℤ) (a : ℕ), (l.map Call.process).foldl nextMeasured a =
        a + l.length := by
      intro l
      induction l with
      | nil => intro a; rfl
      | cons x l ih =>
        intro a
        show (l.map Call.process).foldl nextMeasured (a + 1) = _
        rw [ih, List.length_cons]; omega
    rw [f1, f2, Nat.zero_add] at this
    exact this
  -- the offset
  obtain ⟨o, eo, o1, o2⟩ := i0.cfg.off
  have tun : (getTuning (floats F) B).offset = o := by
    show (floats F).toInt B.off = o
    rw [eo, toInt_eq, truncate_int]
  rw [tun]
  rw [eu] at i2 ⊢
  -- the state
  have kr : kind (reset (floats F) B) = kind B := initInstances_kind _ _
  have krn : (reset (floats F) B).nox = isNox before := by
    have := congrArg Prod.fst (kr.trans k0); exact this
  have krm : (reset (floats F) B).min = rawMin (isNox before) := by
    have := congrArg Prod.snd (kr.trans k0); exact this
  have roff : (reset (floats F) B).eOff = (floats F).ofInt 0 := initInstances_off _ _
  have rlp : (reset (floats F) B).lpInit = false := by
    unfold reset initInstances lowpassSet
    rfl
  have ro : (reset (floats F) B).off = some (o : ℝ) := by
    rw [← eo]
    unfold reset initInstances estSet moxSet scaledSet lowpassSet
    dsimp only
    split <;> rfl
  have rsc := i2.inst.scale
  have rgain := i2.cfg.gain
  obtain ⟨sd, esd, sd0⟩ := i2.inst.moxStd
  generalize reset (floats F) B = R at i2 krn krm roff rlp ro rsc rgain esd ⊢
  -- the raw index
  have take : takeSraw (floats F)
      { setStates (floats F) R (some (m : ℝ)) (some d) with uptime := u }
      (rawMin (isNox before) + m) =
      { setStates (floats F) R (some (m : ℝ)) (some d) with uptime := u } := by
    have hmin : (setStates (floats F) R (some (m : ℝ)) (some d)).min = rawMin (isNox before) := krm
    unfold takeSraw
    dsimp only
    rw [hmin]
    have rm : rawMin (isNox before) = 10000 ∨ rawMin (isNox before) = 20000 := by
      unfold rawMin; split <;> simp
    rw [if_pos ⟨by omega, by omega⟩, if_neg (by omega), if_neg (by omega), add_sub_cancel_left,
      ofInt_eq F h m abm]
    rfl
  have mean : (setStates (floats F) R (some (m : ℝ)) (some d)).moxMean = some (m : ℝ) := by
    show (floats F).add (some (m : ℝ)) R.eOff = _
    rw [roff, ofInt_eq F h 0 (by decide), add_eq, Int.cast_zero, add_zero, rnd_int h m abm]
  obtain ⟨g, eg⟩ := rgain
  have mox : moxProcess (floats F)
      { setStates (floats F) R (some (m : ℝ)) (some d) with uptime := u } (some (m : ℝ)) =
      some 0 := by
    unfold moxProcess
    dsimp only at esd eg ⊢
    rw [mean, sub_eq, sub_self, rnd_zero h, esd, eg]
    split
    · rw [ofInt_eq F h 2000 (by decide), div_eq F _ _ (by norm_num), zero_div, rnd_zero h, mul_eq,
        zero_mul, rnd_zero h]
    · rw [ofInt_eq F h (-1) (by decide), ofInt_eq F h 220 (by decide), add_eq, mul_eq]
      have p1 : 1 ≤ F.rnd (sd + ((220 : ℤ) : ℝ)) := one_le_rnd h (by push_cast; linarith)
      have p2 := rnd_le_int h (x := ((-1 : ℤ) : ℝ) * F.rnd (sd + ((220 : ℤ) : ℝ))) (-1)
        (by decide) (by push_cast at p1 ⊢; linarith)
      rw [div_eq F _ _ (by push_cast at p2 ⊢; linarith), zero_div, rnd_zero h, mul_eq,
        zero_mul, rnd_zero h]
  obtain ⟨y, ey, hy⟩ := scaled_zero h
    { setStates (floats F) R (some (m : ℝ)) (some d) with uptime := u } rsc o ro o1 o2
  refine first_near h _ n _ i2 (by exact_mod_cast hb1) rlp _ y o o1 o2 ?_ hy
  rw [take]
  unfold rawIndex
  rw [if_pos (by simp [setStates, estSetStates, moxSet])]
  show scaledProcess (floats F) _ (moxProcess (floats F) _ (some (m : ℝ))) = _
  rw [mox, ey]

/-- With the default interval the blackout takes 46 measurements; the index is then 100. -/
example (P : Par (Option ℝ)) :
    (process (floats binary32) (after binary32 P ([.init false 1, .process 27000] ++
      ([.reset, .setStates (7000 : ℤ) 60] ++ (List.replicate 46 27000).map .process))) 27000).2 =
      100 := by
  have := C96_typical binary32_ieee P false 1 (by decide) (by decide) [.process 27000]
    (by intro c hc; simp at hc; subst hc; trivial) 7000 (by decide) (by decide) 60 (by norm_num)
    (List.replicate 46 27000) (by decide) (by decide)
  rw [C95_defaults binary32_ieee P false 1 [.process 27000]
    (by intro c hc; simp at hc; subst hc; rfl)] at this
  exact this

end Verif.Gas
