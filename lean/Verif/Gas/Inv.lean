import Verif.Gas.Parts

/-!
# The invariant of the gas index algorithm
-/

namespace Verif.Gas

variable {F : Flt}

/-- The deviation is a number and not negative. -/
def NonNeg (a : Option ℝ) : Prop := ∃ x, a = some x ∧ 0 ≤ x

/-- The time of the last blackout is counted. -/
def UpOk (P : Par (Option ℝ)) (n : ℤ) (k : ℕ) : Prop :=
  ∃ j : ℤ, P.uptime = some ((j * n : ℤ) : ℝ) ∧ (k * n ≤ 45 → j = k) ∧ (45 < k * n → 45 < j * n) ∧
    0 ≤ j * n ∧ j * n ≤ 55

/-- The factors of the variance. -/
def VarOk (P : Par (Option ℝ)) : Prop :=
  ∃ b i : ℝ, P.bVar = some b ∧ P.iVar = some i ∧ 1 / 100 ≤ i ∧ i ≤ 1 / 2 ∧ b ≤ i ∧ i ≤ 2 ^ 11 * b

/-- The two initial durations. -/
def DurOk (P : Par (Option ℝ)) : Prop :=
  ∃ m v : ℝ, P.initMean = some m ∧ P.initVar = some v ∧ m ≤ v

/-- An integral parameter. -/
def IntIn (a : Option ℝ) (lo hi : ℤ) : Prop := ∃ z : ℤ, a = some (z : ℝ) ∧ lo ≤ z ∧ z ≤ hi

/-- What `init_with_sampling_interval` and `set_tuning_parameters` set. -/
structure Cfg (P : Par (Option ℝ)) (n : ℤ) : Prop where
  dt : P.dt = some (n : ℝ)
  n1 : 1 ≤ n
  n10 : n ≤ 10
  off : OffOk P
  gateMax : Num P.gateMax
  gain : Num P.gain
  dur : DurOk P
  gateThr : Num P.gateThr
  tauMean : IntIn P.tauMean 1 1000
  tauVar : IntIn P.tauVar 1 1000
  stdInit : NonNeg P.stdInit

/-- What `init_instances` sets up and `process` keeps. -/
structure Inst (F : Flt) (P : Par (Option ℝ)) : Prop where
  eMean : Num P.eMean
  eOff : Num P.eOff
  eStd : NonNeg P.eStd
  bMean : Num P.bMean
  iMean : Num P.iMean
  var : VarOk P
  upGamma : Num P.upGamma
  upGating : Num P.upGating
  gateDur : Num P.gateDur
  moxStd : NonNeg P.moxStd
  moxMean : Num P.moxMean
  scale : ScaleOk F P
  a1 : Num P.a1
  a2 : Num P.a2
  lp : P.lpInit = true → Num P.x1 ∧ Num P.x2 ∧ ∃ x, P.x3 = some x ∧ x ≤ 500 + 1 / 4

/-- The invariant: `n` is the sampling interval, `k` the number of measurements. -/
structure Inv (F : Flt) (P : Par (Option ℝ)) (n : ℤ) (k : ℕ) : Prop where
  cfg : Cfg P n
  inst : Inst F P
  up : UpOk P n k
  sraw : Num P.sraw
  idx : ∃ y, P.idx = some y ∧ (k * n ≤ 45 → y = 0)

/-! ## Setting up -/

theorem gamma_var (h : Ieee F) (n : ℤ) (n1 : 1 ≤ n) (n10 : n ≤ 10) (t : ℤ) (t1 : 1 ≤ t)
    (t2 : t ≤ 1000) :
    ∃ b i : ℝ,
      gammaOf (floats F) ((floats F).ofInt 64) (some (t : ℝ))
        ((floats F).div (some (n : ℝ)) ((floats F).ofInt 3600)) = some b ∧
      gammaOf (floats F) ((floats F).ofInt 64) ((floats F).ofInt 2500) (some (n : ℝ)) = some i ∧
      1 / 100 ≤ i ∧ i ≤ 1 / 2 ∧ b ≤ i ∧ i ≤ 2 ^ 11 * b := by
  have n1' : (1 : ℝ) ≤ n := by exact_mod_cast n1
  have n10' : (n : ℝ) ≤ 10 := by exact_mod_cast n10
  have t1' : (1 : ℝ) ≤ t := by exact_mod_cast t1
  have t2' : (t : ℝ) ≤ 1000 := by exact_mod_cast t2
  have ab64 : |64 * n| ≤ 2 ^ 24 := abs_le.2 ⟨by omega, by omega⟩
  have ab25 : |2500 + n| ≤ 2 ^ 24 := abs_le.2 ⟨by omega, by omega⟩
  have abt : |t| ≤ 2 ^ 24 := abs_le.2 ⟨by omega, by omega⟩
  unfold gammaOf
  rw [ofInt_eq F h 64 (by decide), ofInt_eq F h 2500 (by decide), ofInt_eq F h 3600 (by decide),
    div_eq F _ _ (by norm_num), mul_eq, mul_eq, add_eq, add_eq]
  have e64 : F.rnd (((64 : ℤ) : ℝ) * (n : ℝ)) = ((64 * n : ℤ) : ℝ) := by
    rw [← Int.cast_mul]; exact rnd_int h _ ab64
  have e25 : F.rnd (((2500 : ℤ) : ℝ) + (n : ℝ)) = ((2500 + n : ℤ) : ℝ) := by
    rw [← Int.cast_add]; exact rnd_int h _ ab25
  rw [e64, e25]
  -- the time in hours
  have hp : (0 : ℝ) ≤ (n : ℝ) / ((3600 : ℤ) : ℝ) := by push_cast; positivity
  have h1 := rnd_le h hp
  have h2 := le_rnd h hp
  revert h1 h2
  generalize F.rnd ((n : ℝ) / ((3600 : ℤ) : ℝ)) = hh
  intro h1 h2
  have h1' : hh ≤ (n : ℝ) / 3600 * (1 + 1 / 2 ^ 20) := by
    push_cast at h1
    nlinarith
  have h2' : (n : ℝ) / 3600 * (1 - 1 / 2 ^ 20) ≤ hh := by
    push_cast at h2
    nlinarith
  have hh0 : 0 ≤ hh := le_trans (by nlinarith) h2'
  have hh1 : hh ≤ 1 := le_trans h1' (by nlinarith)
  have s0 : (0 : ℝ) ≤ ((64 : ℤ) : ℝ) * hh := by push_cast; positivity
  have u1 := rnd_le h s0
  have u2 := le_rnd h s0
  revert u1 u2
  generalize F.rnd (((64 : ℤ) : ℝ) * hh) = w
  intro u1 u2
  push_cast at u1 u2
  have w1 : w ≤ 64 * (n : ℝ) / 3600 * (1 + 1 / 2 ^ 18) := by nlinarith
  have w2 : 64 * (n : ℝ) / 3600 * (1 - 1 / 2 ^ 18) ≤ w := by nlinarith
  have w0 : 0 ≤ w := le_trans (by nlinarith) w2
  have d1 : 1 ≤ F.rnd ((t : ℝ) + hh) := le_trans t1' (int_le_rnd h t abt (by linarith))
  have d2 : F.rnd ((t : ℝ) + hh) ≤ 1001 := by
    have := rnd_le_int h (x := (t : ℝ) + hh) 1001 (by decide) (by push_cast; linarith)
    simpa using this
  revert d1 d2
  generalize F.rnd ((t : ℝ) + hh) = d
  intro d1 d2
  rw [div_eq F _ _ (by linarith), div_eq F _ _ (by push_cast; linarith)]
  have b1 : F.rnd (w / d) ≤ 64 * (n : ℝ) / 3600 * (1 + 1 / 2 ^ 16) := by
    have : w / d ≤ w := div_le_self w0 d1
    have := rnd_le_of h w0 this
    nlinarith
  have b2 : 64 * (n : ℝ) / 3600 / 1001 * (1 - 1 / 2 ^ 16) ≤ F.rnd (w / d) := by
    have q : w / 1001 ≤ w / d := div_le_div_of_nonneg_left w0 (by linarith) d2
    have := le_rnd_of h (by positivity) q
    nlinarith
  have i0 : ((64 * n : ℤ) : ℝ) / ((2500 + n : ℤ) : ℝ) ≤ 64 * (n : ℝ) / 2500 := by
    push_cast
    exact div_le_div_of_nonneg_left (by linarith) (by norm_num) (by linarith)
  have i1 : 64 * (n : ℝ) / 2510 ≤ ((64 * n : ℤ) : ℝ) / ((2500 + n : ℤ) : ℝ) := by
    push_cast
    exact div_le_div_of_nonneg_left (by linarith) (by linarith) (by linarith)
  have j0 := rnd_le_of h (by positivity) i0
  have j1 := le_rnd_of h (by positivity) i1
  refine ⟨_, _, rfl, rfl, ?_, ?_, ?_, ?_⟩
  · nlinarith
  · nlinarith
  · nlinarith
  · nlinarith

/-- `init_instances` sets up the estimator, the sensor model and the filters. -/
theorem initInstances_inst (h : Ieee F) (P : Par (Option ℝ)) (n : ℤ) (c : Cfg P n) :
    Inst F (initInstances (floats F) P) ∧ Cfg (initInstances (floats F) P) n ∧
      (initInstances (floats F) P).uptime = P.uptime ∧
      (initInstances (floats F) P).sraw = P.sraw ∧
      (initInstances (floats F) P).idx = P.idx := by
  obtain ⟨edt, n1, n10, off, gateMax, gain, dur, gateThr, ⟨tm, etm, tm1, tm2⟩,
    ⟨tv, etv, tv1, tv2⟩, stdInit⟩ := c
  have n1' : (1 : ℝ) ≤ n := by exact_mod_cast n1
  have tm1' : (1 : ℝ) ≤ tm := by exact_mod_cast tm1
  have ndt : Num P.dt := ⟨_, edt⟩
  obtain ⟨b, i, eb, ei, r⟩ := gamma_var h n n1 n10 tv tv1 tv2
  have pos : ∀ (m : ℤ), |m| ≤ 2 ^ 24 → 1 ≤ m →
      ∃ y, (floats F).add ((floats F).ofInt m) P.dt = some y ∧ y ≠ 0 := by
    intro m hm m1
    have m1' : (1 : ℝ) ≤ m := by exact_mod_cast m1
    rw [ofInt_eq F h m hm, edt, add_eq]
    refine ⟨_, rfl, ?_⟩
    have := one_le_rnd h (x := (m : ℝ) + n) (by linarith)
    linarith
  have nh : Num ((floats F).div P.dt ((floats F).ofInt 3600)) :=
    num_divInt h ndt 3600 (by decide) (by decide)
  have posM : ∃ y, (floats F).add P.tauMean ((floats F).div P.dt ((floats F).ofInt 3600)) =
      some y ∧ y ≠ 0 := by
    rw [ofInt_eq F h 3600 (by decide), edt, div_eq F _ _ (by norm_num), etm, add_eq]
    refine ⟨_, rfl, ?_⟩
    have p : 0 ≤ F.rnd ((n : ℝ) / ((3600 : ℤ) : ℝ)) :=
      rnd_nonneg h (by push_cast; positivity)
    have := one_le_rnd h (x := (tm : ℝ) + F.rnd ((n : ℝ) / ((3600 : ℤ) : ℝ))) (by linarith)
    linarith
  have s512 : Num ((floats F).mul ((floats F).ofInt 8) ((floats F).ofInt 64)) :=
    num_mul (num_int 8) (num_int 64)
  cases hn : P.nox
  · simp only [initInstances, estSet, moxSet, getStd, getMean, scaledSet, lowpassSet, hn,
      Bool.false_eq_true, if_false]
    refine ⟨⟨num_int 0, num_int 0, stdInit, num_div (num_mul s512 nh) posM,
      num_div (num_mul s512 ndt) (pos 20 (by decide) (by decide)), ⟨b, i, ?_, ?_, r⟩,
      num_int 0, num_int 0, num_int 0, stdInit, num_add (num_int 0) (num_int 0), ?_,
      num_div ndt (pos 20 (by decide) (by decide)), num_div ndt (pos 500 (by decide) (by decide)),
      fun hf => by cases hf⟩,
      ⟨edt, n1, n10, off, gateMax, gain, dur, gateThr, ⟨tm, etm, tm1, tm2⟩,
        ⟨tv, etv, tv1, tv2⟩, stdInit⟩, by trivial, by trivial, by trivial⟩
    · simp only [etv, edt]; exact eb
    · simp only [edt]; exact ei
    · unfold ScaleOk
      simp only [Bool.false_eq_true, if_false]
      refine ⟨?_, ?_, ?_⟩
      · rw [lit_eq, neg_eq]; norm_num
      · rw [ofInt_eq F h 213 (by decide)]; norm_num
      · rw [ofInt_eq F h 100 (by decide)]; norm_num
  · simp only [initInstances, estSet, moxSet, getStd, getMean, scaledSet, lowpassSet, hn,
      if_true]
    refine ⟨⟨num_int 0, num_int 0, stdInit, num_div (num_mul s512 nh) posM,
      num_div (num_mul s512 ndt) (pos 1200 (by decide) (by decide)), ⟨b, i, ?_, ?_, r⟩,
      num_int 0, num_int 0, num_int 0, stdInit, num_add (num_int 0) (num_int 0), ?_,
      num_div ndt (pos 20 (by decide) (by decide)), num_div ndt (pos 500 (by decide) (by decide)),
      fun hf => by cases hf⟩,
      ⟨edt, n1, n10, off, gateMax, gain, dur, gateThr, ⟨tm, etm, tm1, tm2⟩,
        ⟨tv, etv, tv1, tv2⟩, stdInit⟩, by trivial, by trivial, by trivial⟩
    · simp only [etv, edt]; exact eb
    · simp only [edt]; exact ei
    · unfold ScaleOk
      simp only [if_true]
      refine ⟨?_, ?_, ?_⟩
      · rw [lit_eq, neg_eq]; norm_num
      · rw [ofInt_eq F h 614 (by decide)]; norm_num
      · rw [ofInt_eq F h 1 (by decide)]; norm_num

/-- `reset` starts the blackout again. -/
theorem reset_inv (h : Ieee F) (P : Par (Option ℝ)) (n : ℤ) (c : Cfg P n) :
    Inv F (reset (floats F) P) n 0 := by
  have c' : Cfg { P with
      uptime := (floats F).ofInt 0, sraw := (floats F).ofInt 0, idx := (floats F).ofInt 0 } n :=
    ⟨c.dt, c.n1, c.n10, c.off, c.gateMax, c.gain, c.dur, c.gateThr, c.tauMean, c.tauVar, c.stdInit⟩
  obtain ⟨i, cf, e1, e2, e3⟩ := initInstances_inst h _ n c'
  refine ⟨cf, i, ⟨0, ?_, ?_, ?_, ?_, ?_⟩, ?_, ⟨0, ?_, fun _ => rfl⟩⟩
  · unfold reset
    rw [e1]
    simp only [ofInt_eq F h 0 (by decide), zero_mul]
  · simp
  · intro hh; simp at hh
  · simp
  · simp
  · unfold reset; rw [e2]; exact num_int 0
  · unfold reset
    rw [e3]
    simp only [ofInt_eq F h 0 (by decide), Int.cast_zero]

theorem initWith_inv (h : Ieee F) (P : Par (Option ℝ)) (nox : Bool) (n : ℤ) (n1 : 1 ≤ n)
    (n10 : n ≤ 10) : Inv F (initWith (floats F) P nox (some (n : ℝ))) n 0 := by
  unfold initWith
  have hd : ∀ a b : ℚ, a ≤ b → ∃ m v : ℝ,
      (floats F).mul ((floats F).ofInt 3600) ((floats F).lit a) = some m ∧
      (floats F).mul ((floats F).ofInt 3600) ((floats F).lit b) = some v ∧ m ≤ v := by
    intro a b hab
    rw [ofInt_eq F h 3600 (by decide), lit_eq, lit_eq, mul_eq, mul_eq]
    refine ⟨_, _, rfl, rfl, h.mono _ _ (mul_le_mul_of_nonneg_left (h.mono _ _ ?_) (by norm_num))⟩
    exact_mod_cast hab
  cases nox
  · refine reset_inv h _ n ⟨rfl, n1, n10, ⟨100, ?_, by decide, by decide⟩,
      num_mul (num_int _) (num_int _), num_int _, hd _ _ (by norm_num), num_int _,
      ⟨12, ?_, by decide, by decide⟩, ⟨12, ?_, by decide, by decide⟩, ⟨50, ?_, by norm_num⟩⟩
    · exact ofInt_eq F h 100 (by decide)
    · exact ofInt_eq F h 12 (by decide)
    · exact ofInt_eq F h 12 (by decide)
    · have := ofInt_eq F h 50 (by decide)
      simpa using this
  · refine reset_inv h _ n ⟨rfl, n1, n10, ⟨1, ?_, by decide, by decide⟩,
      num_mul (num_int _) (num_int _), num_int _, hd _ _ (by norm_num), num_int _,
      ⟨12, ?_, by decide, by decide⟩, ⟨12, ?_, by decide, by decide⟩, ⟨50, ?_, by norm_num⟩⟩
    · exact ofInt_eq F h 1 (by decide)
    · exact ofInt_eq F h 12 (by decide)
    · exact ofInt_eq F h 12 (by decide)
    · have := ofInt_eq F h 50 (by decide)
      simpa using this

theorem setTuning_inv (h : Ieee F) (P : Par (Option ℝ)) (n : ℤ) (k : ℕ) (i : Inv F P n k)
    (t : Tuning) (ha : (Call.setTuning t).Allowed) :
    Inv F (setTuning (floats F) P t) n k := by
  obtain ⟨⟨o1, o2⟩, ⟨l1, l2⟩, ⟨g1, g2⟩, ⟨m1, m2⟩, ⟨s1, s2⟩, f1, f2⟩ := ha
  have ab : ∀ z : ℤ, 0 ≤ z → z ≤ 5000 → |z| ≤ 2 ^ 24 := fun z a b => abs_le.2 ⟨by omega, by omega⟩
  have c : Cfg { P with
      off := (floats F).ofInt t.offset, tauMean := (floats F).ofInt t.learnOffset,
      tauVar := (floats F).ofInt t.learnGain, gateMax := (floats F).ofInt t.gating,
      stdInit := (floats F).ofInt t.std, gain := (floats F).ofInt t.gain } n :=
    ⟨i.cfg.dt, i.cfg.n1, i.cfg.n10,
      ⟨t.offset, ofInt_eq F h _ (ab _ (by omega) (by omega)), o1, o2⟩, num_int _, num_int _,
      i.cfg.dur, i.cfg.gateThr,
      ⟨t.learnOffset, ofInt_eq F h _ (ab _ (by omega) (by omega)), l1, l2⟩,
      ⟨t.learnGain, ofInt_eq F h _ (ab _ (by omega) (by omega)), g1, g2⟩,
      ⟨t.std, ofInt_eq F h _ (ab _ (by omega) (by omega)), by
        have : 0 ≤ t.std := by omega
        exact_mod_cast this⟩⟩
  obtain ⟨ins, cf, e1, e2, e3⟩ := initInstances_inst h _ n c
  refine ⟨cf, ins, ?_, ?_, ?_⟩
  · obtain ⟨j, ej, r⟩ := i.up
    exact ⟨j, by unfold setTuning; rw [e1]; exact ej, r⟩
  · unfold setTuning; rw [e2]; exact i.sraw
  · obtain ⟨y, ey, r⟩ := i.idx
    exact ⟨y, by unfold setTuning; rw [e3]; exact ey, r⟩

theorem setStates_inv (P : Par (Option ℝ)) (n : ℤ) (k : ℕ) (i : Inv F P n k)
    (m d : ℝ) (hd : 0 ≤ d) :
    Inv F (setStates (floats F) P (some m) (some d)) n k := by
  obtain ⟨c, ins, up, s, idx⟩ := i
  exact ⟨⟨c.dt, c.n1, c.n10, c.off, c.gateMax, c.gain, c.dur, c.gateThr, c.tauMean, c.tauVar,
      c.stdInit⟩,
    ⟨⟨_, rfl⟩, ins.eOff, ⟨_, rfl, hd⟩, ins.bMean, ins.iMean, ins.var,
      num_mul (num_int _) (num_int _), ins.upGating, ins.gateDur, ⟨_, rfl, hd⟩,
      num_add ⟨_, rfl⟩ ins.eOff, ins.scale, ins.a1, ins.a2, ins.lp⟩, up, ⟨_, rfl⟩, idx⟩

/-! ## Processing a measurement -/

theorem num_advance {d t : Option ℝ} (hd : Num d) (ht : Num t) :
    Num (advance (floats F) d t) := num_ite (num_add ht hd) ht

/-- The estimator's factors: the mean factor is a number, the variance factor lies between
0 and 2. -/
theorem calculateGamma_eq (h : Ieee F) (P : Par (Option ℝ)) (n : ℤ) (c : Cfg P n)
    (ins : Inst F P) (hidx : Num P.idx) :
    ∃ u1 u2 g d k x : Option ℝ, ∃ v : ℝ,
      calculateGamma (floats F) P = { P with
        upGamma := u1, upGating := u2, gMean := g, gVar := some v, gateDur := d,
        sK := k, sX0 := x } ∧
      Num u1 ∧ Num u2 ∧ Num g ∧ Num d ∧ 0 ≤ v ∧ v ≤ 2 := by
  obtain ⟨b, i, eb, ei, i1, i2, bi, ib⟩ := ins.var
  obtain ⟨m, v, em, ev, mv⟩ := c.dur
  obtain ⟨idx, eidx⟩ := hidx
  have nu1 : Num (advance (floats F) P.dt P.upGamma) := num_advance ⟨_, c.dt⟩ ins.upGamma
  have nu2 : Num (advance (floats F) P.dt P.upGating) := num_advance ⟨_, c.dt⟩ ins.upGating
  obtain ⟨u1, eu1⟩ := nu1
  obtain ⟨u2, eu2⟩ := nu2
  unfold calculateGamma
  simp only [sigmoidSet, sigmoidProcess, eu1, eu2, em, ev, eidx, lit_eq]
  have K0 : 0 ≤ F.rnd (((1 / 100 : ℚ) : ℝ)) := rnd_nonneg h (by norm_num)
  obtain ⟨sm, esm, sm0, sm1⟩ := sigmoid_range h (F.rnd (((1 / 100 : ℚ) : ℝ))) m u1
  obtain ⟨tm, etm, _⟩ := sigmoid_range h (F.rnd (((1 / 100 : ℚ) : ℝ))) m u2
  obtain ⟨sv, esv, sv0, sv1⟩ := sigmoid_range h (F.rnd (((1 / 100 : ℚ) : ℝ))) v u1
  obtain ⟨tv, etv, _⟩ := sigmoid_range h (F.rnd (((1 / 100 : ℚ) : ℝ))) v u2
  have hmono := sigmoid_mono h _ m v u1 sm sv K0 mv esm esv
  simp only [esm, etm, esv, etv]
  have nthr : ∀ (Q : Par (Option ℝ)) (s : ℝ), Q.gateThr = P.gateThr →
      Num (threshold (floats F) Q (some s)) := by
    intro Q s e
    unfold threshold
    rw [e]
    exact num_add c.gateThr (num_mul (num_sub (num_int _) c.gateThr) (num_some s))
  obtain ⟨th1, eth1⟩ := nthr { P with
    upGamma := some u1, upGating := some u2, sK := some (F.rnd (((1 / 100 : ℚ) : ℝ))),
    sX0 := some m } tm rfl
  simp only [em, ev, eidx] at eth1
  simp only [eth1]
  obtain ⟨gm, egm, gm0, gm1⟩ := sigmoid_range h (F.rnd (((9 / 100 : ℚ) : ℝ))) th1 idx
  simp only [egm]
  obtain ⟨th2, eth2⟩ := nthr { P with
    upGamma := some u1, upGating := some u2, sK := some (F.rnd (((1 / 100 : ℚ) : ℝ))),
    sX0 := some v,
    gMean := (floats F).mul (some gm) ((floats F).add P.bMean
      ((floats F).mul ((floats F).sub P.iMean P.bMean) (some sm))) } tv rfl
  simp only [em, ev, eidx] at eth2
  simp only [eth2]
  obtain ⟨gv, egv, gv0, gv1⟩ := sigmoid_range h (F.rnd (((9 / 100 : ℚ) : ℝ))) th2 idx
  simp only [egv, eb, ei, sub_eq, mul_eq, add_eq]
  -- the variance factor
  have ib0 : 0 ≤ F.rnd (i - b) := rnd_nonneg h (by linarith)
  have ib1 : F.rnd (i - b) ≤ 2 * i := by
    have hb : 0 ≤ b := by nlinarith
    have := rnd_le_of h (x := i - b) (b := i) (by linarith) (by linarith)
    nlinarith
  have ss1 : F.rnd (sv - sm) ≤ 1 := rnd_le_one h (by linarith)
  have ss0 : -(1 / 2 ^ 16) ≤ F.rnd (sv - sm) := by
    have lo : -(1 / 2 ^ 17 : ℝ) ≤ sv - sm := by linarith
    have e := (abs_le.1 (h.err (-(1 / 2 ^ 17)))).1
    have := h.mono _ _ lo
    refine le_trans ?_ this
    rw [abs_neg, abs_of_nonneg (by positivity)] at e
    refine le_trans ?_ (by linarith : -(1 / 2 ^ 17 : ℝ) - (1 / 2 ^ 17 / 2 ^ 23 + 1 / 2 ^ 100) ≤ _)
    norm_num
  have pl : -(i / 2 ^ 15) ≤ F.rnd (i - b) * F.rnd (sv - sm) := by
    nlinarith
  have pu : F.rnd (i - b) * F.rnd (sv - sm) ≤ 1 := by nlinarith
  have rl : -(i / 2 ^ 14) ≤ F.rnd (F.rnd (i - b) * F.rnd (sv - sm)) := by
    have e := (abs_le.1 (h.err (-(i / 2 ^ 15)))).1
    have := h.mono _ _ pl
    refine le_trans ?_ this
    rw [abs_neg, abs_of_nonneg (by positivity)] at e
    refine le_trans ?_ (by linarith : -(i / 2 ^ 15 : ℝ) - (i / 2 ^ 15 / 2 ^ 23 + 1 / 2 ^ 100) ≤ _)
    nlinarith
  have ru : F.rnd (F.rnd (i - b) * F.rnd (sv - sm)) ≤ 1 := rnd_le_one h pu
  have G0 : 0 ≤ F.rnd (b + F.rnd (F.rnd (i - b) * F.rnd (sv - sm))) := by
    refine rnd_nonneg h ?_
    nlinarith
  have G1 : F.rnd (b + F.rnd (F.rnd (i - b) * F.rnd (sv - sm))) ≤ 2 := by
    have := rnd_le_int h (x := b + F.rnd (F.rnd (i - b) * F.rnd (sv - sm))) 2 (by decide)
      (by push_cast; linarith)
    simpa using this
  have V0 : 0 ≤ F.rnd (gv * F.rnd (b + F.rnd (F.rnd (i - b) * F.rnd (sv - sm)))) :=
    rnd_nonneg h (mul_nonneg gv0 G0)
  have V1 : F.rnd (gv * F.rnd (b + F.rnd (F.rnd (i - b) * F.rnd (sv - sm)))) ≤ 2 := by
    have := rnd_le_int h
      (x := gv * F.rnd (b + F.rnd (F.rnd (i - b) * F.rnd (sv - sm)))) 2 (by decide)
      (by push_cast; nlinarith)
    simpa using this
  have nmean : Num ((floats F).mul (some gm) ((floats F).add P.bMean
      ((floats F).mul ((floats F).sub P.iMean P.bMean) (some sm)))) :=
    num_mul (num_some _) (num_add ins.bMean (num_mul (num_sub ins.iMean ins.bMean) (num_some _)))
  have ngate : ∀ Q : Par (Option ℝ), Q.gateDur = P.gateDur → Q.dt = P.dt →
      Num (gateStep (floats F) Q (some gm)) := by
    intro Q e1 e2
    unfold gateStep
    rw [e1, e2]
    exact num_add ins.gateDur (num_mul (num_divInt h ⟨_, c.dt⟩ 60 (by decide) (by decide))
      (num_sub (num_mul (num_sub (num_int _) (num_some _)) (num_add (num_int _) (num_lit _)))
        (num_lit _)))
  split <;> split
  · exact ⟨_, _, _, _, _, _, _, rfl, num_some _, num_int _, nmean, num_int _, V0, V1⟩
  · exact ⟨_, _, _, _, _, _, _, rfl, num_some _, num_some _, nmean, num_int _, V0, V1⟩
  · exact ⟨_, _, _, _, _, _, _, rfl, num_some _, num_int _, nmean, ngate _ rfl rfl, V0, V1⟩
  · exact ⟨_, _, _, _, _, _, _, rfl, num_some _, num_some _, nmean, ngate _ rfl rfl, V0, V1⟩

/-- The estimator keeps the invariant. -/
theorem estProcess_ok (h : Ieee F) (P : Par (Option ℝ)) (n : ℤ) (c : Cfg P n)
    (ins : Inst F P) (hidx : Num P.idx) (s : ℝ) :
    Cfg (estProcess (floats F) P (some s)) n ∧ Inst F (estProcess (floats F) P (some s)) ∧
      (estProcess (floats F) P (some s)).uptime = P.uptime ∧
      (estProcess (floats F) P (some s)).sraw = P.sraw ∧
      (estProcess (floats F) P (some s)).idx = P.idx := by
  unfold estProcess
  by_cases hi : P.eInit = true
  · rw [if_pos hi]
    -- the offset
    obtain ⟨m, o, eQ, nm, no⟩ : ∃ m o : Option ℝ,
        (if (floats F).le ((floats F).ofInt 100) P.eMean ||
            (floats F).le P.eMean ((floats F).ofInt (-100)) then
          { P with eOff := (floats F).add P.eOff P.eMean, eMean := (floats F).ofInt 0 }
        else P) = { P with eMean := m, eOff := o } ∧ Num m ∧ Num o := by
      split
      · exact ⟨_, _, rfl, num_int _, num_add ins.eOff ins.eMean⟩
      · exact ⟨P.eMean, P.eOff, rfl, ins.eMean, ins.eOff⟩
    simp only [eQ]
    have c' : Cfg { P with eMean := m, eOff := o } n :=
      ⟨c.dt, c.n1, c.n10, c.off, c.gateMax, c.gain, c.dur, c.gateThr, c.tauMean, c.tauVar,
        c.stdInit⟩
    have i' : Inst F { P with eMean := m, eOff := o } :=
      ⟨nm, no, ins.eStd, ins.bMean, ins.iMean, ins.var, ins.upGamma, ins.upGating, ins.gateDur,
        ins.moxStd, ins.moxMean, ins.scale, ins.a1, ins.a2, ins.lp⟩
    obtain ⟨u1, u2, g, d, k, x, v, eG, nu1, nu2, ng, nd, v0, v2⟩ :=
      calculateGamma_eq h _ n c' i' hidx
    rw [eG]
    obtain ⟨std, estd, std0⟩ := ins.eStd
    obtain ⟨delta, edelta⟩ : Num ((floats F).div ((floats F).sub
        ((floats F).sub (some s) o) m) ((floats F).ofInt 64)) :=
      num_divInt h (num_sub (num_sub (num_some _) no) nm) 64 (by decide) (by decide)
    obtain ⟨sc, esc, sc1⟩ := scaling_ge h std delta
    obtain ⟨y, ey, y0⟩ := newStd_nonneg h std v delta sc std0 v0 (by linarith) sc1
    simp only [edelta, estd, esc, ey]
    exact ⟨⟨c.dt, c.n1, c.n10, c.off, c.gateMax, c.gain, c.dur, c.gateThr, c.tauMean, c.tauVar,
        c.stdInit⟩,
      ⟨num_add nm (num_divInt h (num_mul ng (num_some _)) 8 (by decide) (by decide)), no,
        ⟨_, rfl, y0⟩, ins.bMean, ins.iMean, ins.var, nu1, nu2, nd, ins.moxStd, ins.moxMean,
        ins.scale, ins.a1, ins.a2, ins.lp⟩, by trivial, by trivial, by trivial⟩
  · rw [if_neg hi]
    exact ⟨⟨c.dt, c.n1, c.n10, c.off, c.gateMax, c.gain, c.dur, c.gateThr, c.tauMean, c.tauVar,
        c.stdInit⟩,
      ⟨num_int _, num_some _, ins.eStd, ins.bMean, ins.iMean, ins.var, ins.upGamma, ins.upGating,
        ins.gateDur, ins.moxStd, ins.moxMean, ins.scale, ins.a1, ins.a2, ins.lp⟩, rfl, rfl, rfl⟩

theorem truncate_range {x : ℝ} (lo hi : ℤ) (h0 : 0 ≤ x) (h1 : (lo : ℝ) ≤ x)
    (h2 : x < (hi : ℝ) + 1) : lo ≤ truncate x ∧ truncate x ≤ hi := by
  unfold truncate
  rw [if_neg (not_lt.2 h0)]
  refine ⟨Int.le_floor.2 h1, ?_⟩
  have : ⌊x⌋ < hi + 1 := Int.floor_lt.2 (by push_cast; exact h2)
  omega

/-- One measurement. -/
theorem process_inv (h : Ieee F) (P : Par (Option ℝ)) (n : ℤ) (k : ℕ) (i : Inv F P n k)
    (s : ℤ) :
    Inv F (process (floats F) P s).1 n (k + 1) ∧
      ((k * n ≤ 45 → (process (floats F) P s).2 = 0) ∧
        (45 < k * n → 1 ≤ (process (floats F) P s).2 ∧ (process (floats F) P s).2 ≤ 500)) := by
  obtain ⟨c, ins, ⟨j, ej, j1, j2, j3, j4⟩, ⟨sr, esr⟩, ⟨y, ey, y0⟩⟩ := i
  have n1 := c.n1
  have n10 := c.n10
  have half : (floats F).lit (1 / 2) = some (1 / 2 : ℝ) := by
    rw [lit_eq]; push_cast; rw [rnd_half h]
  unfold process
  by_cases hb : (j * n : ℤ) ≤ 45
  · -- the blackout
    have hk : (k : ℤ) * n ≤ 45 := by
      by_contra hc
      have := j2 (by omega)
      omega
    have ejk := j1 hk
    have ey0 := y0 hk
    subst ejk ey0
    have cond : (floats F).le P.uptime ((floats F).ofInt 45) = true := by
      rw [ej, ofInt_eq F h 45 (by decide), le_eq]
      exact_mod_cast hb
    rw [if_pos cond]
    refine ⟨⟨⟨c.dt, c.n1, c.n10, c.off, c.gateMax, c.gain, c.dur, c.gateThr, c.tauMean, c.tauVar,
        c.stdInit⟩,
      ⟨ins.eMean, ins.eOff, ins.eStd, ins.bMean, ins.iMean, ins.var, ins.upGamma, ins.upGating,
        ins.gateDur, ins.moxStd, ins.moxMean, ins.scale, ins.a1, ins.a2, ins.lp⟩,
      ⟨k + 1, ?_, ?_, ?_, ?_, ?_⟩, ⟨_, esr⟩, ⟨0, ey, fun _ => rfl⟩⟩, ?_, ?_⟩
    · show (floats F).add P.uptime P.dt = _
      rw [ej, c.dt, add_eq]
      have e : ((k : ℤ) * n : ℤ) + n = ((k : ℤ) + 1) * n := by rw [add_mul, one_mul]
      have := rnd_int h (((k : ℤ) + 1) * n) (by rw [← e]; exact abs_le.2 ⟨by omega, by omega⟩)
      rw [← Int.cast_add, e, this]
    · intro _; push_cast; ring
    · intro hh; push_cast at hh; exact hh
    · have : 0 ≤ ((k : ℤ) + 1) := by omega
      positivity
    · rw [add_mul, one_mul]; omega
    · intro _
      show (floats F).toInt ((floats F).add P.idx ((floats F).lit (1 / 2))) = 0
      rw [ey, half, add_eq, toInt_eq, zero_add, rnd_half h]
      have := truncate_range (x := 1 / 2) 0 0 (by norm_num) (by norm_num) (by norm_num)
      omega
    · intro hh; omega
  · -- after it
    have hk : (45 : ℤ) < k * n := by
      by_contra hc
      have := j1 (by omega)
      subst this
      exact hb (by omega)
    have cond : ¬ (floats F).le P.uptime ((floats F).ofInt 45) = true := by
      rw [ej, ofInt_eq F h 45 (by decide), le_eq]
      intro hh
      exact hb (by exact_mod_cast hh)
    rw [if_neg cond]
    -- the measured value
    obtain ⟨t, et⟩ : ∃ t : ℝ, takeSraw (floats F) P s = { P with sraw := some t } := by
      unfold takeSraw
      split
      · exact ⟨_, rfl⟩
      · exact ⟨sr, by rw [← esr]⟩
    simp only [et]
    have c1 : Cfg { P with sraw := some t } n :=
      ⟨c.dt, c.n1, c.n10, c.off, c.gateMax, c.gain, c.dur, c.gateThr, c.tauMean, c.tauVar,
        c.stdInit⟩
    -- the raw index
    obtain ⟨raw, eraw, raw1⟩ : ∃ r, rawIndex (floats F) { P with sraw := some t } = some r ∧
        r ≤ 500 + 1 / 1000 := by
      unfold rawIndex
      split
      · obtain ⟨sd, esd, sd0⟩ := ins.moxStd
        obtain ⟨q, eq⟩ : Num (moxProcess (floats F) { P with sraw := some t } (some t)) := by
          unfold moxProcess
          split
          · exact num_mul (num_divInt h (num_sub (num_some _) ins.moxMean) 2000 (by decide)
              (by decide)) c.gain
          · refine num_mul (num_div (num_sub (num_some _) ins.moxMean) ?_) c.gain
            simp only [esd]
            rw [ofInt_eq F h (-1) (by decide), ofInt_eq F h 220 (by decide), add_eq, mul_eq]
            refine ⟨_, rfl, ?_⟩
            have p1 : 1 ≤ F.rnd (sd + ((220 : ℤ) : ℝ)) := one_le_rnd h (by push_cast; linarith)
            have p2 := rnd_le_int h (x := ((-1 : ℤ) : ℝ) * F.rnd (sd + ((220 : ℤ) : ℝ))) (-1)
              (by decide) (by push_cast at p1 ⊢; linarith)
            push_cast at p2 ⊢
            linarith
        simp only [eq]
        exact scaled_le h _ ins.scale c.off q
      · obtain ⟨o, eo, o1, o2⟩ := c.off
        have : (o : ℝ) ≤ 250 := by exact_mod_cast o2
        exact ⟨o, eo, by linarith⟩
    simp only [eraw]
    -- the low pass
    obtain ⟨x1, x2, x3, elp, nx1, nx2, hx3⟩ : ∃ (x1 x2 : Option ℝ) (x3 : ℝ),
        lowpassProcess (floats F) { P with sraw := some t } (some raw) =
          { P with sraw := some t, x1 := x1, x2 := x2, x3 := some x3, lpInit := true } ∧
        Num x1 ∧ Num x2 ∧ x3 ≤ 500 + 1 / 4 := by
      unfold lowpassProcess
      by_cases hl : P.lpInit = true
      · rw [if_pos hl]
        obtain ⟨n1x, n2x, x, ex, hx⟩ := ins.lp hl
        have b1 : Num (blend (floats F) P.a1 P.x1 (some raw)) := num_blend ins.a1 n1x (num_some _)
        have b2 : Num (blend (floats F) P.a2 P.x2 (some raw)) := num_blend ins.a2 n2x (num_some _)
        obtain ⟨v1, ev1⟩ := b1
        obtain ⟨v2, ev2⟩ := b2
        obtain ⟨a, ea, a0, a1⟩ := adapt_range h n n1 n10 v1 v2
        obtain ⟨z, ez, hz⟩ := blend_le h a x raw a0 a1 hx raw1
        refine ⟨some v1, some v2, z, ?_, num_some _, num_some _, hz⟩
        simp only [ev1, ev2, c.dt, ea, ex, ez, hl]
      · rw [if_neg hl]
        have b1 : Num (blend (floats F) P.a1 (some raw) (some raw)) :=
          num_blend ins.a1 (num_some _) (num_some _)
        have b2 : Num (blend (floats F) P.a2 (some raw) (some raw)) :=
          num_blend ins.a2 (num_some _) (num_some _)
        obtain ⟨v1, ev1⟩ := b1
        obtain ⟨v2, ev2⟩ := b2
        obtain ⟨a, ea, a0, a1⟩ := adapt_range h n n1 n10 v1 v2
        obtain ⟨z, ez, hz⟩ := blend_le h a raw raw a0 a1 (by linarith) raw1
        refine ⟨some v1, some v2, z, ?_, num_some _, num_some _, hz⟩
        simp only [ev1, ev2, c.dt, ea, ez]
    simp only [elp]
    -- the index
    obtain ⟨w, ew, w0, w1⟩ : ∃ w : ℝ, (if (floats F).lt (some x3) ((floats F).lit (1 / 2)) then
        (floats F).lit (1 / 2) else some x3) = some w ∧ 1 / 2 ≤ w ∧ w ≤ 500 + 1 / 4 := by
      rw [half]
      split
      · exact ⟨_, rfl, le_refl _, by norm_num⟩
      · rename_i hh
        rw [lt_eq] at hh
        exact ⟨_, rfl, by linarith, hx3⟩
    simp only [ew]
    have out : 1 ≤ (floats F).toInt ((floats F).add (some w) ((floats F).lit (1 / 2))) ∧
        (floats F).toInt ((floats F).add (some w) ((floats F).lit (1 / 2))) ≤ 500 := by
      rw [half, add_eq, toInt_eq]
      have r1 : 1 ≤ F.rnd (w + 1 / 2) := one_le_rnd h (by linarith)
      refine truncate_range 1 500 (by linarith) (by simpa using r1) ?_
      have := rnd_le_of h (x := w + 1 / 2) (b := 500 + 3 / 4) (by norm_num) (by linarith)
      refine lt_of_le_of_lt this ?_
      norm_num
    have ins2 : Inst F { P with
        sraw := some t, x1 := x1, x2 := x2, x3 := some x3, lpInit := true, idx := some w } :=
      ⟨ins.eMean, ins.eOff, ins.eStd, ins.bMean, ins.iMean, ins.var, ins.upGamma, ins.upGating,
        ins.gateDur, ins.moxStd, ins.moxMean, ins.scale, ins.a1, ins.a2,
        fun _ => ⟨nx1, nx2, x3, rfl, hx3⟩⟩
    have c2 : Cfg { P with
        sraw := some t, x1 := x1, x2 := x2, x3 := some x3, lpInit := true, idx := some w } n :=
      ⟨c.dt, c.n1, c.n10, c.off, c.gateMax, c.gain, c.dur, c.gateThr, c.tauMean, c.tauVar,
        c.stdInit⟩
    have upk : UpOk P n (k + 1) := by
      refine ⟨j, ej, ?_, ?_, j3, j4⟩
      · intro hh; push_cast at hh; rw [add_mul, one_mul] at hh; omega
      · intro _; omega
    have notk : ¬ ((k + 1 : ℕ) : ℤ) * n ≤ 45 := by
      push_cast; rw [add_mul, one_mul]; omega
    split
    · obtain ⟨c3, i3, e1, e2, e3⟩ := estProcess_ok h _ n c2 ins2 (num_some _) t
      refine ⟨⟨⟨c3.dt, c3.n1, c3.n10, c3.off, c3.gateMax, c3.gain, c3.dur, c3.gateThr, c3.tauMean,
          c3.tauVar, c3.stdInit⟩,
        ⟨i3.eMean, i3.eOff, i3.eStd, i3.bMean, i3.iMean, i3.var, i3.upGamma, i3.upGating,
          i3.gateDur, i3.eStd, num_add i3.eMean i3.eOff, i3.scale, i3.a1, i3.a2, i3.lp⟩, ?_, ?_,
        ?_⟩, fun hh => by omega, fun _ => ?_⟩
      · obtain ⟨j, q1, q2⟩ := upk
        exact ⟨j, by simp only [moxSet]; rw [e1]; exact q1, q2⟩
      · simp only [moxSet]; rw [e2]; exact num_some _
      · exact ⟨w, by simp only [moxSet]; rw [e3], fun hh => absurd hh notk⟩
      · simp only [moxSet]; rw [e3]; exact out
    · exact ⟨⟨c2, ins2, upk, num_some _, ⟨w, rfl, fun hh => absurd hh notk⟩⟩,
        fun hh => by omega, fun _ => out⟩

end Verif.Gas
