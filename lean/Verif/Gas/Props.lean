import Verif.Gas.Inv
import Verif.Gas.Binary32

/-!
# C94, C95: the gas index and the states of the algorithm
-/

namespace Verif.Gas

variable {F : Flt}

/-- A call keeps the invariant and counts. -/
theorem call_inv (h : Ieee F) (P : Par (Option ℝ)) (n : ℤ) (k : ℕ) (i : Inv F P n k) (c : Call)
    (ha : c.Allowed) :
    Inv F (call F P c) (nextInterval n c) (nextMeasured k c) := by
  cases c with
  | init nox s => exact initWith_inv h P nox s ha.1 ha.2
  | reset => exact reset_inv h P n i.cfg
  | setStates m d => exact setStates_inv P n k i m d ha
  | setTuning t => exact setTuning_inv h P n k i t ha
  | process s => exact (process_inv h P n k i s).1

theorem after_inv (h : Ieee F) (cs : List Call) (hc : ∀ c ∈ cs, c.Allowed) :
    ∀ (P : Par (Option ℝ)) (n : ℤ) (k : ℕ), Inv F P n k →
      Inv F (after F P cs) (cs.foldl nextInterval n) (cs.foldl nextMeasured k) := by
  induction cs with
  | nil => intro P n k i; exact i
  | cons c cs ih =>
    intro P n k i
    have hi := call_inv h P n k i c (hc c (by simp))
    exact ih (fun c' hc' => hc c' (by simp [hc'])) _ _ _ hi

theorem history_inv (h : Ieee F) (P : Par (Option ℝ)) (nox : Bool) (s : ℤ) (s1 : 1 ≤ s)
    (s10 : s ≤ 10) (cs : List Call) (hc : ∀ c ∈ cs, c.Allowed) :
    Inv F (after F P (.init nox s :: cs)) (interval (.init nox s :: cs))
      (measured (.init nox s :: cs)) :=
  after_inv h cs hc _ _ _ (initWith_inv h P nox s s1 s10)

/-- **C94.** For every history of calls with arguments the header allows that begins with
`GasIndexAlgorithm_init_with_sampling_interval`, and every raw value, the gas index is zero as
long as the measurements since the last `init` or `reset` cover at most 45 seconds, and one of
1, …, 500 afterwards.  This holds in every float arithmetic that meets `Ieee`.  What is
missing: `Ieee` has no largest number, so it is not shown that no float overflows. -/
theorem C94_index_partial (h : Ieee F) (P : Par (Option ℝ)) (nox : Bool) (s : ℤ) (s1 : 1 ≤ s)
    (s10 : s ≤ 10) (cs : List Call) (hc : ∀ c ∈ cs, c.Allowed) (sraw : ℤ) :
    let H := Call.init nox s :: cs
    let gasIndex := (process (floats F) (after F P H) sraw).2
    (measured H * interval H ≤ 45 → gasIndex = 0) ∧
      (45 < measured H * interval H → 1 ≤ gasIndex ∧ gasIndex ≤ 500) :=
  (process_inv h _ _ _ (history_inv h P nox s s1 s10 cs hc) sraw).2

/-- **C94.** After such a history both states the algorithm hands out are numbers, and the
deviation is not negative: no division by zero and no root of a negative number was taken on
the way to them. -/
theorem C94_numbers_partial (h : Ieee F) (P : Par (Option ℝ)) (nox : Bool) (s : ℤ) (s1 : 1 ≤ s)
    (s10 : s ≤ 10) (cs : List Call) (hc : ∀ c ∈ cs, c.Allowed) :
    ∃ mean std : ℝ,
      getStates (floats F) (after F P (.init nox s :: cs)) = (some mean, some std) ∧ 0 ≤ std := by
  have i := history_inv h P nox s s1 s10 cs hc
  obtain ⟨d, ed, d0⟩ := i.inst.eStd
  obtain ⟨m, em⟩ : Num (getMean (floats F) (after F P (.init nox s :: cs))) :=
    num_add i.inst.eMean i.inst.eOff
  exact ⟨m, d, by unfold getStates; rw [em]; unfold getStd; rw [ed], d0⟩

/-! ## The tuning parameters and the states -/

theorem initInstances_tuning (A : Arith (Option ℝ)) (P : Par (Option ℝ)) :
    getTuning A (initInstances A P) = getTuning A P := by
  unfold getTuning initInstances estSet moxSet scaledSet lowpassSet
  dsimp only
  split <;> rfl

theorem calculateGamma_tuning (A : Arith (Option ℝ)) (P : Par (Option ℝ)) :
    getTuning A (calculateGamma A P) = getTuning A P := by
  unfold getTuning calculateGamma sigmoidSet
  dsimp only
  split <;> split <;> rfl

theorem estProcess_tuning (A : Arith (Option ℝ)) (P : Par (Option ℝ)) (s : Option ℝ) :
    getTuning A (estProcess A P s) = getTuning A P := by
  unfold estProcess
  split
  · have h1 : ∀ (Q : Par (Option ℝ)) (a b : Option ℝ),
        getTuning A { Q with eStd := a, eMean := b } = getTuning A Q := fun _ _ _ => rfl
    dsimp only
    rw [h1, calculateGamma_tuning]
    split <;> rfl
  · rfl

theorem process_tuning (A : Arith (Option ℝ)) (P : Par (Option ℝ)) (s : ℤ) :
    getTuning A (process A P s).1 = getTuning A P := by
  have h1 : ∀ Q : Par (Option ℝ), getTuning A (takeSraw A Q s) = getTuning A Q := by
    intro Q; unfold takeSraw; split <;> rfl
  have h2 : ∀ (Q : Par (Option ℝ)) (r : Option ℝ),
      getTuning A (lowpassProcess A Q r) = getTuning A Q := by
    intro Q r; unfold lowpassProcess; dsimp only; split <;> rfl
  have h3 : ∀ (Q : Par (Option ℝ)) (r : Option ℝ),
      getTuning A { Q with idx := r } = getTuning A Q := fun _ _ => rfl
  have h4 : ∀ (Q : Par (Option ℝ)) (a b : Option ℝ),
      getTuning A (moxSet Q a b) = getTuning A Q := fun _ _ _ => rfl
  unfold process
  dsimp only
  split
  · rfl
  · split
    · rw [h4, estProcess_tuning, h3, h2, h1]
    · rw [h3, h2, h1]

/-- The call is neither an `init` nor a `set_tuning_parameters`. -/
def Call.keepsTuning : Call → Bool
  | .init _ _ => false
  | .setTuning _ => false
  | _ => true

theorem after_tuning (cs : List Call) (hc : ∀ c ∈ cs, c.keepsTuning = true) :
    ∀ P : Par (Option ℝ), getTuning (floats F) (after F P cs) = getTuning (floats F) P := by
  induction cs with
  | nil => intro P; rfl
  | cons c cs ih =>
    intro P
    have e := ih (fun c' hc' => hc c' (by simp [hc'])) (call F P c)
    have hk := hc c (by simp)
    have e2 : getTuning (floats F) (call F P c) = getTuning (floats F) P := by
      cases c with
      | init _ _ => cases hk
      | reset => exact initInstances_tuning _ _
      | setStates m d => rfl
      | setTuning t => cases hk
      | process s => exact process_tuning _ _ s
    rw [← e2, ← e]
    rfl

theorem truncate_int (z : ℤ) : truncate (z : ℝ) = z := by
  unfold truncate
  split
  · rw [← Int.cast_neg, Int.floor_intCast]; omega
  · exact Int.floor_intCast z

theorem toInt_ofInt (h : Ieee F) (z : ℤ) (hz : |z| ≤ 2 ^ 24) :
    (floats F).toInt ((floats F).ofInt z) = z := by
  rw [ofInt_eq F h z hz, toInt_eq, truncate_int]

/-- **C95.** The tuning parameters that were set are handed out again, unchanged, whatever
else is called in between but `init` and another `set_tuning_parameters`; a `reset` keeps
them. -/
theorem C95_tuning (h : Ieee F) (P : Par (Option ℝ)) (t : Tuning)
    (ha : (Call.setTuning t).Allowed) (cs : List Call) (hc : ∀ c ∈ cs, c.keepsTuning = true) :
    getTuning (floats F) (after F P (.setTuning t :: cs)) = t := by
  obtain ⟨⟨o1, o2⟩, ⟨l1, l2⟩, ⟨g1, g2⟩, ⟨m1, m2⟩, ⟨s1, s2⟩, f1, f2⟩ := ha
  have ab : ∀ z : ℤ, 0 ≤ z → z ≤ 5000 → (floats F).toInt ((floats F).ofInt z) = z :=
    fun z a b => toInt_ofInt h z (abs_le.2 ⟨by omega, by omega⟩)
  have e := after_tuning (F := F) cs hc (setTuning (floats F) P t)
  show getTuning (floats F) (after F (setTuning (floats F) P t) cs) = t
  rw [e]
  unfold setTuning
  rw [initInstances_tuning]
  unfold getTuning
  dsimp only
  rw [ab _ (by omega) (by omega), ab _ (by omega) (by omega), ab _ (by omega) (by omega),
    ab _ (by omega) (by omega), ab _ (by omega) (by omega), ab _ (by omega) (by omega)]

/-- **C95.** The default tuning parameters are those of the header. -/
theorem C95_defaults (h : Ieee F) (P : Par (Option ℝ)) (nox : Bool) (s : ℤ) (cs : List Call)
    (hc : ∀ c ∈ cs, c.keepsTuning = true) :
    getTuning (floats F) (after F P (.init nox s :: cs)) =
      if nox then ⟨1, 12, 12, 720, 50, 230⟩ else ⟨100, 12, 12, 180, 50, 230⟩ := by
  have e := after_tuning (F := F) cs hc (initWith (floats F) P nox (some (s : ℝ)))
  show getTuning (floats F) (after F (initWith (floats F) P nox (some (s : ℝ))) cs) = _
  rw [e]
  unfold initWith reset
  dsimp only
  rw [initInstances_tuning]
  have hm : ∀ a b : ℤ, |a| ≤ 2 ^ 24 → |b| ≤ 2 ^ 24 → |a * b| ≤ 2 ^ 24 →
      (floats F).toInt ((floats F).mul ((floats F).ofInt a) ((floats F).ofInt b)) = a * b := by
    intro a b h1 h2 h3
    rw [ofInt_eq F h a h1, ofInt_eq F h b h2, mul_eq, ← Int.cast_mul, rnd_int h _ h3, toInt_eq,
      truncate_int]
  cases nox
  · simp only [Bool.false_eq_true, if_false]
    unfold getTuning
    dsimp only
    rw [toInt_ofInt h 100 (by decide), toInt_ofInt h 12 (by decide), toInt_ofInt h 50 (by decide),
      toInt_ofInt h 230 (by decide), hm 60 3 (by decide) (by decide) (by decide)]
    rfl
  · simp only [if_true]
    unfold getTuning
    dsimp only
    rw [toInt_ofInt h 1 (by decide), toInt_ofInt h 12 (by decide), toInt_ofInt h 50 (by decide),
      toInt_ofInt h 230 (by decide), hm 60 12 (by decide) (by decide) (by decide)]
    rfl

/-- The state is fresh: the offset of the estimator is zero. -/
theorem initInstances_off (A : Arith (Option ℝ)) (P : Par (Option ℝ)) :
    (initInstances A P).eOff = A.ofInt 0 := by
  unfold initInstances estSet moxSet scaledSet lowpassSet
  dsimp only
  split <;> rfl

/-- **C95.** States that are restored as the header says, after `init`, `reset` or
`set_tuning_parameters`, are handed out again unchanged (`mean` being a float). -/
theorem C95_states (h : Ieee F) (P : Par (Option ℝ)) (cs : List Call) (c : Call)
    (hc : (∃ nox s, c = .init nox s) ∨ c = .reset ∨ ∃ t, c = .setTuning t)
    (mean std : ℝ) (hm : F.rnd mean = mean) :
    getStates (floats F) (after F P (cs ++ [c, .setStates mean std])) = (some mean, some std) := by
  have e : after F P (cs ++ [c, .setStates mean std]) =
      setStates (floats F) (call F (after F P cs) c) (some mean) (some std) := by
    simp [after, call]
  rw [e]
  generalize after F P cs = Q
  have ho : (call F Q c).eOff = (floats F).ofInt 0 := by
    rcases hc with ⟨nox, s, rfl⟩ | rfl | ⟨t, rfl⟩ <;> exact initInstances_off _ _
  show ((floats F).add (some mean) (call F Q c).eOff, some std) = _
  rw [ho, ofInt_eq F h 0 (by decide), add_eq, Int.cast_zero, add_zero, hm]

/-- **C95.** The sampling interval is handed out again after every history. -/
theorem C95_interval (h : Ieee F) (P : Par (Option ℝ)) (nox : Bool) (s : ℤ) (s1 : 1 ≤ s)
    (s10 : s ≤ 10) (cs : List Call) (hc : ∀ c ∈ cs, c.Allowed) :
    getInterval (after F P (.init nox s :: cs)) =
      some ((interval (.init nox s :: cs) : ℤ) : ℝ) :=
  (history_inv h P nox s s1 s10 cs hc).cfg.dt

/-! ## Concrete cases -/

/-- A measurement in the blackout only counts. -/
theorem blackout_step (P : Par (Option ℝ)) (j : ℕ) (hu : P.uptime = some (j : ℝ))
    (hd : P.dt = some 1) (hj : j ≤ 45) (s : ℤ) :
    call exactly P (.process s) = { P with uptime := some ((j + 1 : ℕ) : ℝ) } := by
  have hj' : (j : ℝ) ≤ 45 := by exact_mod_cast hj
  simp [call, process, hu, hd, floats, exactly, hj']

theorem blackout_run (s : ℤ) : ∀ (m j : ℕ) (P : Par (Option ℝ)), P.uptime = some (j : ℝ) →
    P.dt = some 1 → j + m ≤ 46 →
    after exactly P (List.replicate m (.process s)) =
      { P with uptime := some ((j + m : ℕ) : ℝ) } := by
  intro m
  induction m with
  | zero => intro j P hu _ _; simp [after, ← hu]
  | succ m ih =>
    intro j P hu hd hm
    have e := blackout_step P j hu hd (by omega) s
    have := ih (j + 1) { P with uptime := some ((j + 1 : ℕ) : ℝ) } rfl hd (by omega)
    rw [List.replicate_succ]
    show after exactly (call exactly P (.process s)) _ = _
    rw [e, this]
    congr 2
    push_cast; ring

/-- The first measurement after the blackout: the low pass starts with the raw index. -/
theorem first_index (P : Par (Option ℝ)) (n : ℤ) (k : ℕ) (i : Inv exactly P n k)
    (hk : 45 < k * n) (hl : P.lpInit = false) (s : ℤ) (r : ℝ)
    (hr : rawIndex (floats exactly) (takeSraw (floats exactly) P s) = some r) :
    (process (floats exactly) P s).2 = truncate (max r (1 / 2) + 1 / 2) := by
  obtain ⟨c, ins, ⟨j, ej, j1, j2, j3, j4⟩, ⟨sr, esr⟩, ⟨y, ey, y0⟩⟩ := i
  have h := exactly_ieee
  have half : (floats exactly).lit (1 / 2) = some (1 / 2 : ℝ) := by
    rw [lit_eq]; push_cast; rw [rnd_half h]
  unfold process
  have hb : 45 < j * n := j2 hk
  have cond : ¬ (floats exactly).le P.uptime ((floats exactly).ofInt 45) = true := by
    rw [ej, ofInt_eq exactly h 45 (by decide), le_eq]
    intro hh
    have : j * n ≤ 45 := by exact_mod_cast hh
    omega
  rw [if_neg cond]
  obtain ⟨t, et⟩ : ∃ t : ℝ, takeSraw (floats exactly) P s = { P with sraw := some t } := by
    unfold takeSraw
    split
    · exact ⟨_, rfl⟩
    · exact ⟨sr, by rw [← esr]⟩
  rw [et] at hr
  simp only [et, hr]
  obtain ⟨x1, x2, elp⟩ : ∃ (x1 x2 : Option ℝ),
      lowpassProcess (floats exactly) { P with sraw := some t } (some r) =
        { P with sraw := some t, x1 := x1, x2 := x2, x3 := some r, lpInit := true } := by
    unfold lowpassProcess
    simp only [hl, Bool.false_eq_true, if_false]
    obtain ⟨v1, ev1⟩ : Num (blend (floats exactly) P.a1 (some r) (some r)) :=
      num_blend ins.a1 (num_some _) (num_some _)
    obtain ⟨v2, ev2⟩ : Num (blend (floats exactly) P.a2 (some r) (some r)) :=
      num_blend ins.a2 (num_some _) (num_some _)
    obtain ⟨a, ea, _⟩ := adapt_range h n c.n1 c.n10 v1 v2
    refine ⟨some v1, some v2, ?_⟩
    simp only [ev1, ev2, c.dt, ea]
    congr 1
    simp only [blend, floats, exactly, Option.bind_some, Option.map_some, id]
    congr 1
    push_cast; ring
  simp only [elp, half]
  have ew : (if (floats exactly).lt (some r) (some (1 / 2 : ℝ)) = true then
      (some (1 / 2 : ℝ)) else some r) = some (max r (1 / 2)) := by
    split
    · rename_i hh
      rw [lt_eq] at hh
      rw [max_eq_right hh.le]
    · rename_i hh
      rw [lt_eq] at hh
      rw [max_eq_left (by linarith)]
  simp only [ew]
  have fin : (floats exactly).toInt ((floats exactly).add (some (max r (1 / 2)))
      (some (1 / 2 : ℝ))) = truncate (max r (1 / 2) + 1 / 2) := rfl
  split
  · have hid : ∀ (Q : Par (Option ℝ)) (q : Option ℝ),
        (estProcess (floats exactly) Q q).idx = Q.idx := by
      intro Q q
      have hg : ∀ R : Par (Option ℝ), (calculateGamma (floats exactly) R).idx = R.idx := by
        intro R
        unfold calculateGamma sigmoidSet
        dsimp only
        split <;> split <;> rfl
      unfold estProcess
      split
      · dsimp only
        rw [hg]
        split <;> rfl
      · rfl
    simp only [moxSet, hid]
    exact fin
  · exact fin

/-- A history with restored states and the 46 measurements of the blackout. -/
def demo (mean : ℝ) : List Call :=
  .init false 1 :: (.setStates mean 50 :: List.replicate 46 (.process 0))

theorem demo_allowed (m : ℝ) : ∀ c ∈ demo m, c.Allowed := by
  intro c hc
  simp only [demo, List.mem_cons, List.mem_replicate] at hc
  rcases hc with rfl | rfl | ⟨_, rfl⟩
  · exact ⟨by decide, by decide⟩
  · show (0 : ℝ) ≤ 50; norm_num
  · trivial

theorem demo_measured (m : ℝ) : measured (demo m) * interval (demo m) = 46 := by
  simp [demo, measured, interval, nextMeasured, nextInterval, List.replicate]

theorem demo_state (P : Par (Option ℝ)) (m : ℝ) :
    after exactly P (demo m) = { setStates (floats exactly)
      (initWith (floats exactly) P false (some 1)) (some m) (some 50) with
      uptime := some ((0 + 46 : ℕ) : ℝ) } := by
  have := blackout_run 0 46 0 (setStates (floats exactly)
    (initWith (floats exactly) P false (some 1)) (some m) (some 50))
    (by simp [setStates, estSetStates, moxSet, initWith, reset, initInstances, estSet, scaledSet,
      lowpassSet, floats, exactly])
    (by simp [setStates, estSetStates, moxSet, initWith, reset, initInstances, estSet, scaledSet,
      lowpassSet]) (by decide)
  rw [← this]
  simp [demo, after, call]

theorem demo_index (P : Par (Option ℝ)) (m : ℝ) (s : ℤ) (r : ℝ)
    (hr : rawIndex (floats exactly) (takeSraw (floats exactly) (after exactly P (demo m)) s) =
      some r) :
    (process (floats exactly) (after exactly P (demo m)) s).2 =
      truncate (max r (1 / 2) + 1 / 2) := by
  refine first_index _ _ _ (history_inv exactly_ieee P false 1 (by decide) (by decide) _
    (fun c hc => demo_allowed m c (List.mem_cons_of_mem _ hc))) ?_ ?_ s r hr
  · have := demo_measured m
    have e : (46 : ℤ) = measured (demo m) * interval (demo m) := this.symm
    show (45 : ℤ) < measured (demo m) * interval (demo m)
    omega
  · show (after exactly P (demo m)).lpInit = false
    rw [demo_state]
    rfl

/-- The highest index is reached: the range of `C94_index_partial` cannot be narrowed. -/
theorem demo_high (P : Par (Option ℝ)) :
    (process (floats exactly) (after exactly P (demo 32767)) 20001).2 = 500 := by
  rw [demo_index P 32767 20001 500]
  · have := truncate_int 500
    have e : max (500 : ℝ) (1 / 2) + 1 / 2 = 500 + 1 / 2 := by norm_num
    rw [e]
    have := truncate_range (x := 500 + 1 / 2) 500 500 (by norm_num) (by norm_num) (by norm_num)
    omega
  · rw [demo_state]
    simp [rawIndex, takeSraw, scaledProcess, moxProcess, setStates, estSetStates, moxSet, initWith,
      reset, initInstances, estSet, scaledSet, lowpassSet, getMean, getStd, floats, exactly]
    norm_num

/-- So is the lowest. -/
theorem demo_low (P : Par (Option ℝ)) :
    (process (floats exactly) (after exactly P (demo 1)) 52767).2 = 1 := by
  rw [demo_index P 1 52767 0]
  · have e : max (0 : ℝ) (1 / 2) + 1 / 2 = 1 := by norm_num
    rw [e]
    have := truncate_range (x := 1) 1 1 (by norm_num) (by norm_num) (by norm_num)
    omega
  · rw [demo_state]
    simp [rawIndex, takeSraw, scaledProcess, moxProcess, setStates, estSetStates, moxSet, initWith,
      reset, initInstances, estSet, scaledSet, lowpassSet, getMean, getStd, floats, exactly]
    norm_num

/-- The hypotheses of `C94_index_partial` are met in binary32 arithmetic, before and after the end of
the blackout. -/
example (P : Par (Option ℝ)) (s : ℤ) :
    (process (floats binary32) (after binary32 P [.init true 10, .process 5, .reset]) s).2 = 0 ∧
    1 ≤ (process (floats binary32) (after binary32 P (demo 32767)) s).2 := by
  constructor
  · exact (C94_index_partial binary32_ieee P true 10 (by decide) (by decide) [.process 5, .reset]
      (by intro c hc; simp at hc; rcases hc with rfl | rfl <;> trivial) s).1 (by decide)
  · refine ((C94_index_partial binary32_ieee P false 1 (by decide) (by decide) _
      (fun c hc => demo_allowed 32767 c (List.mem_cons_of_mem _ hc)) s).2 ?_).1
    have := demo_measured 32767
    show (45 : ℤ) < measured (demo 32767) * interval (demo 32767)
    omega

example (P : Par (Option ℝ)) : ∃ mean std : ℝ,
    getStates (floats binary32) (after binary32 P (demo 7)) = (some mean, some std) ∧ 0 ≤ std :=
  C94_numbers_partial binary32_ieee P false 1 (by decide) (by decide) _
    (fun c hc => demo_allowed 7 c (List.mem_cons_of_mem _ hc))

example (P : Par (Option ℝ)) :
    getTuning (floats binary32) (after binary32 P
      [.setTuning ⟨50, 24, 36, 0, 10, 1000⟩, .reset, .process 31000]) = ⟨50, 24, 36, 0, 10, 1000⟩ :=
  C95_tuning binary32_ieee P ⟨50, 24, 36, 0, 10, 1000⟩ (by simp [Call.Allowed]) _
    (by intro c hc; simp at hc; rcases hc with rfl | rfl <;> rfl)

example (P : Par (Option ℝ)) :
    getStates (floats binary32) (after binary32 P
      ([.process 3] ++ [.init false 1, .setStates 4711 50])) = (some 4711, some 50) :=
  C95_states binary32_ieee P _ _ (.inl ⟨_, _, rfl⟩) _ _ (by
    have := rnd_int binary32_ieee 4711 (by decide)
    simpa using this)

/-- **C95, the limit.** States restored into a running algorithm, not as the header says
directly after `init`, `reset` or `set_tuning_parameters`, do not come back: the offset the
estimator has already taken is added to the mean. -/
theorem C95_running (P : Par (Option ℝ)) (mean std : ℝ) :
    getStates (floats exactly) (after exactly P
      (.init false 1 :: List.replicate 46 (.process 0) ++
        [.process 20100, .setStates mean std])) = (some (mean + 100), some std) := by
  have e := blackout_run 0 46 0 (initWith (floats exactly) P false (some 1))
    (by simp [moxSet, initWith, reset, initInstances, estSet, scaledSet, lowpassSet, floats,
      exactly])
    (by simp [moxSet, initWith, reset, initInstances, estSet, scaledSet, lowpassSet]) (by decide)
  have e2 : after exactly P (.init false 1 :: List.replicate 46 (.process 0) ++
        [.process 20100, .setStates mean std]) =
      setStates (floats exactly) (process (floats exactly)
        (after exactly (initWith (floats exactly) P false (some 1))
          (List.replicate 46 (.process 0))) 20100).1 (some mean) (some std) := by
    simp only [after, List.cons_append, List.foldl_cons, List.foldl_append, List.foldl_nil, call,
      Int.cast_one]
  rw [e2, e]
  have hoff : (process (floats exactly) { initWith (floats exactly) P false (some 1) with
      uptime := some ((0 + 46 : ℕ) : ℝ) } 20100).1.eOff = some 100 := by
    have hI : (initWith (floats exactly) P false (some 1)).eInit = false := rfl
    have hM : (initWith (floats exactly) P false (some 1)).min = 20000 := rfl
    generalize initWith (floats exactly) P false (some 1) = Q at hI hM ⊢
    unfold process
    have cond : ¬ (floats exactly).le (some ((0 + 46 : ℕ) : ℝ)) ((floats exactly).ofInt 45) =
        true := by
      rw [ofInt_eq exactly exactly_ieee 45 (by decide), le_eq]
      norm_num
    rw [if_neg cond]
    have ht : takeSraw (floats exactly) { Q with uptime := some ((0 + 46 : ℕ) : ℝ) } 20100 =
        { Q with uptime := some ((0 + 46 : ℕ) : ℝ), sraw := some 100 } := by
      unfold takeSraw
      simp only [hM]
      rw [if_pos (by decide), if_neg (by decide), if_neg (by decide)]
      have := ofInt_eq exactly exactly_ieee (20100 - 20000) (by decide)
      rw [this]
      norm_num
    rw [ht]
    have hl : ∀ (R : Par (Option ℝ)) (r : Option ℝ),
        (lowpassProcess (floats exactly) R r).eInit = R.eInit ∧
        (lowpassProcess (floats exactly) R r).sraw = R.sraw := by
      intro R r
      unfold lowpassProcess
      dsimp only
      split <;> exact ⟨rfl, rfl⟩
    generalize hr : rawIndex (floats exactly)
      { Q with uptime := some ((0 + 46 : ℕ) : ℝ), sraw := some 100 } = r
    have h1 := (hl { Q with uptime := some ((0 + 46 : ℕ) : ℝ), sraw := some 100 } r).1
    have h2 := (hl { Q with uptime := some ((0 + 46 : ℕ) : ℝ), sraw := some 100 } r).2
    simp only [hr]
    generalize lowpassProcess (floats exactly)
      { Q with uptime := some ((0 + 46 : ℕ) : ℝ), sraw := some 100 } r = R at h1 h2 ⊢
    simp only [h2]
    have pos : (floats exactly).lt ((floats exactly).ofInt 0) (some 100) = true := by
      rw [ofInt_eq exactly exactly_ieee 0 (by decide), lt_eq]
      norm_num
    rw [if_pos pos]
    unfold estProcess
    rw [if_neg (by simp [h1, hI])]
    rfl
  have hg : ∀ (Q : Par (Option ℝ)), getStates (floats exactly)
      (setStates (floats exactly) Q (some mean) (some std)) =
      ((floats exactly).add (some mean) Q.eOff, some std) := fun _ => rfl
  rw [hg]
  rw [hoff]
  rfl

end Verif.Gas
