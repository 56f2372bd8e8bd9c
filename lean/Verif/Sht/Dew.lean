import Verif.Sht.DewLemmas

/-!
# C105: dew points

The float operations are those of `Verif.Gas.Spec`, `logf` is any function that meets `LogOk`.
-/

namespace Verif.Sht

open Verif.Gas

variable {F : Flt} {L : ℝ → ℝ}

/-! ## Logarithms -/

theorem log_rel {u x r : ℝ} (hx : 0 < x) (hr : r ≤ 1 / 2) (hu : |u - x| ≤ r * x) :
    0 < u ∧ |Real.log u - Real.log x| ≤ 2 * r := by
  obtain ⟨h1, h2⟩ := abs_le.1 hu
  have hu0 : 0 < u := by nlinarith
  have hr0 : 0 ≤ r := by
    by_contra hc
    have : r * x < 0 := mul_neg_of_neg_of_pos (not_le.1 hc) hx
    linarith [abs_nonneg (u - x)]
  refine ⟨hu0, ?_⟩
  have l1 := Real.log_le_sub_one_of_pos (div_pos hu0 hx)
  have l2 := Real.log_le_sub_one_of_pos (div_pos hx hu0)
  rw [Real.log_div hu0.ne' hx.ne'] at l1
  rw [Real.log_div hx.ne' hu0.ne'] at l2
  have b1 : u / x ≤ 1 + r := by rw [div_le_iff₀ hx]; linarith
  have b2 : x / u ≤ 1 + 2 * r := by
    rw [div_le_iff₀ hu0]
    nlinarith
  rw [abs_le]
  constructor <;> linarith

theorem near_log (hL : LogOk L) {a : Option ℝ} {x r M e : ℝ} (ha : ∃ u, a = some u ∧ |u - x| ≤ r * x)
    (hx : 0 < x) (hr : r ≤ 1 / 2) (hM : |Real.log x| ≤ M)
    (he : 2 * r + (M + 2 * r) / 2 ^ 20 + 1 / 2 ^ 100 ≤ e) :
    Near (flog L a) (Real.log x) e := by
  obtain ⟨u, rfl, hu⟩ := ha
  obtain ⟨h0, h1⟩ := log_rel hx hr hu
  have h2 := hL u h0
  have h3 : |Real.log u| ≤ M + 2 * r := by
    calc |Real.log u| = |Real.log x + (Real.log u - Real.log x)| := by ring_nf
      _ ≤ |Real.log x| + |Real.log u - Real.log x| := abs_add_le _ _
      _ ≤ M + 2 * r := by linarith
  refine ⟨L u, ?_, ?_⟩
  · show (if u ≤ 0 then none else some (L u)) = _
    rw [if_neg (not_le.2 h0)]
  · have h4 := div_le_div_of_nonneg_right h3 (by positivity : (0 : ℝ) ≤ 2 ^ 20)
    calc |L u - Real.log x| = |(L u - Real.log u) + (Real.log u - Real.log x)| := by ring_nf
      _ ≤ |L u - Real.log u| + |Real.log u - Real.log x| := abs_add_le _ _
      _ ≤ e := by linarith

theorem log_bounds {x : ℝ} (h1 : 1 / 1000 ≤ x) (h2 : x ≤ 1) : |Real.log x| ≤ 7 := by
  have h0 : 0 < x := by linarith
  have a1 := Real.log_nonpos h0.le h2
  have a2 : -7 ≤ Real.log x := by
    rw [Real.le_log_iff_exp_le h0, Real.exp_neg]
    refine le_trans ?_ h1
    rw [one_div]
    refine inv_anti₀ (by norm_num) ?_
    have e7 : Real.exp 7 = Real.exp 1 ^ 7 := by rw [← Real.exp_nat_mul]; norm_num
    rw [e7]
    have := Real.exp_one_gt_d9
    calc (1000 : ℝ) ≤ (2.7182818283 : ℝ) ^ 7 := by norm_num
      _ ≤ Real.exp 1 ^ 7 := by gcongr
  rw [abs_le]
  constructor <;> linarith

/-! ## The formula in floats -/

/-- `b * g / (a - g)`, for constants as in the drivers. -/
theorem solve_near (h : Ieee F) (a b : ℚ) (ha : (17 : ℝ) ≤ a ∧ (a : ℝ) ≤ 18)
    (hb : (230 : ℝ) ≤ b ∧ (b : ℝ) ≤ 250) {G : Option ℝ} {g e : ℝ} (hG : Near G g e) (he : e ≤ 1 / 100)
    (hg : -13 ≤ g ∧ g ≤ 6) (r : ℝ) (hr : 51 * e + 1 / 1000 ≤ r) :
    Near ((floats F).div ((floats F).mul ((floats F).lit b) G) ((floats F).sub ((floats F).lit a) G))
      (b * g / (a - g)) r := by
  have he0 : 0 ≤ e := by
    obtain ⟨y, -, hy⟩ := hG
    exact (abs_nonneg _).trans hy
  have hab : |(a : ℝ)| ≤ 18 := by rw [abs_le]; constructor <;> linarith [ha.1, ha.2]
  have hbb : |(b : ℝ)| ≤ 250 := by rw [abs_le]; constructor <;> linarith [hb.1, hb.2]
  have hgb : |g| ≤ 13 := by rw [abs_le]; constructor <;> linarith [hg.1, hg.2]
  have la := near_lit h a (r := 1 / 400000) (by linarith)
  have lb := near_lit h b (r := 1 / 30000) (by linarith)
  have n1 := near_mul h 250 13 lb hG hbb hgb (r := 2501 / 10 * e + 1 / 1000) (by norm_num; linarith)
  have d1 := near_sub h 31 la hG (by rw [abs_le]; constructor <;> linarith [ha.1, ha.2, hg.1, hg.2])
    (r := 1001 / 1000 * e + 1 / 100000) (by norm_num; linarith)
  have hbg : |(b : ℝ) * g| ≤ 3250 := by
    rw [abs_mul]
    calc |(b : ℝ)| * |g| ≤ 250 * 13 := mul_le_mul hbb hgb (abs_nonneg _) (by norm_num)
      _ = 3250 := by norm_num
  refine near_div_lit h 3250 11 n1 d1 hbg (by linarith [ha.1, hg.2]) (by linarith) ?_
  refine le_trans ?_ hr
  have q : (2501 / 10 * e + 1 / 1000 + 3250 / 11 * (1001 / 1000 * e + 1 / 100000)) /
      (11 - (1001 / 1000 * e + 1 / 100000)) ≤
      (2501 / 10 * e + 1 / 1000 + 3250 / 11 * (1001 / 1000 * e + 1 / 100000)) / (1098 / 100) := by
    apply div_le_div_of_nonneg_left
    · positivity
    · norm_num
    · linarith
  have q2 : (2501 / 10 * e + 1 / 1000 + 3250 / 11 * (1001 / 1000 * e + 1 / 100000)) / (1098 / 100) ≤
      505 / 10 * e + 6 / 10000 := by
    rw [div_le_iff₀ (by norm_num)]
    linarith
  norm_num at *
  linarith

/-- A humidity as a fraction. -/
theorem percent_near (h : Ieee F) {y : ℝ} (hy : 1 / 10 ≤ y) :
    ∃ u, (floats F).div (some y) ((floats F).ofInt 100) = some u ∧
      |u - y / 100| ≤ 1 / 2 ^ 22 * (y / 100) := by
  refine ⟨F.rnd (y / 100), ?_, ?_⟩
  · have : F.rnd ((100 : ℤ) : ℝ) = (100 : ℤ) := rnd_int h 100 (by norm_num)
    simp only [floats, this, Option.bind_some]
    norm_num
  · have h1 := h.err (y / 100)
    rw [abs_of_pos (by linarith : 0 < y / 100)] at h1
    refine h1.trans ?_
    norm_num
    linarith

theorem quotient_near (h : Ieee F) (a b : ℚ) (ha : (17 : ℝ) ≤ a ∧ (a : ℝ) ≤ 18)
    (hb : (230 : ℝ) ≤ b ∧ (b : ℝ) ≤ 250) {c : ℝ} (hc : -40 ≤ c ∧ c ≤ 125) :
    Near ((floats F).div ((floats F).mul ((floats F).lit a) (some c))
      ((floats F).add ((floats F).lit b) (some c))) (a * c / (b + c)) (1 / 100000) := by
  have hab : |(a : ℝ)| ≤ 18 := by rw [abs_le]; constructor <;> linarith [ha.1, ha.2]
  have hbb : |(b : ℝ)| ≤ 250 := by rw [abs_le]; constructor <;> linarith [hb.1, hb.2]
  have hcb : |c| ≤ 125 := by rw [abs_le]; constructor <;> linarith [hc.1, hc.2]
  have la := near_lit h a (r := 22 / 10000000) (by linarith)
  have lb := near_lit h b (r := 3 / 100000) (by linarith)
  have lc : Near (some c) c 0 := ⟨c, rfl, by simp⟩
  have n1 := near_mul h 18 125 la lc hab hcb (r := 6 / 10000) (by norm_num)
  have d1 := near_add h 375 lb lc (by rw [abs_le]; constructor <;> linarith [hb.1, hb.2, hc.1, hc.2])
    (r := 8 / 100000) (by norm_num)
  have hac : |(a : ℝ) * c| ≤ 2250 := by
    rw [abs_mul]
    calc |(a : ℝ)| * |c| ≤ 18 * 125 := mul_le_mul hab hcb (abs_nonneg _) (by norm_num)
      _ = 2250 := by norm_num
  exact near_div_lit h 2250 190 n1 d1 hac (by linarith [hb.1, hc.1]) (by norm_num) (by norm_num)

/-- The quotient of the formula, in the range of the sensors. -/
theorem quotient_bounds (a b : ℝ) (ha : (17 : ℝ) ≤ a ∧ (a : ℝ) ≤ 18)
    (hb : (230 : ℝ) ≤ b ∧ (b : ℝ) ≤ 250) {c : ℝ} (hc : -40 ≤ c ∧ c ≤ 125) (hs : a * 125 ≤ 6 * (b + 125)) :
    -4 ≤ a * c / (b + c) ∧ a * c / (b + c) ≤ 6 := by
  have h0 : 0 < b + c := by linarith [hb.1, hc.1]
  constructor
  · rw [le_div_iff₀ h0]
    nlinarith [ha.1, ha.2, hb.1, hb.2, hc.1, hc.2]
  · rw [div_le_iff₀ h0]
    nlinarith [ha.1, ha.2, hb.1, hb.2, hc.1, hc.2]

theorem dht_near (h : Ieee F) (hL : LogOk L) (c y : ℝ) (hc : -40 ≤ c ∧ c ≤ 125)
    (hy : 1 / 10 ≤ y ∧ y ≤ 100) :
    Near (dhtDewPoint (floats F) (flog L) (some c) (some y))
      ((2377 / 10) * (Real.log (y / 100) + 17271 / 1000 * c / (2377 / 10 + c)) /
        (17271 / 1000 - (Real.log (y / 100) + 17271 / 1000 * c / (2377 / 10 + c)))) (1 / 200) := by
  have hx0 : 0 < y / 100 := by linarith [hy.1]
  have lb := log_bounds (x := y / 100) (by linarith [hy.1]) (by linarith [hy.2])
  have n1 := quotient_near h (17271 / 1000) (2377 / 10) (by norm_num) (by norm_num) hc
  have n2 := near_log hL (percent_near h hy.1) hx0 (by norm_num) lb (e := 75 / 10000000) (by norm_num)
  have b1 := quotient_bounds (17271 / 1000) (2377 / 10) (by norm_num) (by norm_num) hc (by norm_num)
  obtain ⟨l1, -⟩ := abs_le.1 lb
  have l2 := Real.log_nonpos hx0.le (show y / 100 ≤ 1 by linarith [hy.2])
  have n3 := near_add h 11 n1 n2 (by
    push_cast; rw [abs_le]; constructor <;> linarith [b1.1, b1.2]) (r := 2 / 100000) (by norm_num)
  have n4 := solve_near h (17271 / 1000) (2377 / 10) (by norm_num) (by norm_num) n3 (by norm_num)
    (by push_cast; constructor <;> linarith [b1.1, b1.2]) (1 / 200) (by norm_num)
  refine near_congr n4 ?_
  push_cast
  rw [add_comm (Real.log (y / 100))]

/-- The formula of SHT1x: a humidity known up to 1/1000, whole degrees. -/
theorem sht_near (h : Ieee F) (hL : LogOk L) (c : ℤ) (hc : -40 ≤ c ∧ c ≤ 125) {y : Option ℝ}
    {H : ℝ} (hy : Near y H (1 / 1000)) (hH : 2 ≤ H ∧ H ≤ 100) :
    Near (shtDewPoint (floats F) (flog L) y ((floats F).ofInt c))
      ((2435 / 10) * (Real.log (H / 100) + 1762 / 100 * c / (2435 / 10 + c)) /
        (1762 / 100 - (Real.log (H / 100) + 1762 / 100 * c / (2435 / 10 + c)))) (6 / 100) := by
  obtain ⟨y, rfl, hy⟩ := hy
  obtain ⟨hy1, hy2⟩ := abs_le.1 hy
  have hx0 : 0 < H / 100 := by linarith [hH.1]
  have lb := log_bounds (x := H / 100) (by linarith [hH.1]) (by linarith [hH.2])
  have ec : (floats F).ofInt c = some ((c : ℤ) : ℝ) := by
    show some (F.rnd c) = _
    rw [rnd_int h c (by rw [abs_le]; omega)]
  have hcR : (-40 : ℝ) ≤ c ∧ (c : ℝ) ≤ 125 := ⟨by exact_mod_cast hc.1, by exact_mod_cast hc.2⟩
  have n1 := quotient_near h (1762 / 100) (2435 / 10) (by norm_num) (by norm_num) hcR
  obtain ⟨u, eu, hu⟩ := percent_near h (y := y) (by linarith [hH.1])
  have hu' : |u - H / 100| ≤ 1 / 1990 * (H / 100) := by
    obtain ⟨a1, a2⟩ := abs_le.1 hu
    rw [abs_le]
    norm_num at a1 a2 ⊢
    constructor <;> linarith [hH.1]
  have n2 := near_log hL ⟨u, eu, hu'⟩ hx0 (by norm_num) lb (e := 102 / 100000) (by norm_num)
  have b1 := quotient_bounds (1762 / 100) (2435 / 10) (by norm_num) (by norm_num) hcR (by norm_num)
  obtain ⟨l1, -⟩ := abs_le.1 lb
  have l2 := Real.log_nonpos hx0.le (show H / 100 ≤ 1 by linarith [hH.2])
  have n3 := near_add h 11 n2 n1 (by
    push_cast; rw [abs_le]; constructor <;> linarith [b1.1, b1.2]) (r := 104 / 100000) (by norm_num)
  have n4 := solve_near h (1762 / 100) (2435 / 10) (by norm_num) (by norm_num) n3 (by norm_num)
    (by push_cast; constructor <;> linarith [b1.1, b1.2]) (6 / 100) (by norm_num)
  unfold shtDewPoint
  rw [ec]
  refine near_congr n4 ?_
  push_cast
  rfl

/-! ## The property: DHT -/

/-- **C105.** DHT: `CalcdewPointFast` gives the dew point of the air, up to 1/200 degree, for
temperatures from -40 to 125 degrees and humidities from 0.1 to 100 percent. -/
theorem C105_dht (h : Ieee F) (hL : LogOk L) (c y : ℝ) (hc : -40 ≤ c ∧ c ≤ 125)
    (hy : 1 / 10 ≤ y ∧ y ≤ 100) :
    ∃ d x, DewPoint 17.271 237.7 c y d ∧ d ≤ c ∧
      dhtDewPoint (floats F) (flog L) (some c) (some y) = some x ∧ |x - d| ≤ 1 / 200 := by
  obtain ⟨x, e, hx⟩ := dht_near h hL c y hc hy
  have hx0 : 0 < y / 100 := by linarith [hy.1]
  have l2 := Real.log_nonpos hx0.le (show y / 100 ≤ 1 by linarith [hy.2])
  have b1 := quotient_bounds (17271 / 1000) (2377 / 10) (by norm_num) (by norm_num) hc (by norm_num)
  have e1 : (17.271 : ℝ) = 17271 / 1000 := by norm_num
  have e2 : (237.7 : ℝ) = 2377 / 10 := by norm_num
  have hd := dew_formula (a := 17271 / 1000) (b := 2377 / 10) (t := c) (h := y) (by norm_num)
    (by norm_num) (by linarith [hy.1]) (by linarith [b1.2])
  rw [e1, e2]
  exact ⟨_, x, hd, dew_le (by norm_num) (by norm_num) (by linarith [hc.1]) (by linarith [hy.1]) hy.2 hd,
    e, hx⟩

/-- There is one dew point only, so `C105_dht` says what the answer is. -/
theorem C105_dew_point_unique {t h d e : ℝ} (ht : -237.7 < t) (hh : 0 < h)
    (hd : DewPoint 17.271 237.7 t h d) (he : DewPoint 17.271 237.7 t h e) : d = e :=
  dew_unique (by norm_num) (by norm_num) ht hh hd he

/-- **C105**, finding.  With a humidity of 0 the result is not a number. -/
theorem C105_dht_no_humidity (h : Ieee F) (c : ℝ) :
    dhtDewPoint (floats F) (flog L) (some c) (some 0) = none := by
  have e0 : F.rnd 0 = 0 := by simpa using rnd_int h 0 (by norm_num)
  have e1 : F.rnd ((100 : ℤ) : ℝ) = (100 : ℤ) := rnd_int h 100 (by norm_num)
  have hl : flog L ((floats F).div (some 0) ((floats F).ofInt 100)) = none := by
    simp only [floats, e1, Option.bind_some]
    norm_num [flog, e0]
  unfold dhtDewPoint
  rw [hl]
  simp [floats]

/-! ## The property: SHT1x -/

section
variable (script : Nat → Reading) (check : List Byte → Byte)

theorem rest_after {α : Type} (A : Gas.Arith α) (dur : Nat → Nat → Nat) (hd : Delays dur)
    (hc : Conforming script) (cs : List Call) : ∀ s : Sensor Chip, Rest s.world →
    Rest (s.calls (chip script check) A dur cs).1.world := by
  induction cs with
  | nil => intro s hs; exact hs
  | cons c cs ih =>
    intro s hs
    exact ih _ (rest_call script check A dur hd hc s hs c).1

theorem rest_new (dev : Chip) (hdev : dev.phase = .idle) (out : Bool) :
    Rest (Sensor.new (chip script check) dev out).world := by
  obtain ⟨clk, line, phase, st, m⟩ := dev
  dsimp only at hdev
  subst hdev
  cases clk <;> cases line <;> exact ⟨rfl, rfl, rfl, rfl, rfl⟩

/-- Towards zero to whole degrees. -/
theorem whole_degrees (n raw : ℤ) (h : |n - (raw - 3970)| ≤ 1) (h0 : 0 ≤ raw) (h1 : raw < 16384) :
    (-40 ≤ Int.tdiv n 100 ∧ Int.tdiv n 100 ≤ 125) ∧
    |((Int.tdiv n 100 : ℤ) : ℝ) - (raw / 100 - 397 / 10)| ≤ 1 := by
  rw [abs_le] at h
  have e : n - 99 ≤ 100 * Int.tdiv n 100 ∧ 100 * Int.tdiv n 100 ≤ n + 99 := by
    rcases le_or_gt 0 n with hn | hn
    · rw [Int.tdiv_eq_ediv_of_nonneg hn]; omega
    · have : Int.tdiv n 100 = -Int.tdiv (-n) 100 := by rw [Int.neg_tdiv]; omega
      rw [this, Int.tdiv_eq_ediv_of_nonneg (by omega)]; omega
  refine ⟨by omega, ?_⟩
  have e1 : raw - 3970 - 100 ≤ 100 * Int.tdiv n 100 := by omega
  have e2 : 100 * Int.tdiv n 100 ≤ raw - 3970 + 100 := by omega
  have r1 : (raw : ℝ) - 3970 - 100 ≤ 100 * (Int.tdiv n 100 : ℤ) := by exact_mod_cast e1
  have r2 : 100 * ((Int.tdiv n 100 : ℤ) : ℝ) ≤ raw - 3970 + 100 := by exact_mod_cast e2
  rw [abs_le]
  constructor <;> linarith

/-- The state of the object and the sensor after a history of calls. -/
noncomputable def after (F : Flt) (dur : Nat → Nat → Nat) (dev : Chip) (out : Bool) (cs : List Call) :
    Sensor Chip :=
  ((Sensor.new (chip script check) dev out).calls (chip script check) (floats F) dur cs).1

/-- The temperature the sensor measures next, and the humidity it measures after that. -/
noncomputable def nextTemperature (s : Sensor Chip) : ℝ :=
  (script s.view.count).temperature / 100 - 397 / 10
@[inherit_doc nextTemperature]
noncomputable def nextHumidity (s : Sensor Chip) : ℝ :=
  exactHumidity (nextTemperature script s) (script (s.view.count + 1)).humidity

theorem sht1x_answer (h : Ieee F) (hL : LogOk L) (dur : Nat → Nat → Nat) (hd : Delays dur)
    (hc : Conforming script) (s : Sensor Chip) (hs : Rest s.world)
    (hH : 2 ≤ nextHumidity script s ∧ nextHumidity script s ≤ 100) :
    ∃ (n : ℤ) (d x : ℝ), |n - 100 * nextTemperature script s| ≤ 1 ∧
      |((Int.tdiv n 100 : ℤ) : ℝ) - nextTemperature script s| ≤ 1 ∧
      (-40 ≤ Int.tdiv n 100 ∧ Int.tdiv n 100 ≤ 125) ∧
      DewPoint 17.62 243.5 (Int.tdiv n 100 : ℤ) (nextHumidity script s) d ∧
      (sht1xDewPoint (floats F) (flog L) (chip script check) dur s).2 = some (some x) ∧
      |x - d| ≤ 6 / 100 := by
  obtain ⟨w', e, -, -, -⟩ := rest_humidity script check (floats F) dur hd hc s hs
  obtain ⟨-, n, en, hn⟩ := sht1x_temperature h (script s.world.dev.count).temperature (hc _).1
  have hy := humidity_near h _ _ (hc s.world.dev.count).1 (hc (s.world.dev.count + 1)).2.1
  obtain ⟨hq, hq'⟩ := whole_degrees n _ hn (by omega) (by have := (hc s.world.dev.count).1; omega)
  have hqR : (-40 : ℝ) ≤ (Int.tdiv n 100 : ℤ) ∧ ((Int.tdiv n 100 : ℤ) : ℝ) ≤ 125 :=
    ⟨by exact_mod_cast hq.1, by exact_mod_cast hq.2⟩
  obtain ⟨x, ex, hx⟩ := sht_near h hL (Int.tdiv n 100) ⟨by omega, hq.2⟩ hy hH
  have hx0 : 0 < nextHumidity script s / 100 := by linarith [hH.1]
  have l2 := Real.log_nonpos hx0.le (show nextHumidity script s / 100 ≤ 1 by linarith [hH.2])
  have b1 := quotient_bounds (1762 / 100) (2435 / 10) (by norm_num) (by norm_num)
    (c := (Int.tdiv n 100 : ℤ)) ⟨by linarith [hqR.1], hqR.2⟩ (by norm_num)
  have hdp := dew_formula (a := 1762 / 100) (b := 2435 / 10) (t := (Int.tdiv n 100 : ℤ))
    (h := nextHumidity script s) (by norm_num) (by norm_num) (by linarith [hH.1]) (by linarith [b1.2])
  have e1 : (17.62 : ℝ) = 1762 / 100 := by norm_num
  have e2 : (243.5 : ℝ) = 2435 / 10 := by norm_num
  refine ⟨n, _, x, ?_, ?_, hq, by rw [e1, e2]; exact hdp, ?_, hx⟩
  · have hn' : |((n - ((script s.world.dev.count).temperature - 3970) : ℤ) : ℝ)| ≤ 1 := by
      exact_mod_cast hn
    unfold nextTemperature
    push_cast at hn'
    have e3 : (n : ℝ) - 100 * ((script s.view.count).temperature / 100 - 397 / 10) =
        n - ((script s.world.dev.count).temperature - 3970) := by
      simp only [Sensor.view]
      ring
    rw [e3]
    exact hn'
  · unfold nextTemperature
    simpa [Sensor.view] using hq'
  · unfold sht1xDewPoint
    rw [e]
    simp only [en, Option.map_some]
    rw [if_neg (by
      have := (abs_le.1 hn).1
      omega)]
    exact congrArg some ex

/-- **C105 (part).** SHT1x: after every history of calls, `GetDewPoint` gives the dew point of the
air for the temperature and the humidity measured, up to 1.1 degrees, if the humidity is from 2 to
100 percent.  Missing: an error as small as that of DHT; the temperature is cut to whole degrees,
see `C105_sht1x_whole_degrees`. -/
theorem C105_sht1x_partial (h : Ieee F) (hL : LogOk L) (dur : Nat → Nat → Nat) (hd : Delays dur)
    (hc : Conforming script) (dev : Chip) (hdev : dev.phase = .idle) (out : Bool) (cs : List Call)
    (hH : 2 ≤ nextHumidity script (after script check F dur dev out cs) ∧
      nextHumidity script (after script check F dur dev out cs) ≤ 100) :
    ∃ d x, DewPoint 17.62 243.5 (nextTemperature script (after script check F dur dev out cs))
        (nextHumidity script (after script check F dur dev out cs)) d ∧
      (sht1xDewPoint (floats F) (flog L) (chip script check) dur
        (after script check F dur dev out cs)).2 = some (some x) ∧
      |x - d| ≤ 11 / 10 := by
  have hs := rest_after script check (floats F) dur hd hc cs _ (rest_new script check dev hdev out)
  change Rest (after script check F dur dev out cs).world at hs
  generalize after script check F dur dev out cs = s at hH hs
  obtain ⟨n, d', x, -, hq, hr, hd', ex, hx⟩ := sht1x_answer script check h hL dur hd hc s hs hH
  generalize Int.tdiv n 100 = q at hq hr hd'
  have hqR : (-40 : ℝ) ≤ q ∧ (q : ℝ) ≤ 125 := ⟨by exact_mod_cast hr.1, by exact_mod_cast hr.2⟩
  have hT : -40 ≤ nextTemperature script s ∧ nextTemperature script s ≤ 125 := by
    obtain ⟨t0, t1⟩ := raw_bounds _ _ (hc s.view.count).1
    push_cast at t1
    unfold nextTemperature
    constructor <;> linarith
  have hx0 : 0 < nextHumidity script s / 100 := by linarith [hH.1]
  have l2 := Real.log_nonpos hx0.le (show nextHumidity script s / 100 ≤ 1 by linarith [hH.2])
  have b1 := quotient_bounds (17.62) (243.5) (by norm_num) (by norm_num) hT (by norm_num)
  have hdp := dew_formula (a := 17.62) (b := 243.5) (t := nextTemperature script s)
    (h := nextHumidity script s) (by norm_num) (by norm_num) (by linarith [hH.1]) (by linarith [b1.2])
  refine ⟨_, x, hdp, ex, ?_⟩
  have lip := dew_lipschitz (by norm_num) (by norm_num) (by linarith [hH.1]) hH.2
    (by linarith [hqR.1]) (by linarith [hT.1]) hd' hdp
  obtain ⟨a1, a2⟩ := abs_le.1 (lip.trans hq)
  obtain ⟨a3, a4⟩ := abs_le.1 hx
  rw [abs_le]
  constructor <;> linarith

/-- **C105**, finding.  What `GetDewPoint` of SHT1x gives is, up to 6/100 degree, the dew point for
the temperature measured without its fraction: `n` is the temperature in hundredths, divided by
100 towards zero. -/
theorem C105_sht1x_whole_degrees (h : Ieee F) (hL : LogOk L) (dur : Nat → Nat → Nat)
    (hd : Delays dur) (hc : Conforming script) (dev : Chip) (hdev : dev.phase = .idle) (out : Bool)
    (cs : List Call)
    (hH : 2 ≤ nextHumidity script (after script check F dur dev out cs) ∧
      nextHumidity script (after script check F dur dev out cs) ≤ 100) :
    ∃ (n : ℤ) (d x : ℝ), |n - 100 * nextTemperature script (after script check F dur dev out cs)| ≤ 1 ∧
      DewPoint 17.62 243.5 (Int.tdiv n 100 : ℤ)
        (nextHumidity script (after script check F dur dev out cs)) d ∧
      (sht1xDewPoint (floats F) (flog L) (chip script check) dur
        (after script check F dur dev out cs)).2 = some (some x) ∧
      |x - d| ≤ 6 / 100 := by
  have hs := rest_after script check (floats F) dur hd hc cs _ (rest_new script check dev hdev out)
  change Rest (after script check F dur dev out cs).world at hs
  obtain ⟨n, d, x, h1, -, -, h2, h3, h4⟩ := sht1x_answer script check h hL dur hd hc _ hs hH
  exact ⟨n, d, x, h1, h2, h3, h4⟩

/-- **C105.** Without a sensor `GetDewPoint` of SHT1x gives 0. -/
theorem C105_sht1x_no_sensor {σ α : Type} (A : Gas.Arith α) (log : α → α) (D : Device σ)
    (hD : ∀ s, D.pull s = false) (dur : Nat → Nat → Nat) (s : Sensor σ) :
    (sht1xDewPoint A log D dur s).2 = some (A.ofInt 0) := by
  have e := (C99_no_sensor A D hD dur s 0).2.2.1
  simp only [Sensor.call] at e
  unfold sht1xDewPoint
  generalize readHumidity D A dur s = p at e
  obtain ⟨s', r⟩ := p
  injection e with e
  dsimp only at e
  subst e
  rfl

end

end Verif.Sht
