import Verif.Sht.Dew
import Verif.I2c.Props71

/-!
# C105: dew points, SHT2x and SHT4x
-/

namespace Verif.Sht

open Verif.Gas

variable {F : Flt} {L : ℝ → ℝ}

theorem log_bounds_above {x : ℝ} (h1 : 1 ≤ x) (h2 : x ≤ 100) : |Real.log x| ≤ 5 := by
  have h0 : 0 < x := by linarith
  have a1 := Real.log_nonneg h1
  have a2 : Real.log x ≤ 5 := by
    rw [Real.log_le_iff_le_exp h0]
    refine h2.trans ?_
    have e5 : Real.exp 5 = Real.exp 1 ^ 5 := by rw [← Real.exp_nat_mul]; norm_num
    rw [e5]
    have := Real.exp_one_gt_d9
    calc (100 : ℝ) ≤ (2.7182818283 : ℝ) ^ 5 := by norm_num
      _ ≤ Real.exp 1 ^ 5 := by gcongr
  rw [abs_le]
  constructor <;> linarith

/-- What the formula gives if it gets hundredths of a degree and of a percent. -/
theorem hundredths_wrong (h : Ieee F) (hL : LogOk L) (T H : ℤ) (hT : 100 ≤ T ∧ T ≤ 12900)
    (hH : 100 ≤ H ∧ H ≤ 10000) (x : ℝ)
    (hx : shtDewPoint (floats F) (flog L) ((floats F).ofInt H) ((floats F).ofInt T) = some x) :
    (T : ℝ) / 100 + 50 ≤ x ∨ x ≤ -199 := by
  have hTR : (100 : ℝ) ≤ T ∧ (T : ℝ) ≤ 12900 := ⟨by exact_mod_cast hT.1, by exact_mod_cast hT.2⟩
  have hHR : (100 : ℝ) ≤ H ∧ (H : ℝ) ≤ 10000 := ⟨by exact_mod_cast hH.1, by exact_mod_cast hH.2⟩
  have eT : (floats F).ofInt T = some (T : ℝ) := by
    show some (F.rnd T) = _
    rw [rnd_int h T (by rw [abs_le]; omega)]
  have eH : (floats F).ofInt H = some (H : ℝ) := by
    show some (F.rnd H) = _
    rw [rnd_int h H (by rw [abs_le]; omega)]
  have x1 : 1 ≤ (H : ℝ) / 100 := by linarith [hHR.1]
  have lb := log_bounds_above x1 (by linarith [hHR.2])
  have l0 := Real.log_nonneg x1
  have l5 := (abs_le.1 lb).2
  have n2 := near_log hL (percent_near h (y := H) (by linarith [hHR.1])) (by linarith) (by norm_num) lb
    (e := 1 / 100000) (by norm_num)
  have la := near_lit h (1762 / 100) (r := 22 / 10000000) (by norm_num)
  have lb' := near_lit h (2435 / 10) (r := 3 / 100000) (by norm_num)
  have lT : Near (some (T : ℝ)) T 0 := ⟨T, rfl, by simp⟩
  have q1 := near_mul h 18 12900 la lT (by norm_num) (by rw [abs_le]; constructor <;> linarith)
    (r := 6 / 100) (by norm_num)
  have q2 := near_add h 13200 lb' lT (by
    push_cast; rw [abs_le]; constructor <;> linarith) (r := 17 / 10000) (by norm_num)
  have q3 := near_div_lit h 232200 340 q1 q2 (by
    push_cast; rw [abs_le]; constructor <;> linarith) (by push_cast; linarith) (by norm_num)
    (r := 1 / 100) (by norm_num)
  have hb0 : (0 : ℝ) < 2435 / 10 + T := by linarith
  have q0 : 0 ≤ 1762 / 100 * (T : ℝ) / (2435 / 10 + T) := div_nonneg (by linarith) hb0.le
  have q18 : 1762 / 100 * (T : ℝ) / (2435 / 10 + T) ≤ 18 := by
    rw [div_le_iff₀ hb0]; linarith
  have n3 := near_add h 24 n2 q3 (by
    push_cast; rw [abs_le]; constructor <;> linarith) (r := 2 / 100) (by norm_num)
  obtain ⟨g, eg, hg⟩ := n3
  push_cast at hg
  obtain ⟨g1, g2⟩ := abs_le.1 hg
  have hx' := hx
  unfold shtDewPoint at hx'
  rw [eT, eH] at hx'
  dsimp only at hx'
  rw [eg] at hx'
  have lg : Near (some g) g 0 := ⟨g, rfl, by simp⟩
  have gb : |g| ≤ 25 := by rw [abs_le]; constructor <;> linarith
  obtain ⟨u, eu, hu⟩ := near_mul h 244 25 lb' lg (by norm_num) gb (r := 2 / 1000) (by norm_num)
  obtain ⟨v, ev, hv⟩ := near_sub h 43 la lg (by
    push_cast; rw [abs_le] at *; constructor <;> linarith) (r := 1 / 100000) (by norm_num)
  rw [eu, ev] at hx'
  push_cast at hu hv
  obtain ⟨u1, -⟩ := abs_le.1 hu
  obtain ⟨v1, v2⟩ := abs_le.1 hv
  by_cases hv0 : v = 0
  · simp [floats, hv0] at hx'
  have hx2 : x = F.rnd (u / v) := by
    simp only [floats, Option.bind_some] at hx'
    rw [if_neg hv0] at hx'
    exact (Option.some.inj hx').symm
  rw [hx2]
  rcases lt_or_gt_of_ne hv0 with hneg | hpos
  · right
    have : u / v ≤ -200 := by
      rw [div_le_iff_of_neg hneg]
      linarith
    have h2 := h.mono _ _ this
    have h3 : F.rnd (-200) = -200 := by simpa using rnd_int h (-200) (by norm_num)
    linarith
  · left
    have key : (T : ℝ) / 100 + 51 ≤ u / v := by
      rw [le_div_iff₀ hpos]
      have f : 1762 / 100 * ((T : ℝ) / 100 + 51) / (2435 / 10 + ((T : ℝ) / 100 + 51)) + 1 / 10 ≤
          1762 / 100 * (T : ℝ) / (2435 / 10 + T) := by
        rw [div_add' _ _ _ (by linarith : 2435 / 10 + ((T : ℝ) / 100 + 51) ≠ 0),
          div_le_div_iff₀ (by linarith) hb0]
        nlinarith [hTR.1, hTR.2]
      have f2 : 1762 / 100 * ((T : ℝ) / 100 + 51) + 5 ≤ g * (2435 / 10 + ((T : ℝ) / 100 + 51)) := by
        have hp : (0 : ℝ) < 2435 / 10 + ((T : ℝ) / 100 + 51) := by linarith
        have f3 : 1762 / 100 * ((T : ℝ) / 100 + 51) / (2435 / 10 + ((T : ℝ) / 100 + 51)) ≤ g - 2 / 100 := by
          linarith
        rw [div_le_iff₀ hp] at f3
        nlinarith
      have f4 : ((T : ℝ) / 100 + 51) * v ≤ ((T : ℝ) / 100 + 51) * (1762 / 100 - g + 1 / 100000) :=
        mul_le_mul_of_nonneg_left (by linarith) (by linarith)
      nlinarith
    have h2 := h.mono _ _ key
    have h3 := h.err ((T : ℝ) / 100 + 51)
    rw [abs_of_pos (by linarith : 0 < (T : ℝ) / 100 + 51)] at h3
    have h4 := (abs_le.1 h3).1
    norm_num at h4
    linarith

/-- The temperatures of the sensor, in hundredths. -/
theorem sht2x_range (w : Word) : I2c.sht2xTemperature w ≤ 12900 := by
  have hv := w.isLt
  obtain ⟨h1, h2, -, -⟩ := I2c.C71_sht2x_values w
  by_cases hc : w ≠ 0#16 ∧ w.getLsbD 1 = false
  · have := (h1 hc).1
    omega
  · rw [h2 hc]; omega

/-- The dew point of air of at least 1 degree and 1 percent. -/
theorem dew_above {t y d : ℝ} (ht : 1 ≤ t) (hy : 1 ≤ y ∧ y ≤ 100)
    (hd : DewPoint 17.62 243.5 t y d) : -100 ≤ d ∧ d ≤ t := by
  have hk0 := dry_nonneg (a := 17.62) (b := 243.5) (by norm_num) (by norm_num) (by linarith [hy.1]) hy.2
  have l7 := log_bounds (x := y / 100) (by linarith [hy.1]) (by linarith [hy.2])
  have hk : -Real.log (y / 100) / (17.62 * 243.5) ≤ 2 / 1000 := by
    rw [div_le_iff₀ (by norm_num)]
    have := (abs_le.1 l7).1
    norm_num
    linarith
  refine ⟨?_, dew_le (by norm_num) (by norm_num) (by linarith) (by linarith [hy.1]) hy.2 hd⟩
  have hp : 0 ≤ -Real.log (y / 100) / (17.62 * 243.5) * (243.5 + t) := mul_nonneg hk0 (by linarith)
  have e := dew_value (by norm_num) (by norm_num) (by linarith) (by linarith [hy.1]) hd rfl (by linarith)
  have : 1435 / 10 ≤ (243.5 + t) / (1 + -Real.log (y / 100) / (17.62 * 243.5) * (243.5 + t)) := by
    rw [le_div_iff₀ (by linarith)]
    generalize -Real.log (y / 100) / (17.62 * 243.5) = k at *
    nlinarith
  linarith

/-- **C105**, finding.  `GetDewPoint` of SHT2x puts hundredths of a degree and of a percent into a
formula for degrees and percent.  For every pair of words with a temperature of 1 degree or more
and a humidity of 1 to 100 percent the result is not a number, or it is wrong by 50 degrees or
more. -/
theorem C105_sht2x_wrong (h : Ieee F) (hL : LogOk L) (hum temp : Word)
    (hT : 100 ≤ I2c.sht2xTemperature temp)
    (hH : 100 ≤ I2c.sht2xHumidity hum ∧ I2c.sht2xHumidity hum ≤ 10000) (d : ℝ)
    (hd : DewPoint 17.62 243.5 (I2c.sht2xTemperature temp / 100) (I2c.sht2xHumidity hum / 100) d)
    (x : ℝ) (hx : sht2xDewPoint (floats F) (flog L) hum temp = some x) : 50 ≤ |x - d| := by
  have r := hundredths_wrong h hL _ _ ⟨hT, sht2x_range temp⟩ hH x hx
  have hTR : (100 : ℝ) ≤ I2c.sht2xTemperature temp := by exact_mod_cast hT
  have hHR : (100 : ℝ) ≤ I2c.sht2xHumidity hum ∧ (I2c.sht2xHumidity hum : ℝ) ≤ 10000 :=
    ⟨by exact_mod_cast hH.1, by exact_mod_cast hH.2⟩
  have b := dew_above (by linarith) ⟨by linarith [hHR.1], by linarith [hHR.2]⟩ hd
  rcases r with r | r
  · rw [abs_of_nonneg] <;> linarith [b.2]
  · rw [abs_of_nonpos] <;> linarith [b.1]

/-- **C105**, finding.  `getDewPoint` of SHT4x always gives -1, which is wrong by 5 degrees or more
at 20 degrees or more and 50 percent or more. -/
theorem C105_sht4x_wrong (h : Ieee F) (t y d : ℝ) (ht : 20 ≤ t) (hy : 50 ≤ y ∧ y ≤ 100)
    (hd : DewPoint 17.62 243.5 t y d) :
    ∃ x, sht4xDewPoint (floats F) = some x ∧ 5 ≤ |x - d| := by
  have e1 : F.rnd ((1 : ℤ) : ℝ) = (1 : ℤ) := rnd_int h 1 (by norm_num)
  refine ⟨-1, by simp [sht4xDewPoint, floats] at e1 ⊢; exact e1, ?_⟩
  have hx0 : 0 < y / 100 := by linarith [hy.1]
  have hk0 := dry_nonneg (a := 17.62) (b := 243.5) (by norm_num) (by norm_num) (by linarith [hy.1]) hy.2
  have l1 : -1 ≤ Real.log (y / 100) := by
    have := Real.one_sub_inv_le_log_of_pos hx0
    have h2 : (y / 100)⁻¹ ≤ 2 := by
      rw [inv_le_comm₀ hx0 (by norm_num)]
      linarith [hy.1]
    linarith
  have hk : -Real.log (y / 100) / (17.62 * 243.5) ≤ 24 / 100000 := by
    rw [div_le_iff₀ (by norm_num)]
    norm_num
    linarith
  have hp : 0 ≤ -Real.log (y / 100) / (17.62 * 243.5) * (243.5 + t) := mul_nonneg hk0 (by linarith)
  have e := dew_value (by norm_num) (by norm_num) (by linarith) (by linarith [hy.1]) hd rfl (by linarith)
  have : 2475 / 10 ≤ (243.5 + t) / (1 + -Real.log (y / 100) / (17.62 * 243.5) * (243.5 + t)) := by
    rw [le_div_iff₀ (by linarith)]
    generalize -Real.log (y / 100) / (17.62 * 243.5) = k at *
    nlinarith
  rw [abs_of_nonpos] <;> linarith

/-- A sensor at 20.95 degrees and about 49 percent. -/
def almost21 : Nat → Reading := fun _ => ⟨6065, 1500, 100000, 300⟩

theorem almost21_ok : Conforming almost21 := fun _ => by simp [almost21]

theorem almost21_values (s : Sensor Chip) : nextTemperature almost21 s = 2095 / 100 ∧
    48 ≤ nextHumidity almost21 s ∧ nextHumidity almost21 s ≤ 50 := by
  unfold nextHumidity nextTemperature
  norm_num [almost21, exactHumidity]

/-- **C105**, finding.  A reading for which `GetDewPoint` of SHT1x is wrong by more than half a
degree, after every history of calls. -/
theorem C105_sht1x_half_degree (h : Ieee F) (hL : LogOk L) (check : List Byte → Byte)
    (dur : Nat → Nat → Nat) (hdl : Delays dur) (dev : Chip) (hdev : dev.phase = .idle) (out : Bool)
    (cs : List Call) (d : ℝ)
    (hd : DewPoint 17.62 243.5 (nextTemperature almost21 (after almost21 check F dur dev out cs))
      (nextHumidity almost21 (after almost21 check F dur dev out cs)) d) :
    ∃ x, (sht1xDewPoint (floats F) (flog L) (chip almost21 check) dur
      (after almost21 check F dur dev out cs)).2 = some (some x) ∧ x ≤ d - 1 / 2 := by
  obtain ⟨v1, v2, v3⟩ := almost21_values (after almost21 check F dur dev out cs)
  obtain ⟨n, d', x, hn, hd', ex, hx⟩ := C105_sht1x_whole_degrees almost21 check h hL dur hdl
    almost21_ok dev hdev out cs ⟨by linarith, by linarith⟩
  refine ⟨x, ex, ?_⟩
  rw [v1] at hd hn
  have hq : Int.tdiv n 100 = 20 := by
    obtain ⟨n1, n2⟩ := abs_le.1 hn
    have m1 : (2094 : ℝ) ≤ n := by linarith
    have m2 : (n : ℝ) ≤ 2096 := by linarith
    have m3 : (2094 : ℤ) ≤ n := by exact_mod_cast m1
    have m4 : n ≤ (2096 : ℤ) := by exact_mod_cast m2
    rw [Int.tdiv_eq_ediv_of_nonneg (by omega)]
    omega
  rw [hq] at hd'
  generalize nextHumidity almost21 (after almost21 check F dur dev out cs) = y at hd hd' v2 v3
  have hx0 : 0 < y / 100 := by linarith
  have hk0 := dry_nonneg (a := 17.62) (b := 243.5) (h := y) (by norm_num) (by norm_num) (by linarith)
    (by linarith)
  have l1 : -11 / 10 ≤ Real.log (y / 100) := by
    have := Real.one_sub_inv_le_log_of_pos hx0
    have h2 : (y / 100)⁻¹ ≤ 21 / 10 := by
      rw [inv_le_comm₀ hx0 (by norm_num)]
      norm_num
      linarith
    linarith
  have hk : -Real.log (y / 100) / (17.62 * 243.5) ≤ 26 / 100000 := by
    rw [div_le_iff₀ (by norm_num)]
    norm_num
    linarith
  generalize e : -Real.log (y / 100) / (17.62 * 243.5) = k at hk hk0
  have e1 := dew_value (by norm_num) (by norm_num) (by norm_num) (by linarith) hd e.symm (by nlinarith)
  have e2 := dew_value (by norm_num) (by norm_num) (by norm_num) (by linarith) hd' e.symm (by
    push_cast; nlinarith)
  have e3 : d - d' = (95 / 100) / ((1 + k * (243.5 + 2095 / 100)) * (1 + k * (243.5 + 20))) := by
    have : d - d' = (243.5 + d) - (243.5 + d') := by ring
    rw [this, e1, e2]
    push_cast
    have q1 : 1 + k * (243.5 + 2095 / 100) ≠ 0 := by nlinarith
    have q2 : 1 + k * (243.5 + 20) ≠ 0 := by nlinarith
    field_simp
    ring
  have e4 : 6 / 10 ≤ d - d' := by
    rw [e3, le_div_iff₀ (by nlinarith)]
    nlinarith
  have := (abs_le.1 hx).2
  linarith

/-! Concrete cases: binary32, and a logarithm that is rounded correctly. -/

noncomputable def log32 (x : ℝ) : ℝ := binary32.rnd (Real.log x)

theorem log32_ok : LogOk log32 := by
  intro x _
  refine (binary32_ieee.err _).trans ?_
  have := abs_nonneg (Real.log x)
  norm_num
  linarith

/-- 25 degrees and 50 percent. -/
example : ∃ d x, DewPoint 17.271 237.7 25 50 d ∧ d ≤ 25 ∧
    dhtDewPoint (floats binary32) (flog log32) (some 25) (some 50) = some x ∧ |x - d| ≤ 1 / 200 :=
  C105_dht binary32_ieee log32_ok 25 50 (by norm_num) (by norm_num)

/-- Saturated air: the dew point is the temperature. -/
example : ∃ x, dhtDewPoint (floats binary32) (flog log32) (some 10) (some 100) = some x ∧
    |x - 10| ≤ 1 / 200 := by
  obtain ⟨d, x, h1, -, h2, h3⟩ := C105_dht binary32_ieee log32_ok 10 100 (by norm_num) (by norm_num)
  have : d = 10 := C105_dew_point_unique (by norm_num) (by norm_num) h1
    ⟨by norm_num, by norm_num⟩
  rw [this] at h3
  exact ⟨x, h2, h3⟩

/-- Air of 25.3 degrees and 49.5 percent at a SHT1x. -/
example : ∃ x, (sht1xDewPoint (floats binary32) (flog log32) (chip room fun _ => 0#8) (fun _ d => d)
    (after room (fun _ => 0#8) binary32 (fun _ d => d) ⟨false, true, .idle, 0#8, 0⟩ true
      [.readTemperatureC])).2 = some (some x) := by
  obtain ⟨d, x, -, h, -⟩ := C105_sht1x_partial room (fun _ => 0#8) binary32_ieee log32_ok
    (fun _ d => d) (fun k => by dsimp only; omega) room_ok ⟨false, true, .idle, 0#8, 0⟩ rfl true
    [.readTemperatureC] (by
      unfold nextHumidity nextTemperature
      norm_num [room, exactHumidity])
  exact ⟨x, h⟩

/-- Words of a SHT2x: 0x6a3c is 26.06 degrees, 0x7c86 is 54.79 percent. -/
example : I2c.sht2xTemperature 0x6a3c#16 = 2606 ∧ I2c.sht2xHumidity 0x7c86#16 = 5479 := by
  decide +kernel

end Verif.Sht
