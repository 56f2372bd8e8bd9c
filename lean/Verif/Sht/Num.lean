import Verif.Sht.Spec
import Verif.Sht.Convert
import Verif.Gas.Num
import Verif.Gas.Binary32
import Mathlib.Tactic.Linarith
import Mathlib.Tactic.NormNum
import Mathlib.Tactic.Positivity
import Mathlib.Tactic.Ring

/-!
# C100: accuracy of the measured values

The float operations are those of `Verif.Gas.Spec`: every operation is rounded, by any rounding
function with the properties of IEEE 754 binary32.
-/

namespace Verif.Sht

open Verif.Gas

/-- The float is a number within `e` of `x`. -/
def Near (v : Option ℝ) (x e : ℝ) : Prop := ∃ y, v = some y ∧ |y - x| ≤ e

variable {F : Flt}

theorem rnd_near (h : Ieee F) {x y e b r : ℝ} (hxy : |y - x| ≤ e) (hb : |x| ≤ b)
    (hr : e + (b + e) / 2 ^ 23 + 1 / 2 ^ 100 ≤ r) : |F.rnd y - x| ≤ r := by
  have h1 := h.err y
  have h2 : |y| ≤ b + e := by
    calc |y| = |x + (y - x)| := by ring_nf
      _ ≤ |x| + |y - x| := abs_add_le _ _
      _ ≤ b + e := by linarith
  calc |F.rnd y - x| = |(F.rnd y - y) + (y - x)| := by ring_nf
    _ ≤ |F.rnd y - y| + |y - x| := abs_add_le _ _
    _ ≤ (|y| / 2 ^ 23 + 1 / 2 ^ 100) + e := by linarith
    _ ≤ ((b + e) / 2 ^ 23 + 1 / 2 ^ 100) + e := by
        have := div_le_div_of_nonneg_right h2 (by positivity : (0 : ℝ) ≤ 2 ^ 23)
        linarith
    _ ≤ r := by linarith

theorem near_int (h : Ieee F) (n : ℤ) (hn : |n| ≤ 2 ^ 24) : Near ((floats F).ofInt n) n 0 :=
  ⟨_, rfl, by rw [rnd_int h n hn]; simp⟩

theorem near_lit (h : Ieee F) (q : ℚ) {r : ℝ} (hr : |(q : ℝ)| / 2 ^ 23 + 1 / 2 ^ 100 ≤ r) :
    Near ((floats F).lit q) q r :=
  ⟨_, rfl, (h.err _).trans hr⟩

theorem near_neg {a : Option ℝ} {x e : ℝ} (ha : Near a x e) : Near ((floats F).neg a) (-x) e := by
  obtain ⟨y, rfl, hy⟩ := ha
  refine ⟨-y, rfl, ?_⟩
  rw [show -y - -x = -(y - x) by ring, abs_neg]
  exact hy

theorem near_add (h : Ieee F) {a b : Option ℝ} {x y e d r : ℝ} (s : ℝ) (ha : Near a x e)
    (hb : Near b y d) (hs : |x + y| ≤ s)
    (hr : (e + d) + (s + (e + d)) / 2 ^ 23 + 1 / 2 ^ 100 ≤ r) :
    Near ((floats F).add a b) (x + y) r := by
  obtain ⟨u, rfl, hu⟩ := ha
  obtain ⟨v, rfl, hv⟩ := hb
  refine ⟨_, rfl, rnd_near h ?_ hs hr⟩
  calc |u + v - (x + y)| = |(u - x) + (v - y)| := by ring_nf
    _ ≤ |u - x| + |v - y| := abs_add_le _ _
    _ ≤ e + d := by linarith

theorem near_sub (h : Ieee F) {a b : Option ℝ} {x y e d r : ℝ} (s : ℝ) (ha : Near a x e)
    (hb : Near b y d) (hs : |x - y| ≤ s)
    (hr : (e + d) + (s + (e + d)) / 2 ^ 23 + 1 / 2 ^ 100 ≤ r) :
    Near ((floats F).sub a b) (x - y) r := by
  obtain ⟨u, rfl, hu⟩ := ha
  obtain ⟨v, rfl, hv⟩ := hb
  refine ⟨_, rfl, rnd_near h ?_ hs hr⟩
  calc |u - v - (x - y)| = |(u - x) - (v - y)| := by ring_nf
    _ ≤ |u - x| + |v - y| := abs_sub _ _
    _ ≤ e + d := by linarith

theorem near_mul (h : Ieee F) {a b : Option ℝ} {x y e d r : ℝ} (s t : ℝ) (ha : Near a x e)
    (hb : Near b y d) (hs : |x| ≤ s) (ht : |y| ≤ t)
    (hr : (e * t + s * d + e * d) + (s * t + (e * t + s * d + e * d)) / 2 ^ 23 + 1 / 2 ^ 100 ≤ r) :
    Near ((floats F).mul a b) (x * y) r := by
  obtain ⟨u, rfl, hu⟩ := ha
  obtain ⟨v, rfl, hv⟩ := hb
  have he : 0 ≤ e := (abs_nonneg _).trans hu
  have hd : 0 ≤ d := (abs_nonneg _).trans hv
  have hs0 : 0 ≤ s := (abs_nonneg _).trans hs
  refine ⟨_, rfl, rnd_near h ?_ (b := s * t) ?_ hr⟩
  · calc |u * v - x * y| = |((u - x) * y + x * (v - y)) + (u - x) * (v - y)| := by ring_nf
      _ ≤ |(u - x) * y + x * (v - y)| + |(u - x) * (v - y)| := abs_add_le _ _
      _ ≤ (|(u - x) * y| + |x * (v - y)|) + |(u - x) * (v - y)| := by
          have := abs_add_le ((u - x) * y) (x * (v - y)); linarith
      _ = (|u - x| * |y| + |x| * |v - y|) + |u - x| * |v - y| := by
          rw [abs_mul, abs_mul, abs_mul]
      _ ≤ (e * t + s * d) + e * d := by
          have h1 := mul_le_mul hu ht (abs_nonneg _) he
          have h2 := mul_le_mul hs hv (abs_nonneg _) hs0
          have h3 := mul_le_mul hu hv (abs_nonneg _) he
          linarith
  · rw [abs_mul]
    exact mul_le_mul hs ht (abs_nonneg _) hs0

/-- Division by an exact positive number. -/
theorem near_div (h : Ieee F) {a : Option ℝ} {x e r : ℝ} (s : ℝ) (n : ℤ) (hn : |n| ≤ 2 ^ 24)
    (hp : 0 < n) (ha : Near a x e) (hs : |x| ≤ s)
    (hr : e / n + (s / n + e / n) / 2 ^ 23 + 1 / 2 ^ 100 ≤ r) :
    Near ((floats F).div a ((floats F).ofInt n)) (x / n) r := by
  obtain ⟨u, rfl, hu⟩ := ha
  have hn0 : (0 : ℝ) < n := by exact_mod_cast hp
  have hd : (floats F).div (some u) ((floats F).ofInt n) = some (F.rnd (u / n)) := by
    simp only [floats, rnd_int h n hn, Option.bind_some]
    rw [if_neg (ne_of_gt hn0)]
  rw [hd]
  refine ⟨_, rfl, rnd_near h ?_ (b := s / n) ?_ hr⟩
  · rw [← sub_div, abs_div, abs_of_pos hn0]
    exact div_le_div_of_nonneg_right hu hn0.le
  · rw [abs_div, abs_of_pos hn0]
    exact div_le_div_of_nonneg_right hs hn0.le

theorem Near.mono {v : Option ℝ} {x e d : ℝ} (h : Near v x e) (hd : e ≤ d) : Near v x d := by
  obtain ⟨y, rfl, hy⟩ := h
  exact ⟨y, rfl, hy.trans hd⟩

theorem near_congr {v : Option ℝ} {x y e : ℝ} (h : Near v x e) (hxy : x = y) : Near v y e := by
  rw [← hxy]; exact h

/-- Division by a positive number that is not exact. -/
theorem near_div_lit (h : Ieee F) {a b : Option ℝ} {x y e d r : ℝ} (s m : ℝ) (ha : Near a x e)
    (hb : Near b y d) (hs : |x| ≤ s) (hm : m ≤ y) (hd : d < m)
    (hr : (e + s / m * d) / (m - d) + (s / m + (e + s / m * d) / (m - d)) / 2 ^ 23 + 1 / 2 ^ 100 ≤ r) :
    Near ((floats F).div a b) (x / y) r := by
  obtain ⟨u, rfl, hu⟩ := ha
  obtain ⟨v, rfl, hv⟩ := hb
  have he : 0 ≤ e := (abs_nonneg _).trans hu
  have hd0 : 0 ≤ d := (abs_nonneg _).trans hv
  have hm0 : 0 < m := lt_of_le_of_lt hd0 hd
  have hy0 : 0 < y := lt_of_lt_of_le hm0 hm
  have hvm : m - d ≤ v := by
    have := (abs_le.1 hv).1
    linarith
  have hmd : 0 < m - d := by linarith
  have hv0 : 0 < v := lt_of_lt_of_le hmd hvm
  have hs0 : 0 ≤ s := (abs_nonneg _).trans hs
  have hdiv : (floats F).div (some u) (some v) = some (F.rnd (u / v)) := by
    simp only [floats, Option.bind_some]
    rw [if_neg (ne_of_gt hv0)]
  rw [hdiv]
  have hxy : |x / y| ≤ s / m := by
    rw [abs_div, abs_of_pos hy0]
    exact div_le_div₀ hs0 hs hm0 hm
  refine ⟨_, rfl, rnd_near h ?_ (b := s / m) hxy hr⟩
  have hq : u / v - x / y = ((u - x) - x / y * (v - y)) / v := by
    field_simp
    ring
  rw [hq, abs_div, abs_of_pos hv0]
  have h1 : |(u - x) - x / y * (v - y)| ≤ e + s / m * d := by
    calc |(u - x) - x / y * (v - y)| ≤ |u - x| + |x / y * (v - y)| := abs_sub _ _
      _ = |u - x| + |x / y| * |v - y| := by rw [abs_mul]
      _ ≤ e + s / m * d := by
          have := mul_le_mul hxy hv (abs_nonneg _) (div_nonneg hs0 hm0.le)
          linarith
  exact div_le_div₀ (by positivity) h1 hmd hvm

/-! ## Conversion to integers -/

theorem truncate_near {y x : ℝ} {e : ℝ} (h : |y - x| ≤ e) : |(truncate y : ℝ) - x| ≤ 1 + e := by
  obtain ⟨h1, h2⟩ := abs_le.1 h
  unfold truncate
  by_cases hy : y < 0
  · rw [if_pos hy]
    have f1 := Int.floor_le (-y)
    have f2 := Int.lt_floor_add_one (-y)
    rw [abs_le]
    push_cast
    constructor <;> linarith
  · rw [if_neg hy]
    have f1 := Int.floor_le y
    have f2 := Int.lt_floor_add_one y
    rw [abs_le]
    constructor <;> linarith

/-- Near a whole number, the result is that number or next to it. -/
theorem truncate_int {y : ℝ} {n : ℤ} (h : |y - n| ≤ 1 / 2) : |truncate y - n| ≤ 1 := by
  have h1 := truncate_near h
  obtain ⟨a, b⟩ := abs_le.1 h1
  have h2 : ((truncate y - n : ℤ) : ℝ) < 2 := by push_cast; linarith
  have h3 : (-2 : ℝ) < ((truncate y - n : ℤ) : ℝ) := by push_cast; linarith
  have h4 : truncate y - n < 2 := by exact_mod_cast h2
  have h5 : -2 < truncate y - n := by exact_mod_cast h3
  rw [abs_le]
  omega

theorem truncate_nonneg {y : ℝ} (h : -1 < y) : 0 ≤ truncate y := by
  unfold truncate
  by_cases hy : y < 0
  · rw [if_pos hy]
    have : ⌊-y⌋ < 1 := Int.floor_lt.2 (by push_cast; linarith)
    omega
  · rw [if_neg hy]
    exact Int.floor_nonneg.2 (not_lt.1 hy)

theorem truncate_neg {y : ℝ} (h : y ≤ -1) : truncate y < 0 := by
  unfold truncate
  rw [if_pos (by linarith)]
  have : 1 ≤ ⌊-y⌋ := Int.le_floor.2 (by push_cast; linarith)
  omega

theorem toInt_some (y : ℝ) : (floats F).toInt (some y) = truncate y := rfl

/-! ## SHT1x -/

theorem raw_bounds (raw : Nat) (n : Nat) (h : raw < n) : (0 : ℝ) ≤ raw ∧ (raw : ℝ) ≤ n :=
  ⟨Nat.cast_nonneg _, by exact_mod_cast h.le⟩

theorem celsius_near (h : Ieee F) (raw : Nat) (hr : raw < 16384) :
    Near (celsius (floats F) raw) (raw / 100 - 397 / 10) (1 / 10000) := by
  obtain ⟨h0, hraw⟩ := raw_bounds raw _ hr
  push_cast at hraw
  have a1 := near_int h (raw : ℤ) (by rw [abs_of_nonneg (by omega)]; omega)
  have a2 := near_lit h (1 / 100) (r := 1 / 800000000) (by norm_num)
  have a3 := near_neg (F := F) (near_lit h (397 / 10) (r := 1 / 100000) (by norm_num))
  have a4 := near_mul h 16384 (1 / 100) a1 a2 (by rw [abs_of_nonneg] <;> push_cast <;> linarith)
    (by norm_num) (r := 5 / 100000) (by norm_num)
  have a5 := near_add h 200 a4 a3 (by
    push_cast; rw [abs_le]; constructor <;> linarith) (r := 1 / 10000) (by norm_num)
  refine near_congr a5 ?_
  push_cast
  ring

theorem fahrenheit_near (h : Ieee F) (raw : Nat) (hr : raw < 16384) :
    Near (fahrenheit (floats F) raw) (18 * raw / 1000 - 397 / 10) (1 / 1000) := by
  obtain ⟨h0, hraw⟩ := raw_bounds raw _ hr
  push_cast at hraw
  have a1 := near_int h (raw : ℤ) (by rw [abs_of_nonneg (by omega)]; omega)
  have a2 := near_lit h (18 / 1000) (r := 1 / 400000000) (by norm_num)
  have a3 := near_neg (F := F) (near_lit h (397 / 10) (r := 1 / 100000) (by norm_num))
  have a4 := near_mul h 16384 (18 / 1000) a1 a2 (by rw [abs_of_nonneg] <;> push_cast <;> linarith)
    (by norm_num) (r := 1 / 10000) (by norm_num)
  have a5 := near_add h 300 a4 a3 (by
    push_cast; rw [abs_le]; constructor <;> linarith) (r := 1 / 1000) (by norm_num)
  refine near_congr a5 ?_
  push_cast
  ring

/-- The temperature in hundredths of a degree. -/
theorem hundredths_near (h : Ieee F) (raw : Nat) (hr : raw < 16384) :
    Near ((floats F).mul (celsius (floats F) raw) ((floats F).ofInt 100))
      (((raw : ℤ) - 3970 : ℤ) : ℝ) (1 / 50) := by
  obtain ⟨h0, hraw⟩ := raw_bounds raw _ hr
  push_cast at hraw
  have a1 := near_mul h 200 100 (celsius_near h raw hr) (near_int h 100 (by norm_num)) (by
    rw [abs_le]; constructor <;> linarith) (by norm_num) (r := 1 / 50) (by norm_num)
  refine near_congr a1 ?_
  push_cast
  ring

/-- The relative humidity the data sheet gives for the temperature `t` and a raw value. -/
noncomputable def exactHumidity (t : ℝ) (raw : Nat) : ℝ :=
  (t - 25) * (1 / 100 + 8 / 100000 * raw) +
    (-20468 / 10000 + 367 / 10000 * raw - 15955 / 10000000000 * raw ^ 2)

theorem humidity_near (h : Ieee F) (rawT raw : Nat) (hT : rawT < 16384) (hr : raw < 4096) :
    Near (humidityOf (floats F) (celsius (floats F) rawT) raw)
      (exactHumidity (rawT / 100 - 397 / 10) raw) (1 / 1000) := by
  obtain ⟨h0, hraw⟩ := raw_bounds raw _ hr
  obtain ⟨t0, htraw⟩ := raw_bounds rawT _ hT
  push_cast at hraw htraw
  have hsq : (raw : ℝ) * raw ≤ 4096 * 4096 := mul_le_mul hraw hraw h0 (by norm_num)
  have hsq0 : (0 : ℝ) ≤ (raw : ℝ) * raw := mul_nonneg h0 h0
  have v := near_int h (raw : ℤ) (by rw [abs_of_nonneg (by omega)]; omega)
  have hv : |(((raw : ℤ) : ℤ) : ℝ)| ≤ 4096 := by
    rw [abs_of_nonneg] <;> push_cast <;> linarith
  have t := near_sub h 150 (celsius_near h rawT hT) (near_int h 25 (by norm_num)) (by
    push_cast; rw [abs_le]; constructor <;> linarith) (r := 12 / 100000) (by norm_num)
  have k1 := near_lit h (1 / 100) (r := 1 / 800000000) (by norm_num)
  have k2 := near_lit h (8 / 100000) (r := 1 / 100000000000) (by norm_num)
  have k3 := near_mul h (8 / 100000) 4096 k2 v (by norm_num) hv (r := 1 / 10000000) (by norm_num)
  have k4 := near_add h 1 k1 k3 (by
    push_cast; rw [abs_le]; constructor <;> linarith) (r := 3 / 10000000) (by norm_num)
  have k5 := near_mul h 150 1 t k4 (by
    push_cast; rw [abs_le]; constructor <;> linarith) (by
    push_cast; rw [abs_le]; constructor <;> linarith) (r := 2 / 10000) (by norm_num)
  have l1 := near_neg (F := F) (near_lit h (20468 / 10000) (r := 1 / 1000000) (by norm_num))
  have l2 := near_lit h (367 / 10000) (r := 5 / 1000000000) (by norm_num)
  have l3 := near_mul h (367 / 10000) 4096 l2 v (by norm_num) hv (r := 5 / 100000) (by norm_num)
  have l4 := near_add h 200 l1 l3 (by
    push_cast; rw [abs_le]; constructor <;> linarith) (r := 1 / 10000) (by norm_num)
  have m1 := near_neg (F := F) (near_lit h (15955 / 10000000000) (r := 2 / 10000000000000) (by norm_num))
  have m2 := near_mul h (2 / 1000000) 4096 m1 v (by norm_num) hv (r := 4 / 1000000000) (by norm_num)
  have m3 := near_mul h (1 / 100) 4096 m2 v (by
    push_cast; rw [abs_le]; constructor <;> linarith) hv (r := 5 / 100000) (by norm_num)
  have n1 := near_add h 300 l4 m3 (by
    push_cast; rw [abs_le]; constructor <;> nlinarith) (r := 2 / 10000) (by norm_num)
  have n2 := near_add h 1000 k5 n1 (by
    push_cast
    have b1 : |((rawT : ℝ) / 100 - 397 / 10 - 25) * (1 / 100 + 8 / 100000 * (raw : ℝ))| ≤ 150 * 1 := by
      rw [abs_mul]
      refine mul_le_mul ?_ ?_ (abs_nonneg _) (by norm_num)
      · rw [abs_le]; constructor <;> linarith
      · rw [abs_le]; constructor <;> linarith
    obtain ⟨c1, c2⟩ := abs_le.1 b1
    rw [abs_le]
    constructor <;> nlinarith) (r := 1 / 1000) (by norm_num)
  refine near_congr n2 ?_
  unfold exactHumidity
  push_cast
  ring

theorem exactHumidity_bounds (rawT raw : Nat) (hT : rawT < 16384) (hr : raw < 4096) :
    |exactHumidity (rawT / 100 - 397 / 10) raw| ≤ 400 := by
  obtain ⟨h0, hraw⟩ := raw_bounds raw _ hr
  obtain ⟨t0, htraw⟩ := raw_bounds rawT _ hT
  push_cast at hraw htraw
  have hsq : (raw : ℝ) * raw ≤ 4096 * 4096 := mul_le_mul hraw hraw h0 (by norm_num)
  have hsq0 : (0 : ℝ) ≤ (raw : ℝ) * raw := mul_nonneg h0 h0
  have b1 : |((rawT : ℝ) / 100 - 397 / 10 - 25) * (1 / 100 + 8 / 100000 * (raw : ℝ))| ≤ 150 * 1 := by
    rw [abs_mul]
    refine mul_le_mul ?_ ?_ (abs_nonneg _) (by norm_num)
    · rw [abs_le]; constructor <;> linarith
    · rw [abs_le]; constructor <;> linarith
  obtain ⟨c1, c2⟩ := abs_le.1 b1
  unfold exactHumidity
  rw [abs_le]
  constructor <;> nlinarith

/-! ## The property -/

theorem sht1x_temperature (h : Ieee F) (raw : Nat) (hr : raw < 2 ^ 14) :
    Near (celsius (floats F) raw) (raw / 100 - 397 / 10) (1 / 1000) ∧
    ∃ n : ℤ, toInt16 (floats F) ((floats F).mul (celsius (floats F) raw) ((floats F).ofInt 100)) =
      some n ∧ |n - ((raw : ℤ) - 3970)| ≤ 1 := by
  have hr' : raw < 16384 := hr
  refine ⟨(celsius_near h raw hr').mono (by norm_num), ?_⟩
  obtain ⟨y, e, hy⟩ := hundredths_near h raw hr'
  have ht := truncate_int (hy.trans (by norm_num))
  refine ⟨truncate y, ?_, ht⟩
  rw [e]
  unfold toInt16
  rw [toInt_some, if_pos]
  rw [abs_le] at ht
  omega

theorem getTemperature_of (h : Ieee F) (raw : Nat) (hr : raw < 2 ^ 14) (h0 : 3970 ≤ raw) :
    ∃ n : ℤ, (toUInt16 (floats F) ((floats F).mul (celsius (floats F) raw) ((floats F).ofInt 100))).map
        (fun n => (BitVec.ofInt 16 n).toInt) = some n ∧ |n - ((raw : ℤ) - 3970)| ≤ 1 := by
  obtain ⟨y, e, hy⟩ := hundredths_near h raw hr
  have ht := truncate_int (hy.trans (by norm_num))
  have hn : 0 ≤ truncate y := by
    apply truncate_nonneg
    have := (abs_le.1 hy).1
    have h1 : (0 : ℝ) ≤ (((raw : ℤ) - 3970 : ℤ) : ℝ) := by exact_mod_cast (by omega)
    linarith
  refine ⟨truncate y, ?_, ht⟩
  rw [abs_le] at ht
  rw [e]
  unfold toUInt16
  rw [toInt_some, if_pos (by omega)]
  show some _ = _
  congr 1
  show (BitVec.ofInt 16 (truncate y)).toInt = _
  rw [BitVec.toInt_ofInt]
  apply Int.bmod_eq_of_le <;> omega

theorem getTemperature_undefined (h : Ieee F) (raw : Nat) (h0 : raw < 3969) :
    toUInt16 (floats F) ((floats F).mul (celsius (floats F) raw) ((floats F).ofInt 100)) = none := by
  obtain ⟨y, e, hy⟩ := hundredths_near h raw (by omega)
  have hn : truncate y < 0 := by
    apply truncate_neg
    have := (abs_le.1 hy).2
    have h1 : (((raw : ℤ) - 3970 : ℤ) : ℝ) ≤ ((-2 : ℤ) : ℝ) := Int.cast_le.2 (by omega)
    push_cast at h1 this
    linarith
  rw [e]
  unfold toUInt16
  rw [toInt_some, if_neg (by omega)]

/-- The humidity times 100. -/
theorem humidity_hundredths (h : Ieee F) (rawT raw : Nat) (hT : rawT < 16384) (hr : raw < 4096) :
    Near ((floats F).mul (humidityOf (floats F) (celsius (floats F) rawT) raw) ((floats F).ofInt 100))
      (exactHumidity (rawT / 100 - 397 / 10) raw * 100) (1 / 5) := by
  have a := near_mul h 400 100 (humidity_near h rawT raw hT hr) (near_int h 100 (by norm_num))
    (exactHumidity_bounds rawT raw hT hr) (by norm_num) (r := 1 / 5) (by norm_num)
  refine near_congr a ?_
  push_cast
  ring

theorem getHumidity_of (h : Ieee F) (rawT raw : Nat) (hT : rawT < 2 ^ 14) (hr : raw < 2 ^ 12)
    (h0 : 0 ≤ exactHumidity (rawT / 100 - 397 / 10) raw) :
    ∃ n : ℤ, toUInt16 (floats F) ((floats F).mul (humidityOf (floats F) (celsius (floats F) rawT) raw)
        ((floats F).ofInt 100)) = some n ∧
      |(n : ℝ) - 100 * exactHumidity (rawT / 100 - 397 / 10) raw| ≤ 12 / 10 := by
  obtain ⟨y, e, hy⟩ := humidity_hundredths h rawT raw hT hr
  have hb := exactHumidity_bounds rawT raw hT hr
  generalize exactHumidity (rawT / 100 - 397 / 10) raw = x at *
  have ht := truncate_near hy
  have hn : 0 ≤ truncate y := truncate_nonneg (by have := (abs_le.1 hy).1; linarith)
  have hx : truncate y ≤ 65535 := by
    have h1 := (abs_le.1 ht).2
    have h2 := (abs_le.1 hb).2
    have h3 : (truncate y : ℝ) ≤ 65535 := by linarith
    exact_mod_cast h3
  refine ⟨truncate y, ?_, ?_⟩
  · rw [e]
    unfold toUInt16
    rw [toInt_some, if_pos ⟨hn, hx⟩]
  · rw [mul_comm 100 x]
    exact ht.trans (by norm_num)

theorem getHumidity_undefined (h : Ieee F) (rawT raw : Nat) (hT : rawT < 2 ^ 14)
    (hr : raw < 2 ^ 12) (h0 : exactHumidity (rawT / 100 - 397 / 10) raw ≤ -2 / 100) :
    toUInt16 (floats F) ((floats F).mul (humidityOf (floats F) (celsius (floats F) rawT) raw)
      ((floats F).ofInt 100)) = none := by
  obtain ⟨y, e, hy⟩ := humidity_hundredths h rawT raw hT hr
  have hn : truncate y < 0 := by
    apply truncate_neg
    have := (abs_le.1 hy).2
    linarith
  rw [e]
  unfold toUInt16
  rw [toInt_some, if_neg (by omega)]

variable (script : Nat → Reading)

/-- **C100.** SHT1x: `readTemperatureC` answers `raw / 100 - 39.7` degrees up to 1/1000, where `raw`
is what the sensor measured, and `getLastTemperature` then gives that in hundredths up to 1. -/
theorem C100_sht1x_temperature (h : Ieee F) (hc : Conforming script) (v : View) :
    ∃ x n, v.call (floats F) script .readTemperatureC =
        ({ v with count := v.count + 1, lastTemperature := some n }, .float (some (some x))) ∧
      |x - ((script v.count).temperature / 100 - 397 / 10)| ≤ 1 / 1000 ∧
      |n - ((script v.count).temperature - 3970)| ≤ 1 := by
  obtain ⟨⟨x, e, hx⟩, n, e', hn⟩ := sht1x_temperature h (script v.count).temperature (hc v.count).1
  refine ⟨x, n, ?_, hx, hn⟩
  simp only [View.call]
  rw [e', e]

/-- **C100.** SHT1x: `readHumidity` answers the relative humidity of the data sheet for the two
measured values, up to 1/1000. -/
theorem C100_sht1x_humidity (h : Ieee F) (hc : Conforming script) (v : View) :
    ∃ x, (v.call (floats F) script .readHumidity).2 = .float (some (some x)) ∧
      |x - exactHumidity ((script v.count).temperature / 100 - 397 / 10)
        (script (v.count + 1)).humidity| ≤ 1 / 1000 := by
  obtain ⟨x, e, hx⟩ := humidity_near h _ _ (hc v.count).1 (hc (v.count + 1)).2.1
  exact ⟨x, congrArg (fun z => Answer.float (some z)) e, hx⟩

/-- **C100 (part).** SHT1x: `GetTemperature` answers the measured temperature in hundredths of a
degree, up to 1, if it is not below zero.  Missing: below zero the answer is undefined, see
`C100_getTemperature_below_zero`. -/
theorem C100_getTemperature_partial (h : Ieee F) (hc : Conforming script) (v : View)
    (h0 : 3970 ≤ (script v.count).temperature) :
    ∃ n : ℤ, (v.call (floats F) script .getTemperature).2 = .int (some n) ∧
      |n - ((script v.count).temperature - 3970)| ≤ 1 := by
  obtain ⟨n, e, hn⟩ := getTemperature_of h (script v.count).temperature (hc v.count).1 h0
  exact ⟨n, congrArg Answer.int e, hn⟩

/-- **C100**, finding.  Below -0.01 degrees `GetTemperature` converts a negative float to `uint16_t`,
which is undefined. -/
theorem C100_getTemperature_below_zero (h : Ieee F) (v : View)
    (h0 : (script v.count).temperature < 3969) :
    (v.call (floats F) script .getTemperature).2 = .int none := by
  have := getTemperature_undefined h (script v.count).temperature h0
  show Answer.int _ = _
  rw [this]
  rfl

/-- **C100 (part).** SHT1x: `GetHumidity` answers the humidity in hundredths of a percent, up to 1.2,
if it is not below zero.  Missing: below zero, see `C100_getHumidity_below_zero`. -/
theorem C100_getHumidity_partial (h : Ieee F) (hc : Conforming script) (v : View)
    (h0 : 0 ≤ exactHumidity ((script v.count).temperature / 100 - 397 / 10)
      (script (v.count + 1)).humidity) :
    ∃ n : ℤ, (v.call (floats F) script .getHumidity).2 = .int (some n) ∧
      |(n : ℝ) - 100 * exactHumidity ((script v.count).temperature / 100 - 397 / 10)
        (script (v.count + 1)).humidity| ≤ 12 / 10 := by
  obtain ⟨n, e, hn⟩ := getHumidity_of h _ _ (hc v.count).1 (hc (v.count + 1)).2.1 h0
  exact ⟨n, congrArg Answer.int e, hn⟩

/-- **C100**, finding.  If the formula gives -0.02 percent or less, which it does for small raw
values, the conversion to `uint16_t` is undefined. -/
theorem C100_getHumidity_below_zero (h : Ieee F) (hc : Conforming script) (v : View)
    (h0 : exactHumidity ((script v.count).temperature / 100 - 397 / 10)
      (script (v.count + 1)).humidity ≤ -2 / 100) :
    (v.call (floats F) script .getHumidity).2 = .int none :=
  congrArg Answer.int (getHumidity_undefined h _ _ (hc v.count).1 (hc (v.count + 1)).2.1 h0)

/-- **C100**, finding.  The Fahrenheit value of the SHT1x uses the offset of the Celsius scale: it is
0.24 degrees below the Fahrenheit value of the Celsius temperature. -/
theorem C100_sht1x_fahrenheit (h : Ieee F) (hc : Conforming script) (v : View) :
    ∃ c f, (v.call (floats F) script .readTemperatureC).2 = .float (some (some c)) ∧
      (v.call (floats F) script .readTemperatureF).2 = .float (some (some f)) ∧
      |f - (c * 9 / 5 + 32 - 24 / 100)| ≤ 1 / 100 := by
  obtain ⟨c, e1, h1⟩ := celsius_near h _ (hc v.count).1
  obtain ⟨f, e2, h2⟩ := fahrenheit_near h _ (hc v.count).1
  refine ⟨c, f, congrArg (fun z => Answer.float (some z)) e1,
    congrArg (fun z => Answer.float (some z)) e2, ?_⟩
  rw [abs_le] at *
  constructor <;> linarith

/-- **C100.** SHT4x: temperature and humidity are those of the data sheet up to 1/1000. -/
theorem C100_sht4x (h : Ieee F) (ticks : Nat) (ht : ticks < 2 ^ 16) :
    Near (sht4xCelsius (floats F) ticks) (175 * ticks / 65535 - 45) (1 / 1000) ∧
    Near (sht4xPercentRH (floats F) ticks) (125 * ticks / 65535 - 6) (1 / 1000) := by
  have h0 : (0 : ℝ) ≤ ticks := Nat.cast_nonneg _
  have hraw : (ticks : ℝ) ≤ 65535 := by exact_mod_cast (by omega : ticks ≤ 65535)
  have a1 := near_int h (ticks : ℤ) (by rw [abs_of_nonneg (by omega)]; omega)
  have b1 : |(((ticks : ℤ) : ℤ) : ℝ)| ≤ 65535 := by rw [abs_of_nonneg] <;> push_cast <;> linarith
  constructor
  · have a2 := near_mul h 65535 175 a1 (near_int h 175 (by norm_num)) b1 (by norm_num) (r := 15 / 10)
      (by norm_num)
    have a3 := near_div h (65535 * 175) 65535 (by norm_num) (by norm_num) a2 (by
      push_cast; rw [abs_of_nonneg] <;> linarith) (r := 1 / 20000) (by norm_num)
    have a4 := near_sub h 200 a3 (near_int h 45 (by norm_num)) (by
      push_cast; rw [abs_le]; constructor <;> linarith) (r := 1 / 1000) (by norm_num)
    refine near_congr a4 ?_
    push_cast
    ring
  · have a2 := near_mul h 65535 125 a1 (near_int h 125 (by norm_num)) b1 (by norm_num) (r := 15 / 10)
      (by norm_num)
    have a3 := near_div h (65535 * 125) 65535 (by norm_num) (by norm_num) a2 (by
      push_cast; rw [abs_of_nonneg] <;> linarith) (r := 1 / 20000) (by norm_num)
    have a4 := near_sub h 200 a3 (near_int h 6 (by norm_num)) (by
      push_cast; rw [abs_le]; constructor <;> linarith) (r := 1 / 1000) (by norm_num)
    refine near_congr a4 ?_
    push_cast
    ring

/-- What the bytes of a DHT mean: tenths with a sign bit (DHT22), whole units with a sign bit
(DHT11). -/
noncomputable def dhtValue (dht22 signed : Bool) (hi lo : Byte) : ℝ :=
  let neg := signed && decide (128 ≤ hi.toNat)
  let hi' := if neg then hi.toNat - 128 else hi.toNat
  let size : ℝ := if dht22 then (256 * hi' + lo.toNat : ℕ) / 10 else (hi' : ℕ)
  if neg then -size else size

theorem hundredth_near (h : Ieee F) (n : ℤ) (hn : |n| ≤ 1000000) :
    Near ((floats F).div ((floats F).ofInt n) ((floats F).ofInt 100)) (n / 100) (1 / 500) := by
  have b : |(n : ℝ)| ≤ 1000000 := by exact_mod_cast hn
  have := near_div h 1000000 100 (by norm_num) (by norm_num) (near_int h n (by
    refine hn.trans (by norm_num))) b (r := 1 / 500) (by norm_num)
  exact near_congr this (by push_cast; rfl)

/-- **C100.** DHT11 and DHT22: temperature and humidity are those the bytes encode up to 1/500, for
all bytes. -/
theorem C100_dht (h : Ieee F) (dht22 : Bool) (d0 d1 d2 d3 : Byte) :
    Near (dhtTemperature (floats F) dht22 d2 d3) (dhtValue dht22 true d2 d3) (1 / 500) ∧
    Near (dhtHumidity (floats F) dht22 d0 d1) (dhtValue dht22 false d0 d1) (1 / 500) := by
  have h0 := d0.isLt
  have h1 := d1.isLt
  have h2 := d2.isLt
  have h3 := d3.isLt
  constructor
  · unfold dhtTemperature dhtValue
    refine near_congr (hundredth_near h _ ?_) ?_
    · rw [abs_le]
      cases dht22 <;> by_cases hs : d2.toNat ≥ 128 <;> simp [hs] <;> omega
    · cases dht22 <;> by_cases hs : d2.toNat ≥ 128
      · have e : d2.toNat % 128 = d2.toNat - 128 := by omega
        simp only [hs, e, if_true, if_false, Bool.true_and, decide_true, Bool.false_eq_true]
        push_cast
        ring
      · simp only [hs, if_false, Bool.true_and, decide_false, Bool.false_eq_true]
        push_cast
        ring
      · have e : d2.toNat % 128 = d2.toNat - 128 := by omega
        simp only [hs, e, if_true, Bool.true_and, decide_true]
        push_cast
        ring
      · simp only [hs, if_true, if_false, Bool.true_and, decide_false, Bool.false_eq_true]
        push_cast
        ring
  · unfold dhtHumidity dhtValue
    refine near_congr (hundredth_near h _ ?_) ?_
    · rw [abs_le]
      cases dht22 <;> simp <;> omega
    · cases dht22
      · simp
      · simp
        ring

/-- **C100.** DS18x20: the temperature is exactly a sixteenth of the raw value. -/
theorem C100_ds18x20 (h : Ieee F) (raw : Int) (hr : |raw| ≤ 2 ^ 15) :
    ds18x20Temperature (floats F) raw = some ((raw : ℝ) / 16) := by
  have hr' : |raw| ≤ 2 ^ 24 := hr.trans (by norm_num)
  unfold ds18x20Temperature
  simp only [floats, rnd_int h raw hr', Option.bind_some]
  rw [rnd_int h 16 (by norm_num)]
  have := h.exact raw 4 hr' (by norm_num)
  have e : (2 : ℝ) ^ 4 = 16 := by norm_num
  rw [e] at this
  norm_num
  exact this

/-- **C100.** Fahrenheit and Kelvin: for every temperature up to 1000 degrees the converted value is
exact up to 1/1000. -/
theorem C100_units (h : Ieee F) (c : ℝ) (hc : |c| ≤ 1000) :
    Near (toFahrenheit (floats F) (some c)) (c * 9 / 5 + 32) (1 / 1000) ∧
    Near (toKelvin (floats F) (some c)) (c + 27315 / 100) (1 / 1000) := by
  have a0 : Near (some c) c 0 := ⟨c, rfl, by simp⟩
  obtain ⟨c1, c2⟩ := abs_le.1 hc
  constructor
  · have a1 := near_mul h 1000 9 a0 (near_int h 9 (by norm_num)) hc (by norm_num) (r := 11 / 10000)
      (by norm_num)
    have a2 := near_div h 9000 5 (by norm_num) (by norm_num) a1 (by
      push_cast; rw [abs_le]; constructor <;> linarith) (r := 5 / 10000) (by norm_num)
    have a3 := near_add h 2000 a2 (near_int h 32 (by norm_num)) (by
      push_cast; rw [abs_le]; constructor <;> linarith) (r := 1 / 1000) (by norm_num)
    exact near_congr a3 (by push_cast; ring)
  · have a1 := near_add h 2000 a0 (near_lit h (27315 / 100) (r := 1 / 10000) (by norm_num)) (by
      push_cast; rw [abs_le]; constructor <;> linarith) (r := 1 / 1000) (by norm_num)
    exact near_congr a1 (by push_cast; ring)

/-- **C100.** BH1750: the light level is `raw / 1.2 * 69 / mtreg`, half of that in the modes with
half the step, up to 1/10 lux, for every raw value and every measurement time the driver accepts. -/
theorem C100_bh1750 (h : Ieee F) (raw mtreg : Nat) (mode2 : Bool) (hraw : raw < 2 ^ 16)
    (hm : 31 ≤ mtreg) (hm' : mtreg ≤ 254) :
    Near (bh1750Lux (floats F) raw mtreg mode2)
      (raw / (12 / 10) * (69 / mtreg) / (if mode2 then 2 else 1)) (1 / 10) := by
  have h0 : (0 : ℝ) ≤ raw := Nat.cast_nonneg _
  have hr : (raw : ℝ) ≤ 65535 := by exact_mod_cast (by omega : raw ≤ 65535)
  have a1 := near_int h (raw : ℤ) (by rw [abs_of_nonneg (by omega)]; omega)
  have b1 : |(((raw : ℤ) : ℤ) : ℝ)| ≤ 65535 := by rw [abs_of_nonneg] <;> push_cast <;> linarith
  have hm0 : (31 : ℝ) ≤ mtreg := by exact_mod_cast hm
  have hpos : (0 : ℝ) < mtreg := by linarith
  have hfac : (69 : ℝ) / mtreg ≤ 69 / 31 := div_le_div_of_nonneg_left (by norm_num) (by norm_num) hm0
  have hfac0 : (0 : ℝ) ≤ 69 / mtreg := by positivity
  have key : Near (if mtreg ≠ 69 then (floats F).mul ((floats F).ofInt raw)
        ((floats F).div ((floats F).ofInt 69) ((floats F).ofInt mtreg)) else (floats F).ofInt raw)
      (raw * (69 / mtreg)) (4 / 100) := by
    by_cases hm69 : mtreg = 69
    · rw [if_neg (by simpa using hm69), hm69]
      refine near_congr (a1.mono (by norm_num)) ?_
      push_cast
      norm_num
    · rw [if_pos (by simpa using hm69)]
      have q := near_div_lit h 69 31 (near_int h 69 (by norm_num)) (near_int h (mtreg : ℤ) (by
        rw [abs_of_nonneg (by omega)]; omega)) (by norm_num) (by push_cast; exact hm0) (by norm_num)
        (r := 27 / 100000000) (by norm_num)
      have p := near_mul h 65535 (69 / 31) a1 q b1 (by
        push_cast; rw [abs_of_nonneg hfac0]; exact hfac) (r := 4 / 100) (by norm_num)
      exact near_congr p (by push_cast; ring)
  have hb : (raw : ℝ) * (69 / mtreg) ≤ 65535 * (69 / 31) := mul_le_mul hr hfac hfac0 (by norm_num)
  have hb0 : 0 ≤ (raw : ℝ) * (69 / mtreg) := mul_nonneg h0 hfac0
  have l := near_lit h (12 / 10) (r := 15 / 100000000) (by norm_num)
  unfold bh1750Lux
  cases mode2
  · have d := near_div_lit h (65535 * (69 / 31)) (119 / 100) key l (by
      rw [abs_of_nonneg hb0]; exact hb) (by norm_num) (by norm_num) (r := 1 / 10) (by norm_num)
    refine near_congr d ?_
    push_cast
    simp
    ring
  · have d2 := near_div h (65535 * (69 / 31)) 2 (by norm_num) (by norm_num) key (by
      rw [abs_of_nonneg hb0]; exact hb) (r := 3 / 100) (by norm_num)
    have d := near_div_lit h (65535 * (69 / 31)) (119 / 100) d2 l (by
      push_cast; rw [abs_of_nonneg (by linarith)]; linarith) (by norm_num) (by norm_num)
      (r := 1 / 10) (by norm_num)
    refine near_congr d ?_
    push_cast
    simp
    ring

theorem ticks_of {v : Option ℝ} {y x : ℝ} (e : v = some y) (hy : |y - x| ≤ 1 / 20) (h0 : 0 ≤ x)
    (hd : y ≤ 65535) : ∃ n, toUInt16 (floats F) v = some n ∧ |(n : ℝ) - x| ≤ 11 / 10 := by
  refine ⟨truncate y, ?_, (truncate_near hy).trans (by norm_num)⟩
  have hn : 0 ≤ truncate y := truncate_nonneg (by have := (abs_le.1 hy).1; linarith)
  have hx : truncate y ≤ 65535 := by
    unfold truncate
    by_cases hneg : y < 0
    · rw [if_pos hneg]
      have : 0 ≤ ⌊-y⌋ := Int.floor_nonneg.2 (by linarith)
      omega
    · rw [if_neg hneg]
      have h3 := Int.floor_le y
      have h4 : (⌊y⌋ : ℝ) ≤ ((65535 : ℤ) : ℝ) := by push_cast; linarith
      exact_mod_cast h4
  rw [e]
  unfold toUInt16
  rw [toInt_some, if_pos ⟨hn, hx⟩]

/-- **C100.** SGP4x: a relative humidity of 0 to 100 percent and a temperature of -45 to 130 degrees
are sent as the ticks of the data sheet, up to 1.1; the conversion is never undefined. -/
theorem C100_sgp4x (h : Ieee F) (rh t : ℝ) (hrh : 0 ≤ rh ∧ rh ≤ 100) (ht : -45 ≤ t ∧ t ≤ 130) :
    (∃ n, sgp4xHumidityTicks (floats F) (some rh) = some n ∧
      |(n : ℝ) - rh * 65535 / 100| ≤ 11 / 10) ∧
    (∃ n, sgp4xTemperatureTicks (floats F) (some t) = some n ∧
      |(n : ℝ) - (t + 45) * 65535 / 175| ≤ 11 / 10) := by
  obtain ⟨r0, r1⟩ := hrh
  obtain ⟨t0, t1⟩ := ht
  constructor
  · have a0 : Near (some rh) rh 0 := ⟨rh, rfl, by simp⟩
    have a1 := near_mul h 100 65535 a0 (near_int h 65535 (by norm_num)) (by
      rw [abs_of_nonneg r0]; exact r1) (by norm_num) (r := 1) (by norm_num)
    have a2 := near_div h 6553500 100 (by norm_num) (by norm_num) a1 (by
      push_cast; rw [abs_le]; constructor <;> linarith) (r := 1 / 20) (by norm_num)
    obtain ⟨y, e, hy⟩ := a2
    have e' := e
    simp only [floats, Option.bind_some, Option.map_some] at e'
    rw [rnd_int h 65535 (by norm_num), rnd_int h 100 (by norm_num), if_neg (by norm_num)] at e'
    have e'' := Option.some.inj e'
    push_cast at e'' hy
    have hm : F.rnd (rh * 65535) ≤ 6553500 := by
      have := h.mono (rh * 65535) ((6553500 : ℤ) : ℝ) (by push_cast; linarith)
      rwa [rnd_int h 6553500 (by norm_num)] at this
    have hd : y ≤ 65535 := by
      have := h.mono (F.rnd (rh * 65535) / 100) ((65535 : ℤ) : ℝ) (by push_cast; linarith)
      rw [rnd_int h 65535 (by norm_num), e''] at this
      exact_mod_cast this
    exact ticks_of (F := F) e hy (by positivity) hd
  · have a0 : Near (some t) t 0 := ⟨t, rfl, by simp⟩
    have a1 := near_add h 175 a0 (near_int h 45 (by norm_num)) (by
      push_cast; rw [abs_le]; constructor <;> linarith) (r := 3 / 100000) (by norm_num)
    have a2 := near_mul h 175 65535 a1 (near_int h 65535 (by norm_num)) (by
      push_cast; rw [abs_le]; constructor <;> linarith) (by norm_num) (r := 4) (by norm_num)
    have a3 := near_div h (175 * 65535) 175 (by norm_num) (by norm_num) a2 (by
      push_cast; rw [abs_le]; constructor <;> linarith) (r := 1 / 20) (by norm_num)
    obtain ⟨y, e, hy⟩ := a3
    have e' := e
    simp only [floats, Option.bind_some, Option.map_some] at e'
    rw [rnd_int h 65535 (by norm_num), rnd_int h 175 (by norm_num), rnd_int h 45 (by norm_num),
      if_neg (by norm_num)] at e'
    have e'' := Option.some.inj e'
    push_cast at e'' hy
    have hs : F.rnd (t + 45) ≤ 175 := by
      have := h.mono (t + 45) ((175 : ℤ) : ℝ) (by push_cast; linarith)
      rwa [rnd_int h 175 (by norm_num)] at this
    have hm : F.rnd (F.rnd (t + 45) * 65535) ≤ 11468625 := by
      have := h.mono (F.rnd (t + 45) * 65535) ((11468625 : ℤ) : ℝ) (by push_cast; linarith)
      rwa [rnd_int h 11468625 (by norm_num)] at this
    have hd : y ≤ 65535 := by
      have := h.mono (F.rnd (F.rnd (t + 45) * 65535) / 175) ((65535 : ℤ) : ℝ) (by push_cast; linarith)
      rw [rnd_int h 65535 (by norm_num), e''] at this
      exact_mod_cast this
    exact ticks_of (F := F) e hy (by
      have : 0 ≤ t + 45 := by linarith
      positivity) hd

/-- Cutting off, adding a half and cutting off again changes nothing. -/
theorem half_added (h : Ieee F) (k : ℤ) (hk : |k| ≤ 1000) :
    (0 ≤ k → (floats F).toInt ((floats F).add ((floats F).ofInt k) ((floats F).lit (1 / 2))) = k) ∧
    (k ≤ 0 → (floats F).toInt ((floats F).sub ((floats F).ofInt k) ((floats F).lit (1 / 2))) = k) := by
  have hk' : |k| ≤ 2 ^ 24 := hk.trans (by norm_num)
  have b := abs_le.1 hk
  have half : F.rnd (((1 / 2 : ℚ)) : ℝ) = 1 / 2 := by
    have := h.exact 1 1 (by norm_num) (by norm_num)
    norm_num at this ⊢
    exact this
  constructor
  · intro h0
    have e : F.rnd ((k : ℝ) + 1 / 2) = k + 1 / 2 := by
      have := h.exact (2 * k + 1) 1 (by rw [abs_le]; constructor <;> omega) (by norm_num)
      push_cast at this
      have q : (2 * (k : ℝ) + 1) / 2 ^ 1 = k + 1 / 2 := by ring
      rwa [q] at this
    simp only [floats, Option.bind_some, Option.map_some]
    rw [rnd_int h k hk', half, e]
    have h0' : (0 : ℝ) ≤ k := by exact_mod_cast h0
    unfold truncate
    rw [if_neg (by linarith), Int.floor_eq_iff]
    constructor <;> linarith
  · intro h0
    have e : F.rnd ((k : ℝ) - 1 / 2) = k - 1 / 2 := by
      have := h.exact (2 * k - 1) 1 (by rw [abs_le]; constructor <;> omega) (by norm_num)
      push_cast at this
      have q : (2 * (k : ℝ) - 1) / 2 ^ 1 = k - 1 / 2 := by ring
      rwa [q] at this
    simp only [floats, Option.bind_some, Option.map_some]
    rw [rnd_int h k hk', half, e]
    have h0' : (k : ℝ) ≤ 0 := by exact_mod_cast h0
    unfold truncate
    rw [if_pos (by linarith)]
    have : ⌊-((k : ℝ) - 1 / 2)⌋ = -k := by
      rw [Int.floor_eq_iff]
      push_cast
      constructor <;> linarith
    omega

theorem truncate_bounds {x : ℝ} {a b : ℤ} (ha : (a : ℝ) ≤ x) (hb : x ≤ b) (ha0 : a ≤ 0) (hb0 : 0 ≤ b) :
    a ≤ truncate x ∧ truncate x ≤ b := by
  unfold truncate
  by_cases hx : x < 0
  · rw [if_pos hx]
    have h1 : 0 ≤ ⌊-x⌋ := Int.floor_nonneg.2 (by linarith)
    have h2 : ⌊-x⌋ ≤ -a := by
      have h3 := Int.floor_le (-x)
      have : (⌊-x⌋ : ℝ) ≤ ((-a : ℤ) : ℝ) := by push_cast; linarith
      exact_mod_cast this
    omega
  · rw [if_neg hx]
    have h1 : 0 ≤ ⌊x⌋ := Int.floor_nonneg.2 (by linarith)
    have h2 : ⌊x⌋ ≤ b := by
      have h3 := Int.floor_le x
      have : (⌊x⌋ : ℝ) ≤ (b : ℝ) := by linarith
      exact_mod_cast this
    omega

theorem byte_ofInt (n : ℤ) (h0 : 0 ≤ n) (h1 : n < 256) : ((BitVec.ofInt 8 n).toNat : ℤ) = n := by
  rw [BitVec.toNat_ofInt]
  omega

/-- **C100.** CCS811: for temperatures of -25 to 102 degrees and humidities of 0 to 100 percent the
bytes sent are twice the whole part (of the temperature plus 25): the fraction is cut off, although
the code adds 0.5 to round. -/
theorem C100_ccs811 (h : Ieee F) (t rh : ℝ) (ht : -25 ≤ t ∧ t ≤ 102) (hrh : 0 ≤ rh ∧ rh ≤ 100) :
    ((ccs811Temperature (floats F) (some t)).toNat : ℤ) = 2 * (truncate t + 25) ∧
    ((ccs811Humidity (floats F) (some rh)).toNat : ℤ) = 2 * ⌊rh⌋ := by
  have b := truncate_bounds (x := t) (a := -25) (b := 102) (by push_cast; exact ht.1)
    (by push_cast; exact ht.2) (by omega) (by omega)
  have b' := truncate_bounds (x := rh) (a := 0) (b := 100) (by push_cast; exact hrh.1)
    (by push_cast; exact hrh.2) (by omega) (by omega)
  constructor
  · have z : F.rnd ((0 : ℤ) : ℝ) = 0 := by rw [rnd_int h 0 (by norm_num)]; norm_num
    have ha := half_added h (truncate t) (by rw [abs_le]; omega)
    have temp : (if (floats F).lt ((floats F).ofInt 0) (some t) then (floats F).toInt ((floats F).add
          ((floats F).ofInt ((floats F).toInt (some t))) ((floats F).lit (1 / 2)))
        else if (floats F).lt (some t) ((floats F).ofInt 0) then (floats F).toInt ((floats F).sub
          ((floats F).ofInt ((floats F).toInt (some t))) ((floats F).lit (1 / 2)))
        else 0) = truncate t := by
      rw [toInt_some]
      have l1 : (floats F).lt ((floats F).ofInt 0) (some t) = decide (0 < t) := by
        simp only [floats]; rw [z]
      have l2 : (floats F).lt (some t) ((floats F).ofInt 0) = decide (t < 0) := by
        simp only [floats]; rw [z]
      rw [l1, l2]
      by_cases h1 : 0 < t
      · rw [if_pos (by simpa using h1)]
        exact ha.1 (truncate_nonneg (by linarith))
      · rw [if_neg (by simpa using h1)]
        by_cases h2 : t < 0
        · rw [if_pos (by simpa using h2)]
          apply ha.2
          unfold truncate
          rw [if_pos h2]
          have : 0 ≤ ⌊-t⌋ := Int.floor_nonneg.2 (by linarith)
          omega
        · rw [if_neg (by simpa using h2)]
          have : t = 0 := le_antisymm (not_lt.1 h1) (not_lt.1 h2)
          subst this
          simp [truncate]
    unfold ccs811Temperature
    rw [temp, byte_ofInt _ (by omega) (by omega)]
    omega
  · unfold ccs811Humidity
    rw [toInt_some, (half_added h (truncate rh) (by rw [abs_le]; omega)).1 b'.1,
      byte_ofInt _ (by omega) (by omega)]
    unfold truncate
    rw [if_neg (by linarith [hrh.1])]
    omega

/-! Concrete cases, with the rounding of binary32: 25.3 degrees and about 49 percent; -10 degrees;
a raw humidity of 0. -/

def room : Nat → Reading := fun _ => ⟨6500, 1500, 100000, 300⟩
def frost : Nat → Reading := fun _ => ⟨2970, 1500, 100000, 300⟩
def dry : Nat → Reading := fun _ => ⟨6500, 0, 100000, 300⟩

theorem room_ok : Conforming room := fun _ => by simp [room]
theorem dry_ok : Conforming dry := fun _ => by simp [dry]

example : ∃ x n, (View.mk 0 0 none none).call (floats binary32) room .readTemperatureC =
      (⟨1, 0, some n, none⟩, .float (some (some x))) ∧
    |x - 253 / 10| ≤ 1 / 1000 ∧ |n - 2530| ≤ 1 := by
  obtain ⟨x, n, e, h1, h2⟩ := C100_sht1x_temperature room binary32_ieee room_ok ⟨0, 0, none, none⟩
  refine ⟨x, n, e, ?_, ?_⟩
  · norm_num [room] at h1 ⊢
    exact h1
  · norm_num [room] at h2 ⊢
    exact h2

example : ∃ n : ℤ, ((View.mk 0 0 none none).call (floats binary32) room .getTemperature).2 =
    .int (some n) ∧ |n - 2530| ≤ 1 := by
  obtain ⟨n, e, h2⟩ := C100_getTemperature_partial room binary32_ieee room_ok ⟨0, 0, none, none⟩
    (by decide)
  refine ⟨n, e, ?_⟩
  norm_num [room] at h2 ⊢
  exact h2

example : ((View.mk 0 0 none none).call (floats binary32) frost .getTemperature).2 = .int none :=
  C100_getTemperature_below_zero frost binary32_ieee _ (by decide)

example : ((View.mk 0 0 none none).call (floats binary32) dry .getHumidity).2 = .int none :=
  C100_getHumidity_below_zero dry binary32_ieee dry_ok _ (by norm_num [dry, exactHumidity])

example : ∃ n : ℤ, ((View.mk 0 0 none none).call (floats binary32) room .getHumidity).2 =
    .int (some n) ∧ |(n : ℝ) - 49452325 / 10000| ≤ 12 / 10 := by
  obtain ⟨n, e, h2⟩ := C100_getHumidity_partial room binary32_ieee room_ok ⟨0, 0, none, none⟩
    (by norm_num [room, exactHumidity])
  refine ⟨n, e, ?_⟩
  norm_num [room, exactHumidity] at h2 ⊢
  exact h2

example : ∃ x, sht4xCelsius (floats binary32) 26214 = some x ∧ |x - 25| ≤ 1 / 1000 := by
  have := (C100_sht4x binary32_ieee 26214 (by norm_num)).1
  norm_num [Near] at this ⊢
  exact this

example : dhtTemperature (floats binary32) true 0x80#8 0x65#8 ≠ none ∧
    dhtValue true true 0x80#8 0x65#8 = -101 / 10 := by
  constructor
  · obtain ⟨x, e, -⟩ := (C100_dht binary32_ieee true 0#8 0#8 0x80#8 0x65#8).1
    rw [e]
    exact Option.some_ne_none _
  · norm_num [dhtValue]

example : ds18x20Temperature (floats binary32) (-81) = some (-5.0625) := by
  rw [C100_ds18x20 binary32_ieee (-81) (by norm_num)]
  norm_num

example : ∃ x, toFahrenheit (floats binary32) (some (-40)) = some x ∧ |x - -40| ≤ 1 / 1000 := by
  have := (C100_units binary32_ieee (-40) (by norm_num)).1
  norm_num [Near] at this ⊢
  exact this

example : ∃ x, bh1750Lux (floats binary32) 65535 32 false = some x ∧
    |x - 117758203125 / 1000000| ≤ 1 / 10 := by
  have := C100_bh1750 binary32_ieee 65535 32 false (by norm_num) (by norm_num) (by norm_num)
  norm_num [Near] at this ⊢
  exact this

example : ∃ n, sgp4xTemperatureTicks (floats binary32) (some 25) = some n ∧
    |(n : ℝ) - 26214| ≤ 11 / 10 := by
  have := (C100_sgp4x binary32_ieee 50 25 (by norm_num) (by norm_num)).2
  norm_num at this ⊢
  exact this

/-- 20.9 degrees are sent to the CCS811 as 20, -0.9 degrees as 0. -/
example : ((ccs811Temperature (floats binary32) (some 20.9)).toNat : ℤ) = 2 * (20 + 25) ∧
    ((ccs811Temperature (floats binary32) (some (-0.9))).toNat : ℤ) = 2 * (0 + 25) := by
  constructor
  · rw [(C100_ccs811 binary32_ieee 20.9 0 (by norm_num) (by norm_num)).1]
    norm_num [truncate]
  · rw [(C100_ccs811 binary32_ieee (-0.9) 0 (by norm_num) (by norm_num)).1]
    norm_num [truncate]

end Verif.Sht
