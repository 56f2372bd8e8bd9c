import Verif.Sht.Num
import Verif.I2c.Props71

/-!
# C131: what the SHT4x driver reports

Models `SHT4xClass::measureHighPrecision`, `getTemperature` and `getHumidity` (SHT4x.cpp) on the model
of the bus traffic (`I2c/Sensors.lean`, C71) and of the conversions (`Sht/Convert.lean`, C100).
-/

namespace Verif.Sht

open Verif.Gas Verif.I2c

/-- The fields of `SHT4xClass`, SHT4x.h:59-60. -/
structure Sht4x (α : Type) where
  temperature : α
  humidity : α

/-- `SHT4xClass::measureHighPrecision`, SHT4x.cpp:59-72. -/
def measureHighPrecision {α : Type} (A : Gas.Arith α) (E : Env) (clk : Clk) (w : Wd) (s : Sht4x α)
    (fuel : Nat) : Option (Wd × Sht4x α × Bool) :=
  (sht4xMeasure E clk w fuel).map fun
    | (w, none) => (w, s, false)
    | (w, some (t, h)) => (w, ⟨sht4xCelsius A t.toNat, sht4xPercentRH A h.toNat⟩, true)

/-- `SHT4xClass::getTemperature`, SHT4x.cpp:108-111. -/
def getTemperature {α : Type} (s : Sht4x α) : α := s.temperature

/-- `SHT4xClass::getHumidity`, SHT4x.cpp:103-106. -/
def getHumidity {α : Type} (s : Sht4x α) : α := s.humidity

/-! ## Specification -/

/-- The driver reports the temperature and humidity that the sensor has sent with the six bytes `b`, by
the formulas of the data sheet, each up to 1/1000. -/
def Reports (s : Sht4x (Option ℝ)) (b : List Byte) : Prop :=
  Near (getTemperature s) (175 * ((256 * (byteAt b 0).toNat + (byteAt b 1).toNat : ℕ) : ℝ) / 65535 - 45) (1 / 1000) ∧
  Near (getHumidity s) (125 * ((256 * (byteAt b 3).toNat + (byteAt b 4).toNat : ℕ) : ℝ) / 65535 - 6) (1 / 1000)

/-- A program that measures again and again, whatever else happens on the bus in between: the answers the
driver accepted (`none`: the measurement failed), and the driver's state before and after. -/
inductive History (A : Gas.Arith α) (E : Env) (clk : Clk) :
    Sht4x α → List (Option (List Byte)) → Sht4x α → Prop
  | nil (s) : History A E clk s [] s
  | call {s₀ s s' : Sht4x α} {l} {w w' : Wd} {b : Option (List Byte)} {ok : Bool} :
      History A E clk s₀ l s → Returns (sht4xRead E clk w 0xfd#8) (w', b) →
      Returns (measureHighPrecision A E clk w s) (w', s', ok) → History A E clk s₀ (l ++ [b]) s'

/-! ## Helper lemmas -/

variable {F : Flt}

theorem Returns.unique {α : Type} {f : Nat → Option α} {a b : α} (h : Returns f a) (h' : Returns f b) :
    a = b := by
  obtain ⟨n, h⟩ := h
  obtain ⟨n', h'⟩ := h'
  have h1 := h (max n n') (le_max_left _ _)
  have h2 := h' (max n n') (le_max_right _ _)
  rw [h1] at h2
  exact Option.some.inj h2

theorem reports_of (h : Ieee F) (b : List Byte) :
    Reports ⟨sht4xCelsius (floats F) (BitVec.ofNat 16 (256 * (byteAt b 0).toNat + (byteAt b 1).toNat)).toNat,
      sht4xPercentRH (floats F) (BitVec.ofNat 16 (256 * (byteAt b 3).toNat + (byteAt b 4).toNat)).toNat⟩ b := by
  have key : ∀ x y : Byte, (BitVec.ofNat 16 (256 * x.toNat + y.toNat)).toNat = 256 * x.toNat + y.toNat ∧
      256 * x.toNat + y.toNat < 2 ^ 16 := by
    intro x y
    have := x.isLt
    have := y.isLt
    rw [BitVec.toNat_ofNat]
    omega
  rw [(key _ _).1, (key _ _).1]
  exact ⟨(C100_sht4x h _ (key _ _).2).1, (C100_sht4x h _ (key _ _).2).2⟩

/-! ## The property -/

/-- **C131**: if the sensor's answer is accepted, the measurement succeeds and the driver reports the
sensor's values. -/
theorem C131_success (h : Ieee F) (E : Env) (clk : Clk) (w w' : Wd) (s : Sht4x (Option ℝ)) (b : List Byte)
    (hr : Returns (sht4xRead E clk w 0xfd#8) (w', some b)) :
    ∃ s', Returns (measureHighPrecision (floats F) E clk w s) (w', s', true) ∧ Reports s' b :=
  ⟨_, ((C71_sht4x_values E clk w w' b).1 hr).map _, reports_of h b⟩

/-- **C131**: a measurement that fails says so, and the driver goes on reporting what it reported before. -/
theorem C131_failure (E : Env) (clk : Clk) (w w' : Wd) (s : Sht4x (Option ℝ))
    (hr : Returns (sht4xRead E clk w 0xfd#8) (w', none)) :
    Returns (measureHighPrecision (floats F) E clk w s) (w', s, false) :=
  ((C71_sht4x_values E clk w w' []).2.1 hr).map _

open Classical in
/-- **C131** (partial): every measurement returns, and either it fails and changes nothing, or the sensor
has acknowledged the command and sent six bytes with the right check bytes, and the driver reports them.
Missing: a measurement during which the millisecond counter wraps around (`C71_sht4x_wrap`). -/
theorem C131_measure_partial (h : Ieee F) (E : Env) (hE : SingleMaster E) (clk : Clk) (D : Nat)
    (hc : Passes clk D) (w : Wd) (hi : Idle w.h) (hl : clk w.n + 300 + D < 2 ^ 32)
    (s : Sht4x (Option ℝ)) :
    ∃ w' s' ok, Returns (measureHighPrecision (floats F) E clk w s) (w', s', ok) ∧ Idle w'.h ∧
      ((ok = false ∧ s' = s) ∨
       (ok = true ∧ ∃ evc evp o rx, w'.h.trace = w.h.trace ++ evc ++ evp ∧
          FromSlaves E w.h.trace (evc ++ evp) ∧ Transaction 0x44#8 [0xfd#8] 0 evc o 1 [] ∧
          Polling clk (clk w.n + 300) 0x44#8 6 (w.n + 1) evp (some rx) w'.n ∧
          rx.length = 6 ∧ WordsChecked 0xff#8 rx ∧ Reports s' rx)) := by
  obtain ⟨⟨w', b⟩, evc, evp, o, k, p, h1, h2, h3, h4, h5, h6, h7, h8⟩ :=
    C71_sht4x_partial E hE clk D hc w hi hl 0xfd#8
  cases b with
  | none => exact ⟨w', s, false, C131_failure E clk w w' s h1, h2, Or.inl ⟨rfl, rfl⟩⟩
  | some b =>
    obtain ⟨s', g1, g2⟩ := C131_success h E clk w w' s b h1
    have hk : k = 1 := by
      by_contra hk
      have := (h6 (by omega)).2
      cases this
    obtain ⟨f1, f2⟩ := h7 hk
    subst hk
    cases p with
    | none => cases f2
    | some rx =>
      have f3 : some b = if rx.length = 6 ∧ WordsChecked 0xff#8 rx then some rx else none := f2
      by_cases hq : rx.length = 6 ∧ WordsChecked 0xff#8 rx
      · rw [if_pos hq] at f3
        have hb : b = rx := Option.some.inj f3
        subst hb
        exact ⟨w', s', true, g1, h2, Or.inr ⟨rfl, evc, evp, o, b, h3, h4, h5, f1, hq.1, hq.2, g2⟩⟩
      · rw [if_neg hq] at f3
        cases f3

/-- **C131**: after any number of measurements the driver reports the last answer that it accepted,
whatever failed afterwards; before the first one it reports what it did at the start. -/
theorem C131_history (h : Ieee F) (E : Env) (clk : Clk) (s s' : Sht4x (Option ℝ))
    (l : List (Option (List Byte))) (hh : History (floats F) E clk s l s') :
    ((∀ b ∈ l, b = none) → s' = s) ∧
    ∀ l₁ b l₂, l = l₁ ++ some b :: l₂ → (∀ x ∈ l₂, x = none) → Reports s' b := by
  induction hh with
  | nil => exact ⟨fun _ => rfl, fun l₁ b l₂ e => by simp at e⟩
  | @call s' s'' l w w' b ok _ hr hm ih =>
    cases b with
    | none =>
      have e := Returns.unique hm (C131_failure E clk w w' s' hr)
      have e' : s'' = s' := congrArg (fun x => x.2.1) e
      subst e'
      refine ⟨fun hx => ih.1 (fun b hb => hx b (List.mem_append_left _ hb)), fun l₁ b l₂ e hx => ?_⟩
      rcases List.eq_nil_or_concat l₂ with rfl | ⟨l₃, x, rfl⟩
      · have := congrArg List.getLast? e
        simp at this
      · have e1 : l ++ [none] = (l₁ ++ some b :: l₃) ++ [x] := by simpa using e
        have e2 := List.append_inj_left' e1 rfl
        exact ih.2 l₁ b l₃ e2 (fun y hy => hx y (by simp [hy]))
    | some b =>
      obtain ⟨t, g1, g2⟩ := C131_success h E clk w w' s' b hr
      have e := Returns.unique hm g1
      have e' : s'' = t := congrArg (fun x => x.2.1) e
      subst e'
      refine ⟨fun hx => ?_, fun l₁ c l₂ e hx => ?_⟩
      · have := hx (some b) (by simp)
        cases this
      · rcases List.eq_nil_or_concat l₂ with rfl | ⟨l₃, x, rfl⟩
        · have := congrArg List.getLast? e
          simp at this
          rw [← this]
          exact g2
        · have e1 : l ++ [some b] = (l₁ ++ some c :: l₃) ++ [x] := by simpa using e
          have e2 := List.append_inj_right' e1 rfl
          have : x = none := hx x (by simp)
          rw [this] at e2
          simp at e2

/-! ## The hypotheses are met -/

/-- A sensor that answers at once. -/
def exSht : Env := slave (fun _ => true) [0x66#8, 0x66#8, 0x93#8, 0xbe#8, 0xef#8, 0x92#8]

theorem exSht_fuel (j : Nat) : sht4xRead exSht (fun i => 10 * i) ⟨fresh, 0⟩ 0xfd#8 (j + 60) =
    sht4xRead exSht (fun i => 10 * i) ⟨fresh, 0⟩ 0xfd#8 60 := by
  rfl

/-- Its answer: 25 degrees. -/
def exAnswer : List Byte := [0x66#8, 0x66#8, 0x93#8, 0xbe#8, 0xef#8, 0x92#8]

theorem exSht_answers : ∃ w', Returns (sht4xRead exSht (fun i => 10 * i) ⟨fresh, 0⟩ 0xfd#8) (w', some exAnswer) := by
  have h : (sht4xRead exSht (fun i => 10 * i) ⟨fresh, 0⟩ 0xfd#8 60).map (·.2) = some (some exAnswer) := by
    decide +kernel
  obtain ⟨⟨w', b⟩, h1, h2⟩ := Option.map_eq_some_iff.1 h
  refine ⟨w', 60, fun m hm => ?_⟩
  obtain ⟨j, rfl⟩ : ∃ j, m = j + 60 := ⟨m - 60, by omega⟩
  rw [exSht_fuel, h1]
  exact congrArg (fun x => some (w', x)) h2

/-- A measurement that fails because the counter wraps around. -/
theorem exSht_fails : ∃ w', Returns (sht4xRead exSht (fun i => 10 * i) ⟨fresh, 429496720⟩ 0xfd#8) (w', none) := by
  obtain ⟨⟨w', b⟩, ev, o, k, h1, h2, -⟩ := C71_sht4x_wrap exSht (slave_quiet _ _).2 (fun i => 10 * i)
    ⟨fresh, 429496720⟩ ⟨Or.inl rfl, rfl⟩ 0xfd#8 (by norm_num) (by norm_num) (by norm_num) (by norm_num)
  have h2' : b = none := h2
  subst h2'
  exact ⟨w', h1⟩

example (s : Sht4x (Option ℝ)) : ∃ w' s', Returns (measureHighPrecision (floats binary32) exSht
    (fun i => 10 * i) ⟨fresh, 0⟩ s) (w', s', true) ∧ ∃ x, getTemperature s' = some x ∧ |x - 25| ≤ 1 / 1000 := by
  obtain ⟨w', h⟩ := exSht_answers
  obtain ⟨s', h1, h2, -⟩ := C131_success binary32_ieee exSht _ _ w' s exAnswer h
  refine ⟨w', s', h1, ?_⟩
  have e : (256 * (byteAt exAnswer 0).toNat + (byteAt exAnswer 1).toNat : ℕ) = 26214 := by decide
  rw [e] at h2
  norm_num [Near] at h2 ⊢
  exact h2

/-- A measurement that succeeds and one that fails. -/
theorem exSht_history (s : Sht4x (Option ℝ)) :
    ∃ s', History (floats binary32) exSht (fun i => 10 * i) s [some exAnswer, none] s' := by
  obtain ⟨w', h⟩ := exSht_answers
  obtain ⟨w'', h'⟩ := exSht_fails
  obtain ⟨s', h1, -⟩ := C131_success binary32_ieee exSht _ _ w' s exAnswer h
  exact ⟨s', .call (.call (.nil s) h h1) h' (C131_failure exSht _ _ w'' s' h')⟩

example (s : Sht4x (Option ℝ)) : ∃ s', History (floats binary32) exSht (fun i => 10 * i) s [some exAnswer, none] s' ∧
    Reports s' exAnswer := by
  obtain ⟨s', h⟩ := exSht_history s
  exact ⟨s', h, (C131_history binary32_ieee _ _ _ _ _ h).2 [] exAnswer [none] rfl (by simp)⟩

example (s : Sht4x (Option ℝ)) : ∃ w' s' ok, Returns (measureHighPrecision (floats binary32) busySht
    (fun i => 10 * i) ⟨fresh, 0⟩ s) (w', s', ok) ∧ Idle w'.h := by
  obtain ⟨w', s', ok, h1, h2, -⟩ := C131_measure_partial binary32_ieee busySht (slave_quiet _ _).2
    (fun i => 10 * i) 10 (fun i => ⟨by dsimp only; omega, by dsimp only; omega⟩) ⟨fresh, 0⟩
    ⟨Or.inl rfl, rfl⟩ (by decide) s
  exact ⟨w', s', ok, h1, h2⟩

end Verif.Sht
