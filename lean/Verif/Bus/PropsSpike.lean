import Verif.Bus.Lemmas

/-!
# C123: short disturbances of the bus line are not taken for bits
-/

namespace Verif.Bus

/-! ## The filter loop -/

/-- `ZERO_BIT_MIN_TIME`, bus_const.h:104. -/
def zeroBitMinTime : Nat := 3

/-- `elapsedMicroseconds`, bus.cpp:600: `cap` the captured value, `mt` the match value of the time channel at which the
timer wraps, `tv` the value of the timer. -/
def elapsedUs (cap mt tv : Nat) : Nat := if tv ≥ cap then tv - cap else mt + 1 - cap + tv

/-- The loop of the spike filter, bus.cpp:583-605, on the readings of the pin (`true`: high) and of the timer that it
makes: `some true` the edge was a spike, `some false` it was a bit, `none` the loop has not ended with these readings. -/
def filterLoop (cap mt : Nat) : List (Bool × Nat) → Option Bool
  | [] => none
  | (high, tv) :: r =>
    if high then some true
    else if elapsedUs cap mt tv > zeroBitMinTime then some false
    else filterLoop cap mt r

/-- Specification: the value of a timer that counts microseconds and starts again after `mt`, at the time `x` counted in
parts of the microsecond (`f` of them), when it was 0 at the time 0. -/
def timerAt (f mt x : Nat) : Nat := (x / f) % (mt + 1)

theorem elapsed_at (f mt c x : Nat) (_hf : 0 < f) (hc : c / f ≤ mt) (hx : c ≤ x) (hw : x / f ≤ c / f + mt) :
    elapsedUs (timerAt f mt c) mt (timerAt f mt x) = x / f - c / f := by
  unfold elapsedUs timerAt
  have hle : c / f ≤ x / f := Nat.div_le_div_right hx
  rw [Nat.mod_eq_of_lt (show c / f < mt + 1 by omega)]
  by_cases h : x / f ≤ mt
  · rw [Nat.mod_eq_of_lt (show x / f < mt + 1 by omega), if_pos (by omega)]
  · rw [Nat.mod_eq_sub_mod (by omega), Nat.mod_eq_of_lt (by omega), if_neg (by omega)]
    omega

/-- The filter: the readings are made at the times `x` (in parts of the microsecond), the edge was at the time `c`, the
timer may start again in between. An edge is taken for a bit only if the line was low in all readings and the last of
them was evaluated more than 3 µs after the edge; it is taken for a spike only if a reading was high while all readings
before it were less than 4 µs after the edge. -/
theorem C123_filter (f mt c : Nat) (hf : 0 < f) (hc : c / f ≤ mt) (rs : List (Bool × Nat))
    (hr : ∀ r ∈ rs, c ≤ r.2 ∧ r.2 / f ≤ c / f + mt) (res : Bool)
    (h : filterLoop (timerAt f mt c) mt (rs.map fun r => (r.1, timerAt f mt r.2)) = some res) :
    if res then ∃ pre x post, rs = pre ++ (true, x) :: post ∧ ∀ r ∈ pre, r.1 = false ∧ r.2 < c + 4 * f
    else ∃ pre x post, rs = pre ++ (false, x) :: post ∧ (∀ r ∈ pre, r.1 = false) ∧ c + 3 * f < x := by
  induction rs with
  | nil => cases h
  | cons r rs ih =>
    obtain ⟨hi, x⟩ := r
    have hx := hr (hi, x) (by simp)
    simp only at hx
    simp only [List.map_cons, filterLoop] at h
    cases hi with
    | true =>
      simp only [if_true, Option.some.injEq] at h
      subst h
      exact ⟨[], x, rs, rfl, by simp⟩
    | false =>
      simp only [Bool.false_eq_true, if_false] at h
      rw [elapsed_at f mt c x hf hc hx.1 hx.2] at h
      have e1 := Nat.div_add_mod x f
      have e2 := Nat.div_add_mod c f
      have m1 := Nat.mod_lt x hf
      have m2 := Nat.mod_lt c hf
      by_cases hel : x / f - c / f > zeroBitMinTime
      · rw [if_pos hel] at h
        simp only [Option.some.injEq] at h
        subst h
        refine ⟨[], x, rs, rfl, by simp, ?_⟩
        unfold zeroBitMinTime at hel
        have : f * (c / f + 4) ≤ f * (x / f) := Nat.mul_le_mul_left f (by omega)
        rw [Nat.mul_add] at this
        omega
      · rw [if_neg hel] at h
        have := ih (fun r hr' => hr r (by simp [hr'])) h
        cases res with
        | true =>
          simp only [if_true] at this ⊢
          obtain ⟨pre, x', post, rfl, hp⟩ := this
          refine ⟨(false, x) :: pre, x', post, rfl, ?_⟩
          intro r hr'
          rw [List.mem_cons] at hr'
          rcases hr' with rfl | hr'
          · refine ⟨rfl, ?_⟩
            unfold zeroBitMinTime at hel
            have : f * (x / f) ≤ f * (c / f + 3) := Nat.mul_le_mul_left f (by omega)
            rw [Nat.mul_add] at this
            simp only
            omega
          · exact hp r hr'
        | false =>
          simp only [Bool.false_eq_true, if_false] at this ⊢
          obtain ⟨pre, x', post, rfl, hp, hl⟩ := this
          refine ⟨(false, x) :: pre, x', post, rfl, ?_, hl⟩
          intro r hr'
          rw [List.mem_cons] at hr'
          rcases hr' with rfl | hr'
          · rfl
          · exact hp r hr'

/-- The loop ends with the first reading 4 µs after the edge at the latest. -/
theorem C123_filter_ends (f mt c : Nat) (hf : 0 < f) (hc : c / f ≤ mt) (rs : List (Bool × Nat))
    (hr : ∀ r ∈ rs, c ≤ r.2 ∧ r.2 / f ≤ c / f + mt) (hl : ∃ r ∈ rs, c + 4 * f ≤ r.2) :
    filterLoop (timerAt f mt c) mt (rs.map fun r => (r.1, timerAt f mt r.2)) ≠ none := by
  induction rs with
  | nil => obtain ⟨r, h, _⟩ := hl; cases h
  | cons r rs ih =>
    obtain ⟨hi, x⟩ := r
    have hx := hr (hi, x) (by simp)
    simp only at hx
    simp only [List.map_cons, filterLoop]
    rw [elapsed_at f mt c x hf hc hx.1 hx.2]
    cases hi with
    | true => simp
    | false =>
      simp only [Bool.false_eq_true, if_false]
      by_cases hel : x / f - c / f > zeroBitMinTime
      · rw [if_pos hel]; simp
      · rw [if_neg hel]
        apply ih (fun r hr' => hr r (by simp [hr']))
        obtain ⟨r, hm, h⟩ := hl
        rw [List.mem_cons] at hm
        rcases hm with rfl | hm
        · exfalso
          simp only at h
          unfold zeroBitMinTime at hel
          have e1 := Nat.div_add_mod x f
          have e2 := Nat.div_add_mod c f
          have m1 := Nat.mod_lt x hf
          have : f * (x / f) ≤ f * (c / f + 3) := Nat.mul_le_mul_left f (by omega)
          rw [Nat.mul_add] at this
          omega
        · exact ⟨r, hm, h⟩

/-! ## Spikes in a run -/

/-- The same events with spikes put in: `Spiked s es fs`, in the state `s` the events `fs` are the events `es` and
interrupts for edges that the filter finds to be spikes and that are not the own pulse. -/
inductive Spiked : Sys → List Ev → List Ev → Prop
  | nil (s : Sys) : Spiked s [] []
  | keep (s : Sys) (e : Ev) (es fs : List Ev) : Spiked (step s e).1 es fs → Spiked s (e :: es) (e :: fs)
  | spike (s : Sys) (i : Irq) (es fs : List Ev) : i.cap = true → i.spike = true → i.capVal < s.bus.mPwm →
      Spiked s es fs → Spiked s es (.irq i :: fs)

/-- A state without the note whether the timer was set in the last interrupt. -/
def bare (s : Sys) : Sys := { s with bus := { s.bus with tSet := none } }

theorem step_bare (s : Sys) (e : Ev) : bare (step s e).1 = bare (step (bare s) e).1 ∧ (step s e).2 = (step (bare s) e).2 := by
  obtain ⟨b, p⟩ := s
  cases e with
  | irq i =>
    cases p
    · have : step ⟨b, false⟩ (.irq i) = step (bare ⟨b, false⟩) (.irq i) := rfl
      rw [this]; exact ⟨rfl, rfl⟩
    · exact ⟨rfl, rfl⟩
  | queue own t len => cases h : b.sendCur <;> simp [step, bare, h]
  | kick => by_cases h : b.st = .idle <;> simp [step, bare, h, startSendingImmediately]
  | discard => exact ⟨rfl, rfl⟩
  | pause w =>
    have hc : canPause { b with tSet := none } w = canPause b w := rfl
    cases p <;> cases h : canPause b w <;> simp [step, bare, hc, h]
  | resume => cases p <;> exact ⟨rfl, rfl⟩
  | maxRetries n => exact ⟨rfl, rfl⟩
  | maxBusyRetries n => exact ⟨rfl, rfl⟩

theorem run_bare (es : List Ev) : ∀ s t : Sys, bare s = bare t →
    bare (run s es).1 = bare (run t es).1 ∧ (run s es).2 = (run t es).2 := by
  induction es with
  | nil => intro s t h; exact ⟨h, rfl⟩
  | cons e es ih =>
    intro s t h
    have a := step_bare s e
    have b := step_bare t e
    have hs : bare (step s e).1 = bare (step t e).1 := by rw [a.1, b.1, h]
    have ho : (step s e).2 = (step t e).2 := by rw [a.2, b.2, h]
    have := ih _ _ hs
    simp only [run]
    exact ⟨this.1, by rw [ho, this.2]⟩

theorem step_spike (s : Sys) (i : Irq) (h1 : i.cap = true) (h2 : i.spike = true) (h3 : i.capVal < s.bus.mPwm) :
    bare (step s (.irq i)).1 = bare s ∧ (step s (.irq i)).2 = [] := by
  obtain ⟨b, p⟩ := s
  simp only [step]
  cases p
  · simp only [Bool.false_eq_true, if_false, isr]
    rw [if_pos (by simp [isSpike, h1, h2, h3])]
    exact ⟨rfl, rfl⟩
  · exact ⟨rfl, rfl⟩

/-- Spikes, as many as you like and in any state of the bus, change nothing: everything that is sent, received and
reported is the same, and so is the state afterwards (but for the note whether the last interrupt set the timer). -/
theorem C123_spikes_ignored (s : Sys) (es fs : List Ev) (h : Spiked s es fs) :
    (run s fs).2 = (run s es).2 ∧ bare (run s fs).1 = bare (run s es).1 := by
  induction h with
  | nil => exact ⟨rfl, rfl⟩
  | keep s e es fs _ ih =>
    simp only [run]
    exact ⟨by rw [ih.1], ih.2⟩
  | spike s i es fs h1 h2 h3 _ ih =>
    have a := step_spike s i h1 h2 h3
    have b := run_bare fs _ _ a.1
    simp only [run]
    rw [a.2, List.nil_append]
    exact ⟨b.2.trans ih.1, b.1.trans ih.2⟩

/-- An edge that is not before the start of the own pulse, and an interrupt without edge, are handled whatever the line
reads: the own pulse is never taken for a spike. -/
theorem C123_own_pulse (s : Sys) (i : Irq) (h : i.cap = false ∨ s.bus.mPwm ≤ i.capVal) (high : Bool) :
    step s (.irq { i with spike := high }) = step s (.irq { i with spike := false }) := by
  have hd : ∀ b, dispatch { i with spike := high } b = dispatch { i with spike := false } b := by
    intro b; rfl
  have e1 : isSpike { i with spike := high } s.bus = false := by
    rcases h with h | h
    · simp [isSpike, h]
    · simp only [isSpike]
      rw [decide_eq_false (by omega)]
      simp
  have e2 : isSpike { i with spike := false } s.bus = false := by simp [isSpike]
  simp only [step, isr, e1, e2, hd]

/-! ## The hypotheses can be met -/

/-- An edge 1.9 µs after the start of the timer (in tenths), readings every 0.7 µs, all low: a bit, after 4 µs have been
counted. With a high reading 2.1 µs after the edge: a spike. Also when the timer starts again after 3. -/
example : filterLoop (timerAt 10 100 19) 100 ([(false, 26), (false, 33), (false, 40), (false, 47), (false, 54)].map
      fun r => (r.1, timerAt 10 100 r.2)) = some false ∧
    filterLoop (timerAt 10 100 19) 100 ([(false, 26), (false, 33), (true, 40), (false, 47)].map
      fun r => (r.1, timerAt 10 100 r.2)) = some true ∧
    filterLoop (timerAt 10 4 39) 4 ([(false, 46), (false, 53), (false, 60), (false, 67), (false, 74)].map
      fun r => (r.1, timerAt 10 4 r.2)) = some false := by decide

/-- A run with spikes: after the start-up, around a timeout. -/
example (i : Irq) (h1 : i.cap = true) (h2 : i.spike = true) (h3 : i.capVal = 17) (hp : 17 < boot.bus.mPwm) :
    Spiked boot [.discard] [.irq i, .irq i, .discard] :=
  .spike _ _ _ _ h1 h2 (by omega) (.spike _ _ _ _ h1 h2 (by omega) (.keep _ _ _ _ (.nil _)))

example : 17 < boot.bus.mPwm := by decide

end Verif.Bus
