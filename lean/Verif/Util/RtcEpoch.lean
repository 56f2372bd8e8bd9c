import Verif.Util.RtcProps

/-!
# C127: the time handed to `mktime` by `Ds3231::GetEpoch`

`mktime` itself belongs to the C library and is not modelled.
-/

namespace Verif.Rtc

/-- The members of `struct tm` set by `GetEpoch`, ds3231.cpp:496-508. -/
structure Tm where
  wday : Int
  mday : Int
  mon : Int
  year : Int
  hour : Int
  min : Int
  sec : Int
  deriving DecidableEq, Repr

/-- `GetEpoch`, ds3231.cpp:488-512, up to the call of `mktime`. `n1`, `m1`, `n2`, `m2` are the numbers of bytes the bus
lets through in the four transfers. `none`: a transfer failed and `mktime` is called with uninitialised members. -/
def epochTm (c : Chip) (n1 m1 n2 m2 : Nat) : Option Tm :=
  let r := getCalendar ⟨0#8, 0#8, 0#8, 0#8⟩ c n1 m1
  if r.1 then
    let q := getTime ⟨0#8, 0#8, 0#8, false, false⟩ r.2.2 n2 m2
    if q.1 then
      some { wday := (r.2.1.day.toNat : Int) - 1, mday := r.2.1.date.toNat, mon := (r.2.1.month.toNat : Int) - 1
             year := r.2.1.year.toNat + 100, hour := epochHour q.2.1, min := q.2.1.minutes.toNat
             sec := q.2.1.seconds.toNat }
    else none
  else none

/-! ## Specification -/

/-- The hour of the day (0 to 23) of a time of the clock: in the 12-hour format the hours count 12, 1, 2, …, 11, once
before and once after noon. -/
def hourOfDay (t : TimeT) : Nat :=
  if t.mode then t.hours.toNat % 12 + (if t.am_pm then 12 else 0) else t.hours.toNat

/-- `struct tm` of the C library for a day of the week (1 to 7, Sunday first), date, month (1 to 12), a year of this
century and a time of day. -/
def tmOf (d : CalendarT) (t : TimeT) : Tm :=
  { wday := (d.day.toNat : Int) - 1, mday := d.date.toNat, mon := (d.month.toNat : Int) - 1
    year := (2000 + (d.year.toNat : Int)) - 1900, hour := hourOfDay t, min := t.minutes.toNat, sec := t.seconds.toNat }

/-- Shortly after midnight in the 12-hour format: 12:mm AM. -/
def AfterMidnight (t : TimeT) : Prop := t.mode = true ∧ t.am_pm = false ∧ t.hours.toNat = 12

/-! ## Proofs -/

theorem getTime_congr (t0 : TimeT) (c c' : Chip) (h : ∀ i, i < 3 → c.regs i = c'.regs i) :
    (getTime t0 c 1 3).1 = (getTime t0 c' 1 3).1 ∧ (getTime t0 c 1 3).2.1 = (getTime t0 c' 1 3).2.1 := by
  refine ⟨rfl, ?_⟩
  have e (c : Chip) : (getTime t0 c 1 3).2.1 = ⟨bcd2uchar (c.regs 0), bcd2uchar (c.regs 1), hoursOf (c.regs 2),
      bit (c.regs 2) AM_PM, bit (c.regs 2) MODE⟩ := rfl
  rw [e, e, h 0 (by omega), h 1 (by omega), h 2 (by omega)]

theorem getCalendar_regs (t0 : CalendarT) (c : Chip) (n m : Nat) : (getCalendar t0 c n m).2.2.regs = c.regs := by
  have hs : (c.send [DAY] n).1.regs = c.regs := by
    unfold Chip.send
    cases n with
    | zero => rfl
    | succ n => rw [List.take_of_length_le (by simp)]; rfl
  unfold getCalendar
  simp only
  split
  · exact hs
  · split
    · exact hs
    · exact hs

theorem epochHour_eq (t : TimeT) (hv : ValidTime t) :
    epochHour t = if t.mode = true ∧ t.am_pm = false ∧ t.hours.toNat = 12 then 12 else hourOfDay t := by
  obtain ⟨-, -, h⟩ := hv
  unfold epochHour hourOfDay
  have hne : t.hours ≠ 12#8 ↔ t.hours.toNat ≠ 12 := by
    have e : t.hours = 12#8 ↔ t.hours.toNat = 12 := by rw [BitVec.toNat_eq]; rfl
    exact ⟨fun h h' => h (e.mpr h'), fun h h' => h (e.mp h')⟩
  cases hm : t.mode with
  | false => simp
  | true =>
    rw [hm] at h
    simp only [if_true] at h ⊢
    cases ha : t.am_pm with
    | false =>
      simp only [Bool.false_and, Bool.false_eq_true, if_false, true_and]
      split <;> omega
    | true =>
      simp only [Bool.true_and, decide_eq_true_eq, hne, Bool.true_eq_false, false_and, and_false, if_false, if_true]
      split <;> omega

theorem epochTm_set (t : TimeT) (d : CalendarT) (c : Chip) (ht : ValidTime t) (hd : ValidCalendar d) :
    ∃ t' : TimeT, t'.seconds = t.seconds ∧ t'.minutes = t.minutes ∧ t'.hours = t.hours ∧ t'.mode = t.mode ∧
      (t.mode = true → t'.am_pm = t.am_pm) ∧
      epochTm (setCalendar d (setTime t c 4).2 5).2 1 4 1 3 =
        some { wday := (d.day.toNat : Int) - 1, mday := d.date.toNat, mon := (d.month.toNat : Int) - 1
               year := d.year.toNat + 100, hour := epochHour t', min := t.minutes.toNat, sec := t.seconds.toNat } := by
  obtain ⟨-, ⟨c1, h1⟩, h2⟩ := C48_calendar_round_trip d ⟨0#8, 0#8, 0#8, 0#8⟩ (setTime t c 4).2 hd
  obtain ⟨-, t', c2, h3, h4, h5, h6, h7, h8⟩ := C48_time_round_trip t ⟨0#8, 0#8, 0#8, false, false⟩ c ht
  refine ⟨t', h4, h5, h6, h7, h8, ?_⟩
  have hr := getCalendar_regs ⟨0#8, 0#8, 0#8, 0#8⟩ (setCalendar d (setTime t c 4).2 5).2 1 4
  rw [h1] at hr
  have hg := getTime_congr ⟨0#8, 0#8, 0#8, false, false⟩ c1 (setTime t c 4).2 (by
    intro i hi
    rw [show c1.regs = (setCalendar d (setTime t c 4).2 5).2.regs from hr]
    exact h2.2.2.2.2 i (Or.inl hi))
  rw [h3] at hg
  unfold epochTm
  rw [h1]
  simp only [if_true]
  rw [hg.1, hg.2]
  simp only [if_true, h4, h5]

/-- **C127.** After a valid time and a valid date have been set, `GetEpoch` hands exactly this time and date to the C
library, in both formats of the hour. What is missing: the times 12:00 AM to 12:59 AM of the 12-hour format, see
`C127_after_midnight`. -/
theorem C127_epoch_partial (t : TimeT) (d : CalendarT) (c : Chip) (ht : ValidTime t) (hd : ValidCalendar d)
    (hm : ¬ AfterMidnight t) :
    epochTm (setCalendar d (setTime t c 4).2 5).2 1 4 1 3 = some (tmOf d t) := by
  obtain ⟨t', h1, h2, h3, h4, h5, h6⟩ := epochTm_set t d c ht hd
  rw [h6]
  have hv : ValidTime t' := by
    unfold ValidTime
    rw [h1, h2, h3, h4]
    exact ht
  rw [epochHour_eq t' hv, if_neg]
  · have e : hourOfDay t' = hourOfDay t := by
      unfold hourOfDay
      rw [h4, h3]
      cases hmode : t.mode with
      | false => rfl
      | true => rw [h5 hmode]
    rw [e]
    unfold tmOf
    congr 2
    omega
  · rintro ⟨a, b, e⟩
    rw [h4] at a
    exact hm ⟨a, by rw [← h5 a]; exact b, by rw [← h3]; exact e⟩

/-- **C127, finding.** In the 12-hour format the hour after midnight (12:mm AM) is handed over as the hour after noon:
the result is twelve hours late. -/
theorem C127_after_midnight (t : TimeT) (d : CalendarT) (c : Chip) (ht : ValidTime t) (hd : ValidCalendar d)
    (hm : AfterMidnight t) :
    hourOfDay t = 0 ∧
    epochTm (setCalendar d (setTime t c 4).2 5).2 1 4 1 3 = some { tmOf d t with hour := 12 } := by
  obtain ⟨t', h1, h2, h3, h4, h5, h6⟩ := epochTm_set t d c ht hd
  obtain ⟨m1, m2, m3⟩ := hm
  refine ⟨by unfold hourOfDay; rw [m1, m2, m3]; rfl, ?_⟩
  rw [h6]
  have hv : ValidTime t' := by
    unfold ValidTime
    rw [h1, h2, h3, h4]
    exact ht
  rw [epochHour_eq t' hv, if_pos ⟨by rw [h4]; exact m1, by rw [h5 m1]; exact m2, by rw [h3]; exact m3⟩]
  unfold tmOf
  have e : (2000 + (d.year.toNat : Int)) - 1900 = d.year.toNat + 100 := by omega
  rw [e]
  rfl

/-- **C127, finding.** If one of the transfers is cut short, `mktime` is called with members that were never set. -/
theorem C127_failed_transfer (c : Chip) (n1 m1 n2 m2 : Nat) (h : n1 < 1 ∨ m1 < 4 ∨ n2 < 1 ∨ m2 < 3) :
    epochTm c n1 m1 n2 m2 = none := by
  unfold epochTm
  simp only
  by_cases hc : (getCalendar ⟨0#8, 0#8, 0#8, 0#8⟩ c n1 m1).1 = true
  · rw [if_pos hc]
    have hn : ¬ (n1 < 1 ∨ m1 < 4) := by
      intro hh
      have : (getCalendar ⟨0#8, 0#8, 0#8, 0#8⟩ c n1 m1).1 = false := by
        rcases hh with hh | hh
        · have : n1 = 0 := by omega
          subst this
          rfl
        · rcases Nat.eq_zero_or_pos n1 with h0 | h0
          · subst h0; rfl
          · obtain ⟨k, rfl⟩ : ∃ k, n1 = k + 1 := ⟨n1 - 1, by omega⟩
            have : m1 = 0 ∨ m1 = 1 ∨ m1 = 2 ∨ m1 = 3 := by omega
            rcases this with h | h | h | h <;> subst h <;>
              simp [getCalendar, Chip.send, Chip.read, List.range_succ]
      rw [this] at hc
      exact absurd hc (by decide)
    have := (C48_time_failures ⟨0#8, 0#8, 0#8, false, false⟩ ⟨0#8, 0#8, 0#8, false, false⟩
      (getCalendar ⟨0#8, 0#8, 0#8, 0#8⟩ c n1 m1).2.2 n2 m2).2 (by omega)
    rw [this.1]
    rfl
  · rw [if_neg hc]

/-- Non-vacuity: 31 December 2099, 11:59:58 PM. -/
example : ValidTime ⟨58#8, 59#8, 11#8, true, true⟩ ∧ ValidCalendar ⟨5#8, 31#8, 12#8, 99#8⟩ ∧
    ¬ AfterMidnight ⟨58#8, 59#8, 11#8, true, true⟩ ∧ AfterMidnight ⟨0#8, 30#8, 12#8, false, true⟩ ∧
    tmOf ⟨5#8, 31#8, 12#8, 99#8⟩ ⟨58#8, 59#8, 11#8, true, true⟩ = ⟨4, 31, 11, 199, 23, 59, 58⟩ := by
  unfold ValidTime ValidCalendar AfterMidnight
  decide

end Verif.Rtc
