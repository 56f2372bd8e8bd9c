import Verif.Util.Rtc

/-!
# C48: the real-time clock driver reads back what it set

Specification: the register layout of the DS3231 data sheet. A register in binary coded decimal holds the
tens digit in the high nibble and the ones digit in the low nibble.
-/

namespace Verif.Rtc

/-- Specification: `reg` is the binary coded decimal form of `v`. -/
def IsBcd (v reg : Byte) : Prop := reg.toNat = 16 * (v.toNat / 10) + v.toNat % 10

instance (v reg : Byte) : Decidable (IsBcd v reg) := by unfold IsBcd; infer_instance

/-- A time of day, in the 12 or 24 hour format, as the documentation of the API admits it. -/
def ValidTime (t : TimeT) : Prop :=
  t.seconds.toNat ≤ 59 ∧ t.minutes.toNat ≤ 59 ∧ (if t.mode then 1 ≤ t.hours.toNat ∧ t.hours.toNat ≤ 12 else t.hours.toNat ≤ 23)

/-- A date. -/
def ValidCalendar (t : CalendarT) : Prop :=
  1 ≤ t.day.toNat ∧ t.day.toNat ≤ 7 ∧ 1 ≤ t.date.toNat ∧ t.date.toNat ≤ 31 ∧ 1 ≤ t.month.toNat ∧ t.month.toNat ≤ 12 ∧
    t.year.toNat ≤ 99

/-- An alarm: both day and date must be in range whichever is used. -/
def ValidAlarm (a : AlarmT) (one : Bool) : Prop :=
  (one = true → a.seconds.toNat ≤ 59) ∧ a.minutes.toNat ≤ 59 ∧ a.hours.toNat ≤ (if a.mode then 12 else 23) ∧
    1 ≤ a.day.toNat ∧ a.day.toNat ≤ 7 ∧ 1 ≤ a.date.toNat ∧ a.date.toNat ≤ 31

/-! ## tables -/

theorem bcd_table : ∀ v : Byte, v.toNat ≤ 99 → IsBcd v (uchar2bcd v) ∧ bcd2uchar (uchar2bcd v) = v := by
  decide +kernel

theorem bcd7_table : ∀ v : Byte, v.toNat ≤ 59 → ∀ am : Bool,
    bcd2uchar ((flag am ALRM_MASK ||| uchar2bcd v) &&& 0x7F#8) = v ∧ bit (flag am ALRM_MASK ||| uchar2bcd v) ALRM_MASK = am ∧
    bcd2uchar (uchar2bcd v &&& 0x7F#8) = v := by
  decide +kernel

theorem hour_table : ∀ v : Byte, ∀ mode am am3 : Bool, v ≤ maxHour mode →
    let r := uchar2bcd v ||| hourBits mode am
    let q := (flag am3 ALRM_MASK ||| hourBits mode am) ||| uchar2bcd v
    hoursOf r = v ∧ bit r MODE = mode ∧ (mode = true → bit r AM_PM = am) ∧
    hoursOf q = v ∧ bit q MODE = mode ∧ (mode = true → bit q AM_PM = am) ∧ bit q ALRM_MASK = am3 ∧
    r.toNat % 32 + (if mode then 0 else r.toNat / 32 % 2 * 32) = 16 * (v.toNat / 10) + v.toNat % 10 ∧
    q.toNat % 32 + (if mode then 0 else q.toNat / 32 % 2 * 32) = 16 * (v.toNat / 10) + v.toNat % 10 ∧
    r.toNat < 128 := by
  decide +kernel

theorem dd_table : ∀ v : Byte, ∀ am4 : Bool,
    (v.toNat ≤ 7 → bcd2uchar (((flag am4 ALRM_MASK ||| DY_DT) ||| uchar2bcd v) &&& 0x0F#8) = v ∧
      bit ((flag am4 ALRM_MASK ||| DY_DT) ||| uchar2bcd v) DY_DT = true ∧
      bit ((flag am4 ALRM_MASK ||| DY_DT) ||| uchar2bcd v) ALRM_MASK = am4 ∧
      ((flag am4 ALRM_MASK ||| DY_DT) ||| uchar2bcd v).toNat = (if am4 then 128 else 0) + 64 + v.toNat) ∧
    (v.toNat ≤ 31 → bcd2uchar ((flag am4 ALRM_MASK ||| uchar2bcd v) &&& 0x3F#8) = v ∧
      bit (flag am4 ALRM_MASK ||| uchar2bcd v) DY_DT = false ∧ bit (flag am4 ALRM_MASK ||| uchar2bcd v) ALRM_MASK = am4 ∧
      (flag am4 ALRM_MASK ||| uchar2bcd v).toNat = (if am4 then 128 else 0) + 16 * (v.toNat / 10) + v.toNat % 10) := by
  decide +kernel

/-! ## time -/

theorem maxHour_toNat (m : Bool) : (maxHour m).toNat = if m then 12 else 23 := by cases m <;> rfl

theorem setTime_ok (t : TimeT) (h : ¬ (t.seconds > 59#8 ∨ t.minutes > 59#8 ∨ t.hours > maxHour t.mode)) (c : Chip)
    (n : Nat) (hn : 4 ≤ n) :
    setTime t c n = (true, { regs := storeAt c.regs 0 [uchar2bcd t.seconds, uchar2bcd t.minutes,
      uchar2bcd t.hours ||| hourBits t.mode t.am_pm], ptr := 3 }) := by
  unfold setTime
  dsimp only
  rw [if_neg (by simpa [or_assoc] using h)]
  unfold Chip.send
  rw [List.take_of_length_le (by simpa using hn)]
  rfl

/-- **C48 (time).** On a working bus, for every valid time, `SetTime` succeeds, and after it `GetTime` returns the
seconds, the minutes, the hours and the format that were set, and the AM/PM flag if the 12-hour format is
used — whatever the chip and the caller's structure contained before. -/
theorem C48_time_round_trip (t t0 : TimeT) (c : Chip) (hv : ValidTime t) :
    (setTime t c 4).1 = true ∧
    ∃ t' c', getTime t0 (setTime t c 4).2 1 3 = (true, t', c') ∧
      t'.seconds = t.seconds ∧ t'.minutes = t.minutes ∧ t'.hours = t.hours ∧ t'.mode = t.mode ∧
      (t.mode = true → t'.am_pm = t.am_pm) := by
  obtain ⟨h1, h2, h3⟩ := hv
  have hh : t.hours ≤ maxHour t.mode := by
    rw [BitVec.le_def, maxHour_toNat]
    split at h3 <;> simp_all
  have hok := setTime_ok t (by
    rw [gt_iff_lt, gt_iff_lt, gt_iff_lt, BitVec.lt_def, BitVec.lt_def, BitVec.lt_def]
    rw [BitVec.le_def] at hh
    rw [BitVec.toNat_ofNat]
    omega) c 4 (by omega)
  rw [hok]
  refine ⟨rfl, _, _, rfl, ?_⟩
  obtain ⟨q1, q2, q3, -⟩ := hour_table t.hours t.mode t.am_pm false hh
  refine ⟨(bcd_table t.seconds (by omega)).2, (bcd_table t.minutes (by omega)).2, q1, q2, q3⟩

/-- **C48 (time).** What `SetTime` leaves in the chip is the format of the data sheet: seconds and minutes in binary
coded decimal, the hour in the low 5 (12-hour) or 6 (24-hour) bits of register 2 with bit 6 telling the
format and bit 5 AM/PM; no other register changes. -/
theorem C48_time_registers (t : TimeT) (c : Chip) (hv : ValidTime t) :
    let r := (setTime t c 4).2.regs
    IsBcd t.seconds (r 0) ∧ IsBcd t.minutes (r 1) ∧ (r 2).getLsbD 6 = t.mode ∧ (r 2).getLsbD 7 = false ∧
      (t.mode = true → (r 2).getLsbD 5 = t.am_pm) ∧
      (r 2).toNat % (if t.mode then 32 else 64) = 16 * (t.hours.toNat / 10) + t.hours.toNat % 10 ∧
      ∀ a, 3 ≤ a → r a = c.regs a := by
  obtain ⟨h1, h2, h3⟩ := hv
  have hh : t.hours ≤ maxHour t.mode := by
    rw [BitVec.le_def, maxHour_toNat]
    split at h3 <;> simp_all
  have hok := setTime_ok t (by
    rw [gt_iff_lt, gt_iff_lt, gt_iff_lt, BitVec.lt_def, BitVec.lt_def, BitVec.lt_def]
    rw [BitVec.le_def] at hh
    rw [BitVec.toNat_ofNat]
    omega) c 4 (by omega)
  rw [hok]
  obtain ⟨q1, q2, q3, -, -, -, -, q8, -, q10⟩ := hour_table t.hours t.mode t.am_pm false hh
  have hbits : ∀ r : Byte, r.getLsbD 6 = bit r MODE ∧ r.getLsbD 5 = bit r AM_PM ∧ (r.toNat < 128 → r.getLsbD 7 = false) ∧
      r.toNat % 64 = r.toNat % 32 + r.toNat / 32 % 2 * 32 := by decide +kernel
  refine ⟨(bcd_table t.seconds (by omega)).1, (bcd_table t.minutes (by omega)).1, (hbits _).1.trans q2,
    (hbits _).2.2.1 q10, fun hm => (hbits _).2.1.trans (q3 hm), ?_, ?_⟩
  · show (uchar2bcd t.hours ||| hourBits t.mode t.am_pm).toNat % _ = _
    cases hm : t.mode
    · rw [hm] at q8
      rw [if_neg (by simp), (hbits _).2.2.2]
      simpa using q8
    · rw [hm] at q8
      rw [if_pos rfl]
      simpa using q8
  · intro a ha
    show storeAt c.regs 0 [_, _, _] a = c.regs a
    simp only [storeAt]
    rw [if_neg (by omega), if_neg (by omega), if_neg (by omega)]

/-- **C48 (time).** A time that is out of range is refused without touching the chip. -/
theorem C48_invalid_time_refused (t : TimeT) (c : Chip) (n : Nat)
    (h : 59 < t.seconds.toNat ∨ 59 < t.minutes.toNat ∨ (if t.mode then 12 else 23) < t.hours.toNat) :
    setTime t c n = (false, c) := by
  unfold setTime
  dsimp only
  rw [if_pos]
  simp only [Bool.or_eq_true, decide_eq_true_eq, gt_iff_lt, BitVec.lt_def, BitVec.toNat_ofNat, maxHour_toNat]
  omega

/-- **C48.** A transfer that the bus cuts short is reported as a failure, and a failed read leaves the caller's
structure as it was. -/
theorem C48_time_failures (t t0 : TimeT) (c : Chip) (n m : Nat) :
    (n < 4 → (setTime t c n).1 = false) ∧ ((n < 1 ∨ m < 3) → (getTime t0 c n m).1 = false ∧ (getTime t0 c n m).2.1 = t0) := by
  constructor
  · intro hn
    unfold setTime
    dsimp only
    split
    · rfl
    · have : n = 0 ∨ n = 1 ∨ n = 2 ∨ n = 3 := by omega
      rcases this with h | h | h | h <;> subst h <;> rfl
  · intro h
    by_cases h0 : n = 0
    · subst h0; exact ⟨rfl, rfl⟩
    · have hm : m = 0 ∨ m = 1 ∨ m = 2 := by omega
      obtain ⟨k, rfl⟩ : ∃ k, n = k + 1 := ⟨n - 1, by omega⟩
      rcases hm with h | h | h <;> subst h <;>
        simp [getTime, Chip.send, Chip.read, List.range_succ]

/-- Non-vacuity: 11:59:30 PM. -/
example : ValidTime ⟨30#8, 59#8, 11#8, true, true⟩ ∧
    ((List.range 3).map (setTime ⟨30#8, 59#8, 11#8, true, true⟩ ⟨fun _ => 0xEE#8, 9⟩ 4).2.regs) = [0x30#8, 0x59#8, 0x71#8] := by
  unfold ValidTime
  decide

theorem getTime_am_pm (t0 : TimeT) (c : Chip) : (getTime t0 c 1 3).2.1.am_pm = bit (c.regs 2) AM_PM := rfl

/-- **C48, finding.** In the 24-hour format `GetTime` reports PM for 20:00 to 23:59 and AM for 12:00 to 19:59:
the flag is bit 5 of the hour register, which in this format is the hour's "20" digit. -/
theorem C48_am_pm_wrong_in_24h (t0 : TimeT) (c : Chip) :
    (getTime t0 (setTime ⟨0#8, 0#8, 14#8, true, false⟩ c 4).2 1 3).2.1.am_pm = false ∧
    (getTime t0 (setTime ⟨0#8, 0#8, 21#8, false, false⟩ c 4).2 1 3).2.1.am_pm = true := by
  constructor
  · rw [setTime_ok _ (by decide) c 4 (by omega)]
    rw [getTime_am_pm]
    show bit (uchar2bcd 14#8 ||| hourBits false true) AM_PM = false
    decide +kernel
  · rw [setTime_ok _ (by decide) c 4 (by omega)]
    rw [getTime_am_pm]
    show bit (uchar2bcd 21#8 ||| hourBits false false) AM_PM = true
    decide +kernel

/-- **C48, finding.** Hour 0 is accepted in the 12-hour format. -/
theorem C48_hour_zero_accepted (c : Chip) : (setTime ⟨0#8, 0#8, 0#8, false, true⟩ c 4).1 = true := rfl

/-- **C48, finding.** `GetEpoch` takes 12:xx AM as noon: the same hour of day as 12:xx PM. -/
theorem C48_midnight_is_noon (s m : Byte) :
    epochHour ⟨s, m, 12#8, false, true⟩ = 12 ∧ epochHour ⟨s, m, 12#8, true, true⟩ = 12 := ⟨rfl, rfl⟩

/-! ## calendar -/

theorem setCalendar_ok (t : CalendarT) (h : ValidCalendar t) (c : Chip) :
    setCalendar t c 5 = (true, ⟨storeAt c.regs 3 [uchar2bcd t.day, uchar2bcd t.date, uchar2bcd t.month,
      uchar2bcd t.year], 7⟩) := by
  unfold setCalendar
  dsimp only
  rw [if_neg]
  · rfl
  · obtain ⟨h1, h2, h3, h4, h5, h6, h7⟩ := h
    simp only [Bool.or_eq_true, decide_eq_true_eq, gt_iff_lt, BitVec.lt_def, BitVec.toNat_ofNat]
    omega

/-- **C48 (calendar).** On a working bus every valid date is set successfully, is stored in binary coded decimal in
registers 3 to 6 without touching any other register, and is read back unchanged. -/
theorem C48_calendar_round_trip (t t0 : CalendarT) (c : Chip) (hv : ValidCalendar t) :
    (setCalendar t c 5).1 = true ∧ (∃ c', getCalendar t0 (setCalendar t c 5).2 1 4 = (true, t, c')) ∧
    (let r := (setCalendar t c 5).2.regs
     IsBcd t.day (r 3) ∧ IsBcd t.date (r 4) ∧ IsBcd t.month (r 5) ∧ IsBcd t.year (r 6) ∧
      ∀ a, a < 3 ∨ 7 ≤ a → r a = c.regs a) := by
  rw [setCalendar_ok t hv]
  obtain ⟨h1, h2, h3, h4, h5, h6, h7⟩ := hv
  refine ⟨rfl, ⟨⟨storeAt c.regs 3 [uchar2bcd t.day, uchar2bcd t.date, uchar2bcd t.month, uchar2bcd t.year], 7⟩, ?_⟩,
    (bcd_table _ (by omega)).1, (bcd_table _ (by omega)).1, (bcd_table _ (by omega)).1,
    (bcd_table _ (by omega)).1, ?_⟩
  · show (true, CalendarT.mk (bcd2uchar (uchar2bcd t.day)) (bcd2uchar (uchar2bcd t.date))
      (bcd2uchar (uchar2bcd t.month &&& 0x7F#8)) (bcd2uchar (uchar2bcd t.year)), _) = _
    rw [(bcd_table t.day (by omega)).2, (bcd_table t.date (by omega)).2, (bcd7_table t.month (by omega) false).2.2,
      (bcd_table t.year (by omega)).2]
    rfl
  · intro a ha
    show storeAt c.regs 3 [_, _, _, _] a = c.regs a
    simp only [storeAt]
    rw [if_neg (by omega), if_neg (by omega), if_neg (by omega), if_neg (by omega)]

/-- **C48 (calendar).** A date out of range is refused without touching the chip. -/
theorem C48_invalid_calendar_refused (t : CalendarT) (c : Chip) (n : Nat) (h : ¬ ValidCalendar t) :
    setCalendar t c n = (false, c) := by
  unfold setCalendar
  dsimp only
  rw [if_pos]
  unfold ValidCalendar at h
  simp only [Bool.or_eq_true, decide_eq_true_eq, gt_iff_lt, BitVec.lt_def, BitVec.toNat_ofNat]
  omega

example : ValidCalendar ⟨7#8, 31#8, 12#8, 99#8⟩ ∧ ¬ ValidCalendar ⟨7#8, 31#8, 13#8, 99#8⟩ := by
  unfold ValidCalendar; decide

/-! ## alarms -/

theorem setAlarm_ok (a : AlarmT) (one : Bool) (h : ValidAlarm a one) (c : Chip) (n : Nat) (hn : 5 ≤ n) :
    setAlarm a one c n = (true, (c.send (alarmData a one) 5).1) := by
  obtain ⟨h1, h2, h3, h4, h5, h6, h7⟩ := h
  unfold setAlarm
  rw [if_neg]
  · cases one
    · unfold alarmData Chip.send
      rw [if_neg (by simp), List.take_of_length_le (by simp; omega)]
      rfl
    · unfold alarmData Chip.send
      rw [if_pos rfl, List.take_of_length_le (by simpa using hn)]
      rfl
  · simp only [Bool.or_eq_true, Bool.and_eq_true, decide_eq_true_eq, gt_iff_lt, BitVec.lt_def, BitVec.toNat_ofNat,
      maxHour_toNat]
    rintro ((((((⟨q, q'⟩ | q) | q) | q) | q) | q) | q)
    · have := h1 q; omega
    all_goals omega

/-- **C48 (alarm).** On a working bus every valid alarm is set successfully and is read back: minutes, hours, format,
AM/PM (12-hour format), the four mask bits (alarm 2 has no seconds and no first mask bit), and the day or
the date, whichever is selected; the selection itself is read back when it is "day", or when the
caller's structure had "date" selected before the call (see the finding below). -/
theorem C48_alarm_round_trip_partial (a a0 : AlarmT) (one : Bool) (c : Chip) (hv : ValidAlarm a one) :
    (setAlarm a one c 5).1 = true ∧
    ∃ a' c', getAlarm a0 one (setAlarm a one c 5).2 1 4 = (true, a', c') ∧
      (one = true → a'.seconds = a.seconds ∧ a'.am1 = a.am1) ∧
      a'.minutes = a.minutes ∧ a'.am2 = a.am2 ∧ a'.hours = a.hours ∧ a'.mode = a.mode ∧ a'.am3 = a.am3 ∧ a'.am4 = a.am4 ∧
      (a.mode = true → a'.am_pm = a.am_pm) ∧
      (a.dy_dt = true → a'.dy_dt = true ∧ a'.day = a.day) ∧
      (a.dy_dt = false → a'.date = a.date ∧ a'.dy_dt = a0.dy_dt) := by
  rw [setAlarm_ok a one hv c 5 (by omega)]
  obtain ⟨h1, h2, h3, h4, h5, h6, h7⟩ := hv
  have hh : a.hours ≤ maxHour a.mode := by
    rw [BitVec.le_def, maxHour_toNat]
    exact h3
  obtain ⟨-, -, -, q4, q5, q6, q7, -⟩ := hour_table a.hours a.mode a.am_pm a.am3 hh
  refine ⟨rfl, ?_⟩
  have key : ∀ s : AlarmT, ∀ s' : AlarmT,
      s' = alarmFrom s (flag a.am2 ALRM_MASK ||| uchar2bcd a.minutes) (alarmHourReg a) (dayDateReg a) →
      (s'.seconds = s.seconds ∧ s'.am1 = s.am1) ∧
      s'.minutes = a.minutes ∧ s'.am2 = a.am2 ∧ s'.hours = a.hours ∧ s'.mode = a.mode ∧ s'.am3 = a.am3 ∧ s'.am4 = a.am4 ∧
      (a.mode = true → s'.am_pm = a.am_pm) ∧
      (a.dy_dt = true → s'.dy_dt = true ∧ s'.day = a.day) ∧
      (a.dy_dt = false → s'.date = a.date ∧ s'.dy_dt = s.dy_dt) := by
    intro s s' hs'
    subst hs'
    have b := bcd7_table a.minutes h2 a.am2
    cases hd : a.dy_dt
    · obtain ⟨d1, d2, d3, -⟩ := (dd_table a.date a.am4).2 h7
      have e : dayDateReg a = flag a.am4 ALRM_MASK ||| uchar2bcd a.date := by
        unfold dayDateReg; rw [if_neg (by simp [hd])]
      rw [e]
      unfold alarmFrom
      rw [d2]
      exact ⟨⟨rfl, rfl⟩, b.1, b.2.1, q4, q5, q7, d3, q6, fun h => by simp at h, fun _ => ⟨d1, rfl⟩⟩
    · obtain ⟨d1, d2, d3, -⟩ := (dd_table a.day a.am4).1 h5
      have e : dayDateReg a = (flag a.am4 ALRM_MASK ||| DY_DT) ||| uchar2bcd a.day := by
        unfold dayDateReg; rw [if_pos hd]
      rw [e]
      unfold alarmFrom
      rw [d2]
      exact ⟨⟨rfl, rfl⟩, b.1, b.2.1, q4, q5, q7, d3, q6, fun _ => ⟨rfl, d1⟩, fun h => by simp at h⟩
  cases one
  · refine ⟨_, _, rfl, fun h => by simp at h, ?_⟩
    exact (key a0 _ rfl).2
  · have b := bcd7_table a.seconds (h1 rfl) a.am1
    refine ⟨_, _, rfl, ?_, ?_⟩
    · intro _
      have k := (key { a0 with seconds := bcd2uchar ((flag a.am1 ALRM_MASK ||| uchar2bcd a.seconds) &&& 0x7F#8), am1 := bit (flag a.am1 ALRM_MASK ||| uchar2bcd a.seconds) ALRM_MASK } _ rfl).1
      exact ⟨k.1.trans b.1, k.2.trans b.2.1⟩
    · exact (key { a0 with seconds := bcd2uchar ((flag a.am1 ALRM_MASK ||| uchar2bcd a.seconds) &&& 0x7F#8), am1 := bit (flag a.am1 ALRM_MASK ||| uchar2bcd a.seconds) ALRM_MASK } _ rfl).2

/-- **C48 (alarm).** An alarm out of range is refused without touching the chip. -/
theorem C48_invalid_alarm_refused (a : AlarmT) (one : Bool) (c : Chip) (n : Nat) (h : ¬ ValidAlarm a one) :
    setAlarm a one c n = (false, c) := by
  unfold setAlarm
  rw [if_pos]
  unfold ValidAlarm at h
  simp only [Bool.or_eq_true, Bool.and_eq_true, decide_eq_true_eq, gt_iff_lt, BitVec.lt_def, BitVec.toNat_ofNat,
      maxHour_toNat]
  cases one <;> simp at h ⊢ <;> omega

/-- **C48 (alarm).** Setting one alarm changes the registers of that alarm only. -/
theorem C48_alarm_frame (a : AlarmT) (one : Bool) (c : Chip) (n : Nat) (r : Nat)
    (hr : if one then r < 7 ∨ 11 ≤ r else r < 11 ∨ 14 ≤ r) :
    (setAlarm a one c n).2.regs r = c.regs r := by
  unfold setAlarm
  split
  · rfl
  · show (c.send (alarmData a one) n).1.regs r = c.regs r
    have hst : ∀ (bs : List Byte) (regs : Nat → Byte) (x : Nat), r < x ∨ x + bs.length ≤ r →
        storeAt regs x bs r = regs r := by
      intro bs
      induction bs with
      | nil => intro regs x _; rfl
      | cons b bs ih =>
        intro regs x hx
        rw [List.length_cons] at hx
        rw [storeAt, ih _ _ (by omega), if_neg (by omega)]
    unfold Chip.send
    cases hd : (alarmData a one).take n with
    | nil => rfl
    | cons x bs =>
      have hlen : ((alarmData a one).take n).length ≤ (alarmData a one).length := by
        rw [List.length_take]; omega
      rw [hd, List.length_cons] at hlen
      have hx : (alarmData a one).head? = some x := by
        have := congrArg List.head? hd
        rw [List.head?_take] at this
        split at this
        · simp at this
        · simpa using this
      refine hst bs _ _ ?_
      cases one
      · have : x = ALRM2_MINUTES := by simpa [alarmData] using hx.symm
        subst this
        have h4 : (alarmData a false).length = 4 := rfl
        rw [h4] at hlen
        show r < 11 ∨ 11 + bs.length ≤ r
        simp at hr
        omega
      · have : x = ALRM1_SECONDS := by simpa [alarmData] using hx.symm
        subst this
        have h4 : (alarmData a true).length = 5 := rfl
        rw [h4] at hlen
        show r < 7 ∨ 7 + bs.length ≤ r
        simp at hr
        omega

/-- Non-vacuity: alarm 1 every Wednesday at 06:45:00. -/
example : ValidAlarm ⟨0#8, 45#8, 6#8, 3#8, 1#8, false, false, false, false, false, false, true⟩ true := by
  unfold ValidAlarm; decide

/-- **C48, finding.** `GetAlarm` never clears the day/date selection: an alarm set by date is reported as an alarm by
day of the week when the caller's structure had that flag set. -/
theorem C48_alarm_selection_sticks (c : Chip) (a0 : AlarmT) (h : a0.dy_dt = true) :
    (getAlarm a0 true (setAlarm ⟨0#8, 0#8, 0#8, 1#8, 24#8, false, false, false, false, false, false, false⟩ true c 5).2
      1 4).2.1.dy_dt = true := by
  obtain ⟨-, a', c', h1, h2⟩ := C48_alarm_round_trip_partial
    ⟨0#8, 0#8, 0#8, 1#8, 24#8, false, false, false, false, false, false, false⟩ a0 true c (by unfold ValidAlarm; decide)
  rw [h1]
  exact (h2.2.2.2.2.2.2.2.2.2 rfl).2.trans h

/-! ## control and status -/

/-- **C48 (alarm flag).** `CheckAlarm` reports exactly the flag of the chosen alarm, and `ResetAlarm` clears the flag and
the interrupt enable bit of that alarm and no other bit of the two registers. -/
theorem C48_alarm_flags (one : Bool) (c : Chip) :
    checkAlarm one c = (c.regs 0x0f).getLsbD (if one then 0 else 1) ∧
    (resetAlarm one c).1 = true ∧
    (∀ r, ∀ i, i < 8 → ((resetAlarm one c).2.regs r).getLsbD i =
      if (r = 0x0e ∨ r = 0x0f) ∧ i = (if one then 0 else 1) then false else (c.regs r).getLsbD i) := by
  have hb : ∀ r : Byte, bit r 0x01#8 = r.getLsbD 0 ∧ bit r 0x02#8 = r.getLsbD 1 := by decide +kernel
  have hm : ∀ r : Byte, ∀ i : Fin 8, (r &&& 0xFE#8).getLsbD i = (if i.val = 0 then false else r.getLsbD i) ∧
    (r &&& 0xFD#8).getLsbD i = (if i.val = 1 then false else r.getLsbD i) := by decide +kernel
  have hregs : (resetAlarm one c).2.regs = storeAt c.regs 0x0e [c.regs 0x0e &&& (if one then 0xFE#8 else 0xFD#8),
      c.regs 0x0f &&& (if one then 0xFE#8 else 0xFD#8)] := by
    cases one <;> rfl
  refine ⟨?_, ?_, ?_⟩
  · cases one
    · exact (hb (c.regs 0x0f)).2
    · exact (hb (c.regs 0x0f)).1
  · cases one <;> rfl
  · intro r i hi
    rw [hregs]
    simp only [storeAt]
    by_cases h1 : r = 0x0f
    · rw [if_pos h1]
      subst h1
      cases one
      · rw [if_neg (by simp), (hm (c.regs 0x0f) ⟨i, hi⟩).2]; simp
      · rw [if_pos rfl, (hm (c.regs 0x0f) ⟨i, hi⟩).1]; simp
    · rw [if_neg (by omega)]
      by_cases h2 : r = 0x0e
      · rw [if_pos h2]
        subst h2
        cases one
        · rw [if_neg (by simp), (hm (c.regs 0x0e) ⟨i, hi⟩).2]; simp
        · rw [if_pos rfl, (hm (c.regs 0x0e) ⟨i, hi⟩).1]; simp
      · rw [if_neg h2, if_neg (by omega)]

/-- **C48, finding.** `TurnOnAlarm` never sets the interrupt enable bit: if it was off before, it is off after. -/
theorem C48_turn_on_does_not_enable (one : Bool) (c : Chip)
    (h : (c.regs 0x0e).getLsbD (if one then 0 else 1) = false) :
    ((turnOnAlarm one c).2.regs 0x0e).getLsbD (if one then 0 else 1) = false := by
  have hm : ∀ r : Byte, (r.getLsbD 0 = false → (r &&& 0x05#8).getLsbD 0 = false) ∧
    (r.getLsbD 1 = false → (r &&& 0x06#8).getLsbD 1 = false) := by decide +kernel
  cases one
  · exact (hm (c.regs 0x0e)).2 (by simpa using h)
  · exact (hm (c.regs 0x0e)).1 (by simpa using h)

/-- **C48, finding.** `EnableOscillator` also overwrites the status register with zero, so it clears pending alarm
flags and the "oscillator stopped" flag. -/
theorem C48_enable_oscillator_clears_status (on battery : Bool) (rs : Byte) (c : Chip) :
    (enableOscillator on battery rs c).2.regs 0x0f = 0#8 := by
  cases on <;> cases battery <;> rfl

/-- **C48 (oscillator).** `EnableOscillator` switches the oscillator (bit 7, inverted), the square wave on battery
(bit 6) and its frequency (bits 3 and 4) as asked for; switching it on also selects the square wave instead of the
alarm interrupt (bit 2). The other bits and all registers but control and status stay as they are. -/
theorem C48_oscillator (on battery : Bool) (rs : Byte) (hrs : rs &&& 0xE7#8 = 0#8) (c : Chip) :
    (enableOscillator on battery rs c).1 = true ∧
    (∀ i, i < 8 → ((enableOscillator on battery rs c).2.regs 0x0e).getLsbD i =
      if i = 7 then !on else if i = 6 then battery else if i = 3 ∨ i = 4 then rs.getLsbD i
      else if i = 2 ∧ on = true then false else (c.regs 0x0e).getLsbD i) ∧
    ∀ r, r ≠ 0x0e → r ≠ 0x0f → (enableOscillator on battery rs c).2.regs r = c.regs r := by
  have hregs : (enableOscillator on battery rs c).2.regs = storeAt c.regs 0x0e
      [(let x := c.regs 0x0e &&& 0xE7#8
        let x := if battery then x ||| 0x40#8 else x &&& 0xBF#8
        let x := if on then x &&& 0x7B#8 else x ||| 0x80#8
        x ||| rs), 0#8] := by
    cases on <;> cases battery <;> rfl
  refine ⟨by cases on <;> cases battery <;> rfl, ?_, ?_⟩
  · intro i hi
    rw [hregs]
    have hr : ∀ j, j < 8 → j ≠ 3 → j ≠ 4 → rs.getLsbD j = false := by
      intro j hj h3 h4
      have h := congrArg (·.getLsbD j) hrs
      simp only [BitVec.getLsbD_and] at h
      have hm : ∀ j : Fin 8, j.val ≠ 3 → j.val ≠ 4 → (0xE7#8 : Byte).getLsbD j.val = true := by decide
      rw [hm ⟨j, hj⟩ h3 h4] at h
      simpa using h
    have hmask : ∀ j : Fin 8, (0xE7#8 : Byte).getLsbD j.val = decide (j.val ≠ 3 ∧ j.val ≠ 4) ∧
        (0x40#8 : Byte).getLsbD j.val = decide (j.val = 6) ∧
        (0xBF#8 : Byte).getLsbD j.val = decide (j.val ≠ 6) ∧
        (0x7B#8 : Byte).getLsbD j.val = decide (j.val ≠ 7 ∧ j.val ≠ 2) ∧
        (0x80#8 : Byte).getLsbD j.val = decide (j.val = 7) := by decide
    obtain ⟨m1, m2, m3, m4, m5⟩ := hmask ⟨i, hi⟩
    simp only at m1 m2 m3 m4 m5
    have hri := hr i hi
    show BitVec.getLsbD (_ ||| rs) i = _
    have hc : i = 0 ∨ i = 1 ∨ i = 2 ∨ i = 3 ∨ i = 4 ∨ i = 5 ∨ i = 6 ∨ i = 7 := by omega
    cases on <;> cases battery <;>
      simp only [if_true, Bool.false_eq_true, if_false, BitVec.getLsbD_or, BitVec.getLsbD_and,
        m1, m2, m3, m4, m5] <;>
      rcases hc with rfl | rfl | rfl | rfl | rfl | rfl | rfl | rfl <;> simp_all
  · intro r h1 h2
    rw [hregs]
    simp only [storeAt]
    rw [if_neg (by omega), if_neg h1]

/-- A square wave of 4 kHz (`RS2`) is selected while the clock goes on. -/
example : (0x10#8 : Byte) &&& 0xE7#8 = 0#8 := by decide

/-- **C48, finding.** Temperatures below zero (two's complement in the chip) are reported as large positive values. -/
theorem C48_negative_temperature_wrong (c : Chip) (h : (c.regs 0x11).toInt < 0) :
    getTemperatureQuarters c ≥ 4 * 128 := by
  unfold getTemperatureQuarters
  rw [BitVec.toInt_eq_toNat_cond] at h
  have := (c.regs 0x11).isLt
  split at h <;> omega

/-- **C48 (temperature).** Temperatures from 0 °C on are right to a quarter of a degree. -/
theorem C48_temperature (c : Chip) (h : 0 ≤ (c.regs 0x11).toInt) :
    getTemperatureQuarters c = 4 * (c.regs 0x11).toInt + ((c.regs 0x12).toNat / 64 : Nat) := by
  unfold getTemperatureQuarters
  rw [BitVec.toInt_eq_toNat_cond] at h ⊢
  have := (c.regs 0x11).isLt
  split at h
  · rw [if_pos (by assumption)]
  · omega

end Verif.Rtc
