import Verif.Base

/-!
# Model of sblib/src/i2c/ds3231.cpp (real-time clock driver)

The chip is its register file with an address pointer that is set by the first byte of a write transfer
and incremented by every byte written or read (DS3231 data sheet). Its clock does not advance during the
modelled calls. A transfer can be cut short by the bus: `Link` says how many bytes of each transfer the
bus lets through, so `Chip_I2C_MasterSend/Read` return that number.
-/

namespace Verif.Rtc

/-- The chip: registers and address pointer. -/
structure Chip where
  regs : Nat → Byte
  ptr : Nat

/-- Store bytes into consecutive registers. -/
def storeAt (regs : Nat → Byte) (a : Nat) : List Byte → (Nat → Byte)
  | [] => regs
  | b :: bs => storeAt (fun i => if i = a then b else regs i) (a + 1) bs

/-- `Chip_I2C_MasterSend` of `bytes`, of which the bus lets `n` through. Returns the number of bytes sent. -/
def Chip.send (c : Chip) (bytes : List Byte) (n : Nat) : Chip × Nat :=
  match bytes.take n with
  | [] => (c, 0)
  | a :: bs => ({ regs := storeAt c.regs a.toNat bs, ptr := a.toNat + bs.length }, bs.length + 1)

/-- `Chip_I2C_MasterRead` of `len` bytes, of which the bus lets `n` through. -/
def Chip.read (c : Chip) (len n : Nat) : Chip × List Byte :=
  let k := min len n
  ({ c with ptr := c.ptr + k }, (List.range k).map (fun i => c.regs (c.ptr + i)))

/-- `uchar_2_bcd`, ds3231.cpp:684-700, truncated to the `uint8_t` all callers store it in. -/
def uchar2bcd (data : Byte) : Byte :=
  let r0 := (data.setWidth 16 / 100#16) <<< 8
  let d1 := data - (data / 100#8) * 100#8
  let r1 := r0 ||| ((d1.setWidth 16 / 10#16) <<< 4)
  let d2 := d1 - (d1 / 10#8) * 10#8
  (r1 ||| d2.setWidth 16).setWidth 8

/-- `bcd_2_uchar`, ds3231.cpp:714-722. -/
def bcd2uchar (bcd : Byte) : Byte := ((bcd &&& 0xf0#8) >>> 4) * 10#8 + (bcd &&& 0x0f#8)

/-- Register names, ds3231.h:171-189. -/
def SECONDS : Byte := 0x00#8
@[inherit_doc SECONDS] def DAY : Byte := 0x03#8
@[inherit_doc SECONDS] def ALRM1_SECONDS : Byte := 0x07#8
@[inherit_doc SECONDS] def ALRM2_MINUTES : Byte := 0x0b#8
@[inherit_doc SECONDS] def CONTROL : Byte := 0x0e#8
@[inherit_doc SECONDS] def MSB_TEMP : Byte := 0x11#8

/-- Bit masks, ds3231.h:19-22. -/
def AM_PM : Byte := 0x20#8
@[inherit_doc AM_PM] def MODE : Byte := 0x40#8
@[inherit_doc AM_PM] def DY_DT : Byte := 0x40#8
@[inherit_doc AM_PM] def ALRM_MASK : Byte := 0x80#8

/-- `ds3231_time_t`, ds3231.h:61-68. -/
structure TimeT where
  seconds : Byte
  minutes : Byte
  hours : Byte
  am_pm : Bool
  mode : Bool
  deriving DecidableEq, Repr

/-- `ds3231_calendar_t`, ds3231.h:79-85. -/
structure CalendarT where
  day : Byte
  date : Byte
  month : Byte
  year : Byte
  deriving DecidableEq, Repr

/-- `ds3231_alrm_t`, ds3231.h:105-147. -/
structure AlarmT where
  seconds : Byte
  minutes : Byte
  hours : Byte
  day : Byte
  date : Byte
  am1 : Bool
  am2 : Bool
  am3 : Bool
  am4 : Bool
  am_pm : Bool
  mode : Bool
  dy_dt : Bool
  deriving DecidableEq, Repr

/-- `bool b = data & mask`. -/
def bit (data mask : Byte) : Bool := data &&& mask ≠ 0#8

/-- `if (c) mask_var |= m` on a zero `mask_var`. -/
def flag (c : Bool) (m : Byte) : Byte := if c then m else 0#8

/-- The mode bits of an hours register, ds3231.cpp:60-69, 240-248, 290-298. -/
def hourBits (mode am_pm : Bool) : Byte := if mode then MODE ||| flag am_pm AM_PM else 0#8

/-- `max_hour`, ds3231.cpp:52, 62, 72. -/
def maxHour (mode : Bool) : Byte := if mode then 24#8 / 2#8 else 24#8 - 1#8

/-- `SetTime`, ds3231.cpp:48-82. -/
def setTime (t : TimeT) (c : Chip) (n : Nat) : Bool × Chip :=
  let data := [SECONDS, uchar2bcd t.seconds, uchar2bcd t.minutes, uchar2bcd t.hours ||| hourBits t.mode t.am_pm]
  if t.seconds > 59#8 || t.minutes > 59#8 || t.hours > maxHour t.mode then (false, c)
  else
    let (c', k) := c.send data n
    (k == 4, c')

/-- Hours of an hours register, ds3231.cpp:113-114, 371-372, 398-399. -/
def hoursOf (reg : Byte) : Byte := if bit reg MODE then bcd2uchar (reg &&& 0x1F#8) else bcd2uchar (reg &&& 0x3F#8)

/-- `GetTime`, ds3231.cpp:100-118; `t0` is the caller's structure before the call. -/
def getTime (t0 : TimeT) (c : Chip) (n m : Nat) : Bool × TimeT × Chip :=
  let (c1, k) := c.send [SECONDS] n
  if k ≠ 1 then (false, t0, c1)
  else
    let (c2, data) := c1.read 3 m
    match data with
    | [d0, d1, d2] =>
      (true, { seconds := bcd2uchar d0, minutes := bcd2uchar d1, hours := hoursOf d2,
               am_pm := bit d2 AM_PM, mode := bit d2 MODE }, c2)
    | _ => (false, t0, c2)

/-- `SetCalendar`, ds3231.cpp:135-155. -/
def setCalendar (t : CalendarT) (c : Chip) (n : Nat) : Bool × Chip :=
  let data := [DAY, uchar2bcd t.day, uchar2bcd t.date, uchar2bcd t.month, uchar2bcd t.year]
  if t.day < 1#8 || t.day > 7#8 || t.date < 1#8 || t.date > 31#8 || t.month < 1#8 || t.month > 12#8 || t.year > 99#8
  then (false, c)
  else
    let (c', k) := c.send data n
    (k == 5, c')

/-- `GetCalendar`, ds3231.cpp:173-189. -/
def getCalendar (t0 : CalendarT) (c : Chip) (n m : Nat) : Bool × CalendarT × Chip :=
  let (c1, k) := c.send [DAY] n
  if k ≠ 1 then (false, t0, c1)
  else
    let (c2, data) := c1.read 4 m
    match data with
    | [d0, d1, d2, d3] =>
      (true, { day := bcd2uchar d0, date := bcd2uchar d1, month := bcd2uchar (d2 &&& 0x7F#8), year := bcd2uchar d3 }, c2)
    | _ => (false, t0, c2)

/-- The day/date register of an alarm, ds3231.cpp:256-270, 306-320. -/
def dayDateReg (a : AlarmT) : Byte :=
  if a.dy_dt then (flag a.am4 ALRM_MASK ||| DY_DT) ||| uchar2bcd a.day
  else flag a.am4 ALRM_MASK ||| uchar2bcd a.date

/-- The hours register of an alarm, ds3231.cpp:236-253, 286-303. -/
def alarmHourReg (a : AlarmT) : Byte :=
  (flag a.am3 ALRM_MASK ||| hourBits a.mode a.am_pm) ||| uchar2bcd a.hours

/-- The bytes sent by `SetAlarm`, ds3231.cpp:214-322. -/
def alarmData (a : AlarmT) (one : Bool) : List Byte :=
  if one then
    [ALRM1_SECONDS, flag a.am1 ALRM_MASK ||| uchar2bcd a.seconds, flag a.am2 ALRM_MASK ||| uchar2bcd a.minutes,
      alarmHourReg a, dayDateReg a]
  else
    [ALRM2_MINUTES, flag a.am2 ALRM_MASK ||| uchar2bcd a.minutes, alarmHourReg a, dayDateReg a]

/-- `SetAlarm`, ds3231.cpp:207-332. -/
def setAlarm (a : AlarmT) (one : Bool) (c : Chip) (n : Nat) : Bool × Chip :=
  if (one && a.seconds > 59#8) || a.minutes > 59#8 || a.hours > maxHour a.mode || a.day < 1#8 || a.day > 7#8 ||
    a.date < 1#8 || a.date > 31#8 then (false, c)
  else
    let (c', k) := c.send (alarmData a one) n
    (k == (alarmData a one).length, c')

/-- Common part of `GetAlarm`, ds3231.cpp:365-380 and 391-407: minutes, hours, day/date registers. -/
def alarmFrom (a : AlarmT) (mi ho dd : Byte) : AlarmT :=
  let a := { a with minutes := bcd2uchar (mi &&& 0x7F#8), am2 := bit mi ALRM_MASK, am3 := bit ho ALRM_MASK,
                    am_pm := bit ho AM_PM, mode := bit ho MODE, hours := hoursOf ho }
  let a := if bit dd DY_DT then { a with dy_dt := true, day := bcd2uchar (dd &&& 0x0F#8) }
    else { a with date := bcd2uchar (dd &&& 0x3F#8) }
  { a with am4 := bit dd ALRM_MASK }

/-- `GetAlarm`, ds3231.cpp:351-411. -/
def getAlarm (a0 : AlarmT) (one : Bool) (c : Chip) (n m : Nat) : Bool × AlarmT × Chip :=
  if one then
    let (c1, k) := c.send [ALRM1_SECONDS] n
    if k ≠ 1 then (false, a0, c1)
    else
      let (c2, data) := c1.read 4 m
      match data with
      | [d0, d1, d2, d3] =>
        (true, alarmFrom { a0 with seconds := bcd2uchar (d0 &&& 0x7F#8), am1 := bit d0 ALRM_MASK } d1 d2 d3, c2)
      | _ => (false, a0, c2)
  else
    let (c1, k) := c.send [ALRM2_MINUTES] n
    if k ≠ 1 then (false, a0, c1)
    else
      let (c2, data) := c1.read 3 m
      match data with
      | [d0, d1, d2] => (true, alarmFrom a0 d0 d1 d2, c2)
      | _ => (false, a0, c2)

/-- `ds3231_cntl_stat_t`, ds3231.h:156-160. -/
structure CtrlStat where
  control : Byte
  status : Byte
  deriving DecidableEq, Repr

/-- `SetCtrlStatReg`, ds3231.cpp:428-439. -/
def setCtrlStat (d : CtrlStat) (setControl setStatus : Bool) (c : Chip) (n : Nat) : Bool × Chip :=
  let l := [CONTROL] ++ (if setControl then [d.control] else []) ++ (if setStatus then [d.status] else [])
  let (c', k) := c.send ((l ++ [0#8, 0#8]).take 3) n
  (k == 3, c')

/-- `GetCtrlStatReg`, ds3231.cpp:457-472. -/
def getCtrlStat (d0 : CtrlStat) (c : Chip) (n m : Nat) : Bool × CtrlStat × Chip :=
  let (c1, k) := c.send [CONTROL] n
  if k ≠ 1 then (false, d0, c1)
  else
    let (c2, data) := c1.read 2 m
    match data with
    | [d0', d1] => (true, { control := d0', status := d1 }, c2)
    | _ => (false, d0, c2)

/-- `CheckAlarm`, ds3231.cpp:524-543 (whole transfers). -/
def checkAlarm (one : Bool) (c : Chip) : Bool :=
  match getCtrlStat ⟨0#8, 0#8⟩ c 1 2 with
  | (true, d, _) => bit d.status (if one then 0x01#8 else 0x02#8)
  | _ => false

/-- `ResetAlarm`, ds3231.cpp:555-572 (whole transfers). -/
def resetAlarm (one : Bool) (c : Chip) : Bool × Chip :=
  match getCtrlStat ⟨0#8, 0#8⟩ c 1 2 with
  | (true, d, c') =>
    let m := if one then 0xFE#8 else 0xFD#8
    setCtrlStat ⟨d.control &&& m, d.status &&& m⟩ true true c' 3
  | (false, _, c') => (false, c')

/-- `TurnOnAlarm`, ds3231.cpp:584-601 (whole transfers). -/
def turnOnAlarm (one : Bool) (c : Chip) : Bool × Chip :=
  match getCtrlStat ⟨0#8, 0#8⟩ c 1 2 with
  | (true, d, c') =>
    let m := if one then 0x05#8 else 0x06#8
    setCtrlStat ⟨d.control &&& m, d.status &&& m⟩ true true c' 3
  | (false, _, c') => (false, c')

/-- `EnableOscillator`, ds3231.cpp:615-645 (whole transfers). -/
def enableOscillator (on battery : Bool) (rs : Byte) (c : Chip) : Bool × Chip :=
  match getCtrlStat ⟨0#8, 0#8⟩ c 1 2 with
  | (true, d, c') =>
    let x := d.control &&& 0xE7#8
    let x := if battery then x ||| 0x40#8 else x &&& 0xBF#8
    let x := if on then x &&& 0x7B#8 else x ||| 0x80#8
    setCtrlStat { d with control := x ||| rs } true false c' 3
  | (false, _, c') => (false, c')

/-- `GetTemperature`, ds3231.cpp:657-670, in quarters of a degree (whole transfers; the four bytes read into the
two-byte array overwrite two bytes behind it, which the model leaves out). -/
def getTemperatureQuarters (c : Chip) : Int :=
  4 * ((c.regs 0x11).toNat : Int) + ((c.regs 0x12).toNat / 64 : Nat)

/-- The hour of day computed by `GetEpoch`, ds3231.cpp:501-505. -/
def epochHour (t : TimeT) : Nat :=
  if t.mode then
    if t.am_pm && t.hours ≠ 12#8 then t.hours.toNat + 12 else t.hours.toNat
  else t.hours.toNat

end Verif.Rtc
