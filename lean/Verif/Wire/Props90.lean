import Verif.Wire.SpecBridge

/-! # C90: the DS2482 bridge does on the 1-Wire line what the program asks for -/

namespace Verif.Wire.Bridge

open Verif

theorem status_busy (c : Chip) : (c.status &&& 1#8 = 0#8) ↔ c.busy = 0 := by
  unfold Chip.status
  by_cases h : c.busy = 0 <;> cases c.regs.ppd <;> cases c.regs.sd <;> cases c.regs.sbr <;> simp [h]

theorem status_ppd (c : Chip) : decide (c.status &&& 2#8 ≠ 0#8) = c.regs.ppd := by
  unfold Chip.status
  by_cases h : c.busy = 0 <;> cases c.regs.ppd <;> cases c.regs.sd <;> cases c.regs.sbr <;> simp [h]

theorem status_sd (c : Chip) : (c.status &&& 4#8 ≠ 0#8) ↔ c.regs.sd = true := by
  unfold Chip.status
  by_cases h : c.busy = 0 <;> cases c.regs.ppd <;> cases c.regs.sd <;> cases c.regs.sbr <;> simp [h]

theorem status_sbr (c : Chip) : decide (c.status &&& 0x20#8 ≠ 0#8) = c.regs.sbr := by
  unfold Chip.status
  by_cases h : c.busy = 0 <;> cases c.regs.ppd <;> cases c.regs.sd <;> cases c.regs.sbr <;> simp [h]

/-- The line is not busy. -/
def idle (s : St) : St := { s with chip := { s.chip with busy := 0 } }

theorem waitLoop_eq (n : Nat) : ∀ (s : St) (st : Byte), s.chip.busy < n →
    waitLoop s st n = (idle s, (idle s).chip.status) := by
  induction n with
  | zero => intro s st h; omega
  | succ n ih =>
    intro s st h
    unfold waitLoop
    have hr : readReg s 0xF0#8 = ({ s with chip := { s.chip with busy := s.chip.busy - 1 } }, s.chip.status) := rfl
    simp only [hr]
    by_cases h0 : s.chip.busy = 0
    · rw [if_pos ((status_busy _).mpr h0)]
      have e : idle s = { s with chip := { s.chip with busy := s.chip.busy - 1 } } := by simp [idle, h0]
      have e2 : (idle s).chip = s.chip := by
        obtain ⟨c, a, b⟩ := s
        obtain ⟨c1, c2, c3, c4, c5, c6, c7, c8⟩ := c
        simp only at h0
        subst h0
        rfl
      rw [e2, e]
    · rw [if_neg (fun x => h0 ((status_busy _).mp x)), ih _ _ (by simp; omega)]
      rfl

theorem wait_eq (s : St) (h : s.chip.busy < 1000) : waitOnBusy s = (idle s, (idle s).chip.status) := by
  unfold waitOnBusy
  rw [waitLoop_eq 1000 s 0#8 h]
  have : (idle s).chip.status &&& 1#8 = 0#8 := (status_busy _).mpr rfl
  simp only [this, ne_eq, not_true_eq_false, if_false]

/-- The chip after a configuration was written: APU, SPU. -/
def configured (e : Env) (c : Chip) (apu spu : Bool) : Chip :=
  { c with busy := 0, apu := apu, armed := if spu then c.armed || !c.active || e.rearm else false, active := spu && c.active }

theorem writeConfig_eq (e : Env) (s : St) (h : s.chip.busy < 1000) (v : Byte) (apu spu : Bool)
    (hv : v = (if apu then 1#8 else 0#8) ||| (if spu then 4#8 else 0#8) ||| (if s.chip.ws then 8#8 else 0#8)) :
    writeConfig e s v = { s with chip := configured e s.chip apu spu } := by
  have hc : (idle s).chip.writeConfig e (v ||| (~~~v) <<< 4) = configured e s.chip apu spu := by
    subst hv
    cases apu <;> cases spu <;> cases hw : s.chip.ws <;>
      simp [Chip.writeConfig, idle, configured, hw]
  have hcfg : (configured e s.chip apu spu).config = v := by
    subst hv
    cases apu <;> cases spu <;> cases hw : s.chip.ws <;> cases ha : s.chip.armed <;> cases hb : s.chip.active <;>
      cases hr : e.rearm <;> simp [configured, Chip.config, hw, ha, hb, hr]
  unfold writeConfig
  rw [wait_eq s h]
  simp [send, readReg, hc, hcfg]
  exact ⟨rfl, rfl⟩

theorem setStrong_eq (e : Env) (s : St) (h : s.chip.busy < 1000) :
    setStrongPullup e s = { s with chip := configured e s.chip s.chip.apu true } := by
  unfold setStrongPullup
  refine writeConfig_eq e s h _ s.chip.apu true ?_
  show s.chip.config ||| 4#8 = _
  unfold Chip.config
  cases s.chip.apu <;> cases s.chip.armed <;> cases s.chip.active <;> cases s.chip.ws <;> decide

theorem clearStrong_eq (e : Env) (s : St) (h : s.chip.busy < 1000) :
    clearStrongPullup e s = { s with chip := configured e s.chip s.chip.apu false } := by
  unfold clearStrongPullup
  refine writeConfig_eq e s h _ s.chip.apu false ?_
  show s.chip.config &&& ~~~4#8 = _
  unfold Chip.config
  cases s.chip.apu <;> cases s.chip.armed <;> cases s.chip.active <;> cases s.chip.ws <;> decide

theorem setActive_eq (e : Env) (s : St) (h : s.chip.busy < 1000) :
    setActivePullup e s
      = { s with apuEnabled := true, chip := configured e s.chip true (s.chip.armed || s.chip.active) } := by
  unfold setActivePullup
  refine writeConfig_eq e { s with apuEnabled := true } h _ true (s.chip.armed || s.chip.active) ?_
  show s.chip.config ||| 1#8 = _
  unfold Chip.config
  cases s.chip.apu <;> cases s.chip.armed <;> cases s.chip.active <;> cases s.chip.ws <;> decide

theorem clearActive_eq (e : Env) (s : St) (h : s.chip.busy < 1000) :
    clearActivePullup e s
      = { s with apuEnabled := false, chip := configured e s.chip false (s.chip.armed || s.chip.active) } := by
  unfold clearActivePullup
  refine writeConfig_eq e { s with apuEnabled := false } h _ false (s.chip.armed || s.chip.active) ?_
  show s.chip.config &&& ~~~1#8 = _
  unfold Chip.config
  cases s.chip.apu <;> cases s.chip.armed <;> cases s.chip.active <;> cases s.chip.ws <;> decide

/-- A command when the line is not busy, as an action on the line. -/
theorem command_line (e : Env) (s : St) (h : s.chip.busy = 0) (o : WireOp) :
    lineOf { s with chip := s.chip.command e o } = (lineOf s).act o := by
  simp [lineOf, Chip.command, h, Line.act]

theorem command_busy (e : Env) (c : Chip) (h : c.busy = 0) (o : WireOp) (hq : ∀ n, e.dur n < 1000) :
    (c.command e o).busy < 1000 := by
  simp only [Chip.command, h, ne_eq, not_true_eq_false, if_false]
  exact hq _

theorem command_new (e : Env) (c : Chip) (h : c.busy = 0) (o : WireOp) :
    (c.command e o).new = after c.new o (e.line (c.log.map (·.1) ++ [o])) := by
  simp only [Chip.command, h, ne_eq, not_true_eq_false, if_false]

theorem lineOf_idle (s : St) : lineOf (idle s) = lineOf s := rfl

theorem idle_regs (s : St) : (idle s).chip.regs = s.chip.new := by simp [idle, Chip.regs]

theorem ask_line (e : Env) (s : St) :
    lineOf { s with chip := configured e s.chip s.chip.apu true } = (lineOf s).ask e := by
  simp [lineOf, configured, Line.ask]

theorem clear_line (e : Env) (s : St) :
    lineOf { s with chip := configured e s.chip s.chip.apu false } = { lineOf s with armed := false, active := false } := by
  simp [lineOf, configured]

theorem writeCmd_eq (e : Env) (s : St) (h : s.chip.busy < 1000) (cmd data : Byte) (power : Bool) (o : WireOp)
    (ho : ∀ t : St, send e t [cmd, data] = { t with chip := t.chip.command e o }) (hq : ∀ n, e.dur n < 1000) :
    lineOf (writeCmdAndData e s cmd data power) = (if power then (lineOf s).ask e else lineOf s).act o
      ∧ (writeCmdAndData e s cmd data power).chip.busy < 1000
      ∧ (writeCmdAndData e s cmd data power).chip.new = after s.chip.new o
          (e.line ((lineOf s).log.map (·.1) ++ [o])) := by
  unfold writeCmdAndData
  rw [wait_eq s h]
  cases power with
  | false =>
    simp only [Bool.false_eq_true, if_false, ho]
    exact ⟨command_line e (idle s) rfl o, command_busy e _ rfl o hq, command_new e _ rfl o⟩
  | true =>
    simp only [if_true, ho]
    rw [setStrong_eq e (idle s) (by simp [idle])]
    refine ⟨?_, command_busy e _ rfl o hq, command_new e _ rfl o⟩
    rw [← lineOf_idle s, ← ask_line e (idle s)]
    exact command_line e { idle s with chip := configured e (idle s).chip (idle s).chip.apu true } rfl o

theorem write_line (e : Env) (s : St) (h : s.chip.busy < 1000) (b : Byte) (power : Bool) (hq : ∀ n, e.dur n < 1000) :
    lineOf (wireWriteByte e s b power) = (if power then (lineOf s).ask e else lineOf s).act (.byte b)
      ∧ (wireWriteByte e s b power).chip.busy < 1000 :=
  let r := writeCmd_eq e s h 0xA5#8 b power (.byte b) (fun t => by simp [send]) hq
  ⟨r.1, r.2.1⟩

theorem writes_line (e : Env) (hq : ∀ n, e.dur n < 1000) (bs : List Byte) : ∀ (s : St), s.chip.busy < 1000 →
    lineOf (bs.foldl (fun s b => wireWriteByte e s b false) s) = bs.foldl (fun l b => l.act (.byte b)) (lineOf s)
      ∧ (bs.foldl (fun s b => wireWriteByte e s b false) s).chip.busy < 1000 := by
  induction bs with
  | nil => intro s h; exact ⟨rfl, h⟩
  | cons b bs ih =>
    intro s h
    obtain ⟨h1, h2⟩ := write_line e s h b false hq
    obtain ⟨g1, g2⟩ := ih (wireWriteByte e s b false) h2
    refine ⟨?_, g2⟩
    rw [List.foldl_cons, g1, h1]
    simp

theorem bit_line (e : Env) (s : St) (h : s.chip.busy < 1000) (v : Byte) (power : Bool) (hq : ∀ n, e.dur n < 1000) :
    lineOf (wireWriteBit e s v power)
        = (if power then (lineOf s).ask e else lineOf s).act (.bit (decide (v ≠ 0#8)))
      ∧ (wireWriteBit e s v power).chip.busy < 1000
      ∧ (wireWriteBit e s v power).chip.new = after s.chip.new (.bit (decide (v ≠ 0#8)))
          (e.line ((lineOf s).log.map (·.1) ++ [.bit (decide (v ≠ 0#8))])) := by
  refine writeCmd_eq e s h 0x87#8 (if v ≠ 0#8 then 0x80#8 else 0x00#8) power (.bit (decide (v ≠ 0#8))) (fun t => ?_) hq
  by_cases hv : v = 0#8 <;> simp [send, hv]

theorem switch_line (e : Env) (s : St) (on a : Bool) :
    lineOf { s with apuEnabled := a, chip := configured e s.chip on (s.chip.armed || s.chip.active) }
      = (lineOf s).switch e on := by
  cases h1 : s.chip.armed <;> cases h2 : s.chip.active <;> simp [lineOf, configured, Line.switch, h1, h2]

theorem call_eq (e : Env) (s : St) (h : s.chip.busy < 1000) (hq : ∀ n, e.dur n < 1000) (c : Call) :
    lineOf (call e s c).1 = ((lineOf s).call e c).1 ∧ (call e s c).2 = ((lineOf s).call e c).2
      ∧ (call e s c).1.chip.busy < 1000 := by
  cases c with
  | write b p => obtain ⟨h1, h2⟩ := write_line e s h b p hq; exact ⟨h1, rfl, h2⟩
  | skip => obtain ⟨h1, h2⟩ := write_line e s h 0xCC#8 false hq; exact ⟨h1, rfl, h2⟩
  | writeBit v p => obtain ⟨h1, h2, _⟩ := bit_line e s h v p hq; exact ⟨h1, rfl, h2⟩
  | select rom => obtain ⟨h1, h2⟩ := writes_line e hq (0x55#8 :: rom) s h; exact ⟨h1, rfl, h2⟩
  | setStrong =>
    refine ⟨?_, rfl, ?_⟩
    · show lineOf (setStrongPullup e s) = _
      rw [setStrong_eq e s h]; exact ask_line e s
    · show (setStrongPullup e s).chip.busy < 1000
      rw [setStrong_eq e s h]; simp [configured]
  | clearStrong =>
    refine ⟨?_, rfl, ?_⟩
    · show lineOf (clearStrongPullup e s) = _
      rw [clearStrong_eq e s h]; exact clear_line e s
    · show (clearStrongPullup e s).chip.busy < 1000
      rw [clearStrong_eq e s h]; simp [configured]
  | setActive =>
    refine ⟨?_, rfl, ?_⟩
    · show lineOf (setActivePullup e s) = _
      rw [setActive_eq e s h]; exact switch_line e s true true
    · show (setActivePullup e s).chip.busy < 1000
      rw [setActive_eq e s h]; simp [configured]
  | clearActive =>
    refine ⟨?_, rfl, ?_⟩
    · show lineOf (clearActivePullup e s) = _
      rw [clearActive_eq e s h]; exact switch_line e s false false
    · show (clearActivePullup e s).chip.busy < 1000
      rw [clearActive_eq e s h]; simp [configured]
  | readBit =>
    obtain ⟨h1, h2, h3⟩ := bit_line e s h 1#8 false hq
    have hw := wait_eq _ h2
    have e1 : call e s .readBit = ((idle (wireWriteBit e s 1#8 false)),
        .flag (wireWriteBit e s 1#8 false).chip.new.sbr) := by
      simp only [call, wireReadBit, hw, status_sbr, idle_regs]
    rw [e1]
    refine ⟨h1, ?_, by simp [idle]⟩
    rw [h3]
    simp [after, Line.call, Line.answer]
  | read =>
    have e0 : ∀ t : St, send e t [0x96#8] = { t with chip := t.chip.command e .readByte } := fun t => by simp [send]
    have hb := command_busy e (idle s).chip rfl .readByte hq
    have e1 : call e s .read = (idle { idle s with chip := (idle s).chip.command e .readByte },
        .value ((idle s).chip.command e .readByte).new.data) := by
      simp only [call, wireReadByte, wait_eq s h, e0]
      rw [wait_eq { idle s with chip := (idle s).chip.command e .readByte } hb]
      simp [readReg, idle_regs]
    rw [e1, command_new e (idle s).chip rfl]
    exact ⟨command_line e (idle s) rfl .readByte, rfl, by simp [idle]⟩
  | reset =>
    have e0 : ∀ t : St, send e t [0xB4#8] = { t with chip := t.chip.command e .reset } := fun t => by simp [send]
    have hc : clearStrongPullup e (idle s) = { idle s with chip := configured e (idle s).chip (idle s).chip.apu false } :=
      clearStrong_eq e (idle s) (by simp [idle])
    generalize ht : ({ idle s with chip := configured e (idle s).chip (idle s).chip.apu false } : St) = t at hc
    have tb : t.chip.busy = 0 := by rw [← ht]; rfl
    have tl : lineOf t = { lineOf s with armed := false, active := false } := by rw [← ht]; exact clear_line e (idle s)
    have ti : idle t = t := by rw [← ht]; rfl
    have hb := command_busy e t.chip tb .reset hq
    have hn := command_new e t.chip tb .reset
    have hl := command_line e t tb .reset
    generalize hu : ({ t with chip := t.chip.command e .reset } : St) = u at hl
    have uc : u.chip = t.chip.command e .reset := by rw [← hu]
    have ue : u.err = s.err := by rw [← hu, ← ht]; rfl
    have e1 : call e s .reset = (if u.chip.new.sd then { idle u with err := 2#8 } else idle u, .flag u.chip.new.ppd) := by
      simp only [call, wireReset, wait_eq s h, hc, wait_eq t (by omega), ti, e0]
      rw [hu, wait_eq u (by rw [uc]; exact hb)]
      simp only [status_ppd, status_sd, idle_regs]
    rw [e1, uc, hn]
    have la : e.line (t.chip.log.map (·.1) ++ [.reset])
        = Line.answer e { lineOf s with armed := false, active := false } .reset := by
      rw [← tl]; rfl
    rw [la]
    have key : lineOf u = ({ lineOf s with armed := false, active := false } : Line).act .reset := by rw [hl, tl]
    refine ⟨?_, rfl, ?_⟩
    · simp only [after]
      by_cases hs : (Line.answer e { lineOf s with armed := false, active := false } .reset).short = true
      · simp only [hs, if_true, Line.call]
        rw [← key]; rfl
      · simp only [hs, Line.call]
        rw [← key]
        show lineOf (idle u) = _
        simp only [Bool.false_eq_true, if_false]
        show lineOf u = { lineOf u with err := s.err }
        rw [← ue]; rfl
    · by_cases hs : (after t.chip.new .reset (Line.answer e { lineOf s with armed := false, active := false } .reset)).sd = true
      · rw [if_pos hs]; simp [idle]
      · rw [if_neg hs]; simp [idle]

/-! ## The properties -/

/-- **C90** Whatever a program asks the bridge for, in any order, and however long the line is busy after each command
(less than a thousand readings of the status): on the line happens exactly what was asked for, once, in order, with the
strong pull-up where it was asked for; the values returned are those the devices gave; errors are only reported for a
short circuit. Missing: a line busy for longer (`C90_busy_byte_lost`). -/
theorem C90_line_partial (e : Env) (s : St) (h : Quick e s) (cs : List Call) :
    lineOf (calls e s cs).1 = ((lineOf s).calls e cs).1 ∧ (calls e s cs).2 = ((lineOf s).calls e cs).2 := by
  obtain ⟨hb, hq⟩ := h
  induction cs generalizing s with
  | nil => exact ⟨rfl, rfl⟩
  | cons c cs ih =>
    obtain ⟨h1, h2, h3⟩ := call_eq e s hb hq c
    obtain ⟨g1, g2⟩ := ih (call e s c).1 h3
    constructor
    · show lineOf (calls e (call e s c).1 cs).1 = _
      rw [g1, h1]; rfl
    · show (call e s c).2 :: (calls e (call e s c).1 cs).2 = _
      rw [g2, h1, h2]; rfl

/-- **C90** No reset of the line is ever done with the strong pull-up (the data sheet warns of it). -/
theorem C90_reset_without_pullup (e : Env) (s : St) (h : Quick e s) (cs : List Call)
    (h0 : (WireOp.reset, true) ∉ s.chip.log) : (WireOp.reset, true) ∉ (calls e s cs).1.chip.log := by
  have hl : (calls e s cs).1.chip.log = ((lineOf s).calls e cs).1.log := by
    rw [← (C90_line_partial e s h cs).1]; rfl
  rw [hl]
  have step : ∀ (l : Line) (c : Call), (WireOp.reset, true) ∉ l.log → (WireOp.reset, true) ∉ (l.call e c).1.log := by
    intro l c hn
    have fold : ∀ (bs : List Byte) (l : Line), (WireOp.reset, true) ∉ l.log →
        (WireOp.reset, true) ∉ (bs.foldl (fun l b => l.act (.byte b)) l).log := by
      intro bs
      induction bs with
      | nil => intro l h; exact h
      | cons b bs ih =>
        intro l h
        exact ih _ (by simp [Line.act, h])
    cases c with
    | select rom => exact fold _ _ hn
    | write b p => cases p <;> simp [Line.call, Line.act, Line.ask, hn]
    | writeBit b p => cases p <;> simp [Line.call, Line.act, Line.ask, hn]
    | reset => simp [Line.call, Line.act, hn]
    | read => simp [Line.call, Line.act, hn]
    | readBit => simp [Line.call, Line.act, hn]
    | skip => simp [Line.call, Line.act, hn]
    | setStrong => exact hn
    | clearStrong => exact hn
    | setActive => exact hn
    | clearActive => exact hn
  have all : ∀ (cs : List Call) (l : Line), (WireOp.reset, true) ∉ l.log → (WireOp.reset, true) ∉ (l.calls e cs).1.log := by
    intro cs
    induction cs with
    | nil => intro l h; exact h
    | cons c cs ih => intro l h; exact ih _ (step l c h)
  exact all cs (lineOf s) h0

theorem waitLoop_busy (n : Nat) : ∀ (s : St) (st : Byte), n ≤ s.chip.busy → (0 < n ∨ st &&& 1#8 ≠ 0#8) →
    (waitLoop s st n).1 = { s with chip := { s.chip with busy := s.chip.busy - n } }
      ∧ (waitLoop s st n).2 &&& 1#8 ≠ 0#8 := by
  induction n with
  | zero =>
    intro s st _ h
    refine ⟨rfl, ?_⟩
    rcases h with h | h
    · omega
    · exact h
  | succ n ih =>
    intro s st h _
    unfold waitLoop
    have hr : readReg s 0xF0#8 = ({ s with chip := { s.chip with busy := s.chip.busy - 1 } }, s.chip.status) := rfl
    have hne : ¬ s.chip.status &&& 1#8 = 0#8 := fun x => by have := (status_busy _).mp x; omega
    simp only [hr]
    rw [if_neg hne]
    obtain ⟨h1, h2⟩ := ih { s with chip := { s.chip with busy := s.chip.busy - 1 } } s.chip.status
      (by simp; omega) (Or.inr hne)
    refine ⟨?_, h2⟩
    rw [h1]
    have : s.chip.busy - 1 - n = s.chip.busy - (n + 1) := by omega
    simp only [this]

/-- **C90** The code gives up after a thousand readings and goes on: with the line busy for longer, the byte is not written
and only the error tells. -/
theorem C90_busy_byte_lost (e : Env) (s : St) (h : 1000 < s.chip.busy) (b : Byte) :
    (wireWriteByte e s b false).chip.log = s.chip.log ∧ (wireWriteByte e s b false).err = 1#8 := by
  obtain ⟨h1, h2⟩ := waitLoop_busy 1000 s 0#8 (by omega) (Or.inl (by omega))
  have hw : (waitOnBusy s).1
      = { s with chip := { s.chip with busy := s.chip.busy - 1000 }, err := 1#8 } := by
    unfold waitOnBusy
    simp only [h2, ne_eq, not_false_eq_true, if_true]
    rw [h1]
  have hb : s.chip.busy - 1000 ≠ 0 := by omega
  simp [wireWriteByte, writeCmdAndData, hw, send, Chip.command, hb]

/-- **C90** The code does not do what `deviceReset` promises: the chip is not reset, the command for it is written as a byte
to the devices on the line (where it is the command to search). -/
theorem C90_device_reset (e : Env) (s : St) (h : Quick e s) :
    (deviceReset e s).chip.log = s.chip.log ++ [(.byte 0xF0#8, s.chip.armed)] := by
  obtain ⟨h1, h2⟩ := write_line e s h.1 0xF0#8 false h.2
  have hl : (wireWriteByte e s 0xF0#8 false).chip.log = s.chip.log ++ [(.byte 0xF0#8, s.chip.armed)] :=
    congrArg Line.log h1
  unfold deviceReset
  by_cases ha : (wireWriteByte e s 0xF0#8 false).apuEnabled = true
  · simp only [ha, if_true]
    rw [setActive_eq e _ h2]
    exact hl
  · simp only [ha]
    exact hl

/-! ## A line with one device -/

/-- The device is present and answers 0xA5 and 1; commands take up to three readings. -/
def exEnv : Env := ⟨fun _ => ⟨true, false, 0xA5#8, true⟩, fun n => n % 4, false⟩

/-- A chip with nothing done. -/
def exBridge : St := ⟨⟨[], 2, ⟨false, false, false, 0#8⟩, ⟨false, false, false, 0#8⟩, false, false, false, false⟩, false, 0#8⟩

example : Quick exEnv exBridge := ⟨by decide, fun n => by show n % 4 < 1000; omega⟩

/-- Reset, select all, start a conversion with power, reset, read. -/
example : (calls exEnv exBridge [.reset, .skip, .write 0x44#8 true, .reset, .read, .readBit]).2
    = [.flag true, .none, .none, .flag true, .value 0xA5#8, .flag true] := by decide +kernel

example : (calls exEnv exBridge [.reset, .skip, .write 0x44#8 true, .reset, .read, .readBit]).1.chip.log
    = [(.reset, false), (.byte 0xCC#8, false), (.byte 0x44#8, true), (.reset, false), (.readByte, false), (.bit true, false)] := by
  decide +kernel

example : (WireOp.reset, true) ∉ exBridge.chip.log := by decide

/-- A chip that is busy for too long. -/
example : 1000 < ({ exBridge with chip := { exBridge.chip with busy := 1001 } } : St).chip.busy := by decide

end Verif.Wire.Bridge
