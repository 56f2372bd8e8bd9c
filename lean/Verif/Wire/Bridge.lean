import Verif.Base

/-!
# The DS2482 bridge between I2C and 1-Wire (sblib/src/i2c/ds2482.cpp)

The functions of `OneWireDS2482` over a model of the chip. The I2C transfers themselves (`Chip_I2C_MasterSend`,
`Chip_I2C_MasterWriteRead`) are those of C70 on a bus where nothing is lost and the chip is present.

The chip (data sheet of the DS2482-100) is part of the trusted base. A command for the 1-Wire line or for the configuration is
ignored while the line is busy. The results of a command are in the registers when the line is no longer busy; before,
the registers hold what they held. How long the line is busy and what the devices on the line answer is arbitrary. The
strong pull-up starts after a command if SPU is set, and ends, together with SPU, with the next command or when SPU is
written 0. Whether SPU written 1 during a strong pull-up counts for the command after it is left open (`rearm`).

The search is C50, `crc8` is C47. Not modelled: refused I2C transfers.
-/

namespace Verif.Wire.Bridge

open Verif

/-- What happens on the 1-Wire line. -/
inductive WireOp
  | reset | byte (b : Byte) | readByte | bit (v : Bool)
  deriving DecidableEq

/-- What the devices on the line do: presence pulse, short circuit, byte and bit. -/
structure Answer where
  presence : Bool
  short : Bool
  byte : Byte
  bit : Bool

/-- The devices answer as they like, depending on all that happened; the line is busy for `dur n` readings of the status
after command number `n`. -/
structure Env where
  line : List WireOp → Answer
  dur : Nat → Nat
  rearm : Bool

/-- The registers with results: PPD, SD, SBR of the status (ds2482.h:23-27) and the data register. -/
structure Regs where
  ppd : Bool
  sd : Bool
  sbr : Bool
  data : Byte

/-- The chip. `log`: what happened on the line, and whether the strong pull-up followed; `armed`: SPU is set for the next
command; `active`: strong pull-up; `old`, `new`: the registers before and after the command in progress. -/
structure Chip where
  log : List (WireOp × Bool)
  busy : Nat
  old : Regs
  new : Regs
  apu : Bool
  armed : Bool
  active : Bool
  ws : Bool

/-- The visible registers. -/
def Chip.regs (c : Chip) : Regs := if c.busy = 0 then c.new else c.old

/-- The configuration register: APU, SPU, 1WS (ds2482.h:32-34). -/
def Chip.config (c : Chip) : Byte :=
  (if c.apu then 1#8 else 0#8) ||| (if c.armed || c.active then 4#8 else 0#8) ||| (if c.ws then 8#8 else 0#8)

/-- The status register (ds2482.h:22-27). -/
def Chip.status (c : Chip) : Byte :=
  (if c.busy = 0 then 0#8 else 1#8) ||| (if c.regs.ppd then 2#8 else 0#8) ||| (if c.regs.sd then 4#8 else 0#8)
    ||| (if c.regs.sbr then 0x20#8 else 0#8)

/-- The registers a command leaves. -/
def after (r : Regs) (o : WireOp) (a : Answer) : Regs :=
  match o with
  | .reset => { r with ppd := a.presence, sd := a.short }
  | .byte _ => r
  | .readByte => { r with data := a.byte }
  | .bit v => { r with sbr := v && a.bit }

/-- A command for the line. -/
def Chip.command (e : Env) (c : Chip) (o : WireOp) : Chip :=
  if c.busy ≠ 0 then c
  else { c with
    log := c.log ++ [(o, c.armed)]
    busy := e.dur c.log.length
    old := c.new
    new := after c.new o (e.line ((c.log.map (·.1)) ++ [o]))
    armed := false
    active := c.armed }

/-- The command to write the configuration: the upper half has to be the complement of the lower. -/
def Chip.writeConfig (e : Env) (c : Chip) (v : Byte) : Chip :=
  if c.busy ≠ 0 then c
  else if v >>> 4 ≠ (~~~v) &&& 0x0f#8 then c
  else { c with
    apu := v.getLsbD 0
    ws := v.getLsbD 3
    armed := if v.getLsbD 2 then c.armed || !c.active || e.rearm else false
    active := v.getLsbD 2 && c.active }

/-- The members of the driver (ds2482.h:102-104) and the chip. -/
structure St where
  chip : Chip
  apuEnabled : Bool
  err : Byte

/-- The I2C transfers with one or two bytes that the driver sends: `writeByte`, `writeBytes`, ds2482.cpp:50-58, with the
command codes of ds2482.h:36-40 (a single bit is sent as bit 7). Other codes are not used. -/
def send (e : Env) (s : St) (cmd : List Byte) : St :=
  match cmd with
  | [c] =>
    if c = 0xB4#8 then { s with chip := s.chip.command e .reset }
    else if c = 0x96#8 then { s with chip := s.chip.command e .readByte } else s
  | [c, d] =>
    if c = 0xD2#8 then { s with chip := s.chip.writeConfig e d }
    else if c = 0xA5#8 then { s with chip := s.chip.command e (.byte d) }
    else if c = 0x87#8 then { s with chip := s.chip.command e (.bit (d.getLsbD 7)) } else s
  | _ => s

/-- `setReadPointerAndRead`, ds2482.cpp:90-102: pointers of ds2482.h:21, 30, 31. Reading the status takes the time after
which the line is less busy. -/
def readReg (s : St) (ptr : Byte) : St × Byte :=
  if ptr = 0xF0#8 then ({ s with chip := { s.chip with busy := s.chip.busy - 1 } }, s.chip.status)
  else if ptr = 0xE1#8 then (s, s.chip.regs.data)
  else (s, s.chip.config)

/-- The loop of `waitOnBusy`, ds2482.cpp:141-146, with `n` rounds left and the status of the last one. -/
def waitLoop (s : St) (status : Byte) : Nat → St × Byte
  | 0 => (s, status)
  | n + 1 =>
    let r := readReg s 0xF0#8
    if r.2 &&& 1#8 = 0#8 then r else waitLoop r.1 r.2 n

/-- `waitOnBusy`, ds2482.cpp:138-154. -/
def waitOnBusy (s : St) : St × Byte :=
  let r := waitLoop s 0#8 1000
  if r.2 &&& 1#8 ≠ 0#8 then ({ r.1 with err := 1#8 }, r.2) else r

/-- `writeConfig`, ds2482.cpp:157-163, with `wireWriteCmdAndData`, ds2482.cpp:205-217, without power. -/
def writeConfig (e : Env) (s : St) (config : Byte) : St :=
  let s := (waitOnBusy s).1
  let s := send e s [0xD2#8, config ||| (~~~config) <<< 4]
  let r := readReg s 0xC3#8
  if r.2 ≠ config then { r.1 with err := 4#8 } else r.1

/-- `setStrongPullup`, ds2482.cpp:119-121. -/
def setStrongPullup (e : Env) (s : St) : St :=
  let r := readReg s 0xC3#8
  writeConfig e r.1 (r.2 ||| 4#8)

/-- `clearStrongPullup`, ds2482.cpp:123-125. -/
def clearStrongPullup (e : Env) (s : St) : St :=
  let r := readReg s 0xC3#8
  writeConfig e r.1 (r.2 &&& ~~~4#8)

/-- `setActivePullup`, ds2482.cpp:127-130. -/
def setActivePullup (e : Env) (s : St) : St :=
  let r := readReg { s with apuEnabled := true } 0xC3#8
  writeConfig e r.1 (r.2 ||| 1#8)

/-- `clearActivePullup`, ds2482.cpp:132-135. -/
def clearActivePullup (e : Env) (s : St) : St :=
  let r := readReg { s with apuEnabled := false } 0xC3#8
  writeConfig e r.1 (r.2 &&& ~~~1#8)

/-- `wireReset`, ds2482.cpp:168-186. -/
def wireReset (e : Env) (s : St) : St × Bool :=
  let s := (waitOnBusy s).1
  let s := clearStrongPullup e s
  let s := (waitOnBusy s).1
  let s := send e s [0xB4#8]
  let r := waitOnBusy s
  let s := if r.2 &&& 4#8 ≠ 0#8 then { r.1 with err := 2#8 } else r.1
  (s, decide (r.2 &&& 2#8 ≠ 0#8))

/-- `wireWriteCmdAndData`, ds2482.cpp:205-217, and, with the command 0xA5, `wireWriteByte`, ds2482.cpp:189-202. -/
def writeCmdAndData (e : Env) (s : St) (cmd data : Byte) (power : Bool) : St :=
  let s := (waitOnBusy s).1
  let s := if power then setStrongPullup e s else s
  send e s [cmd, data]

/-- `wireWriteByte`, ds2482.cpp:189-202. -/
def wireWriteByte (e : Env) (s : St) (data : Byte) (power : Bool) : St := writeCmdAndData e s 0xA5#8 data power

/-- `wireReadByte`, ds2482.cpp:220-227. -/
def wireReadByte (e : Env) (s : St) : St × Byte :=
  let s := (waitOnBusy s).1
  let s := send e s [0x96#8]
  let s := (waitOnBusy s).1
  readReg s 0xE1#8

/-- `wireWriteBit`, ds2482.cpp:233-235. -/
def wireWriteBit (e : Env) (s : St) (data : Byte) (power : Bool) : St :=
  writeCmdAndData e s 0x87#8 (if data ≠ 0#8 then 0x80#8 else 0x00#8) power

/-- `wireReadBit`, ds2482.cpp:238-242. -/
def wireReadBit (e : Env) (s : St) : St × Bool :=
  let s := wireWriteBit e s 1#8 false
  let r := waitOnBusy s
  (r.1, decide (r.2 &&& 0x20#8 ≠ 0#8))

/-- `wireSkip`, ds2482.cpp:245-247. -/
def wireSkip (e : Env) (s : St) : St := wireWriteByte e s 0xCC#8 false

/-- `wireSelect`, ds2482.cpp:249-253; `rom`: the eight bytes. -/
def wireSelect (e : Env) (s : St) (rom : List Byte) : St :=
  rom.foldl (fun s b => wireWriteByte e s b false) (wireWriteByte e s 0x55#8 false)

/-- `deviceReset`, ds2482.cpp:69-76; `write` is `wireWriteByte`, ds2482.cpp:425-427. -/
def deviceReset (e : Env) (s : St) : St :=
  let s := wireWriteByte e s 0xF0#8 false
  if s.apuEnabled then setActivePullup e s else s

/-- What a program can ask for: `reset`, `write`, `read`, `write_bit`, `read_bit`, `skip`, `select` (ds2482.cpp:409-442), a bit with
power, and the pull-ups. -/
inductive Call
  | reset | write (b : Byte) (power : Bool) | read | writeBit (v : Byte) (power : Bool) | readBit | skip
  | select (rom : List Byte) | setStrong | clearStrong | setActive | clearActive

/-- The value a call returns. -/
inductive Ret
  | none | flag (b : Bool) | value (b : Byte)
  deriving DecidableEq

/-- One call. -/
def call (e : Env) (s : St) : Call → St × Ret
  | .reset => let r := wireReset e s; (r.1, .flag r.2)
  | .write b p => (wireWriteByte e s b p, .none)
  | .read => let r := wireReadByte e s; (r.1, .value r.2)
  | .writeBit v p => (wireWriteBit e s v p, .none)
  | .readBit => let r := wireReadBit e s; (r.1, .flag r.2)
  | .skip => (wireSkip e s, .none)
  | .select rom => (wireSelect e s rom, .none)
  | .setStrong => (setStrongPullup e s, .none)
  | .clearStrong => (clearStrongPullup e s, .none)
  | .setActive => (setActivePullup e s, .none)
  | .clearActive => (clearActivePullup e s, .none)

/-- Calls one after the other. -/
def calls (e : Env) (s : St) : List Call → St × List Ret
  | [] => (s, [])
  | c :: cs => ((calls e (call e s c).1 cs).1, (call e s c).2 :: (calls e (call e s c).1 cs).2)

end Verif.Wire.Bridge
