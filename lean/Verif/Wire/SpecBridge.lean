import Verif.Wire.Bridge

/-! # What a user of the DS2482 bridge relies on: a 1-Wire line with a strong pull-up (no registers, no waiting) -/

namespace Verif.Wire.Bridge

open Verif

/-- The line as the program sees it: what happened on it, with the strong pull-up that followed; a strong pull-up asked for
the next action; a strong pull-up in progress; the active pull-up; the error. -/
structure Line where
  log : List (WireOp × Bool)
  armed : Bool
  active : Bool
  apu : Bool
  err : Byte

/-- A strong pull-up is asked for after the next action. During another one it depends on the chip whether this counts. -/
def Line.ask (e : Env) (l : Line) : Line := { l with armed := l.armed || !l.active || e.rearm }

/-- The active pull-up is switched. If the chip lets a strong pull-up be asked for during another one, this asks for it. -/
def Line.switch (e : Env) (l : Line) (on : Bool) : Line := { l with apu := on, armed := l.armed || (l.active && e.rearm) }

/-- One action on the line. -/
def Line.act (l : Line) (o : WireOp) : Line :=
  { l with log := l.log ++ [(o, l.armed)], armed := false, active := l.armed }

/-- What the devices answer to it. -/
def Line.answer (e : Env) (l : Line) (o : WireOp) : Answer := e.line (l.log.map (·.1) ++ [o])

/-- What a call has to do and to return. -/
def Line.call (e : Env) (l : Line) : Call → Line × Ret
  | .reset =>
    let l := { l with armed := false, active := false }
    ({ l.act .reset with err := if (l.answer e .reset).short then 2#8 else l.err }, .flag (l.answer e .reset).presence)
  | .write b p => ((if p then l.ask e else l).act (.byte b), .none)
  | .read => (l.act .readByte, .value (l.answer e .readByte).byte)
  | .writeBit v p => ((if p then l.ask e else l).act (.bit (decide (v ≠ 0#8))), .none)
  | .readBit => (l.act (.bit true), .flag (l.answer e (.bit true)).bit)
  | .skip => (l.act (.byte 0xCC#8), .none)
  | .select rom => ((0x55#8 :: rom).foldl (fun l b => l.act (.byte b)) l, .none)
  | .setStrong => (l.ask e, .none)
  | .clearStrong => ({ l with armed := false, active := false }, .none)
  | .setActive => (l.switch e true, .none)
  | .clearActive => (l.switch e false, .none)

/-- Calls one after the other. -/
def Line.calls (e : Env) (l : Line) : List Call → Line × List Ret
  | [] => (l, [])
  | c :: cs => ((Line.calls e (l.call e c).1 cs).1, (l.call e c).2 :: (Line.calls e (l.call e c).1 cs).2)

/-- The line a state of chip and driver stands for. -/
def lineOf (s : St) : Line := ⟨s.chip.log, s.chip.armed, s.chip.active, s.chip.apu, s.err⟩

/-- No command takes as long as a thousand readings of the status. -/
def Quick (e : Env) (s : St) : Prop := s.chip.busy < 1000 ∧ ∀ n, e.dur n < 1000

end Verif.Wire.Bridge
