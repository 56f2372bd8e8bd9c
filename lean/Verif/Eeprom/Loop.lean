import Verif.Eeprom.Props

/-!
# C58 — when changes are saved

The part of `BcuDefault::loop` (bcu_default.cpp:118-155) that decides about saving, with the time
stamp of `UserEeprom::modified`.
-/

namespace Verif.Eeprom

open Verif.Iap

/-- `userEepromModified` and `writeUserEepromTime`. -/
structure Flag where
  modified : Bool
  writeTime : U32
  deriving DecidableEq

/-- `UserEeprom::modified(bool)`, userEeprom.cpp:150-161; `now` is `millis()`. -/
def setModified (new : Bool) (now : U32) : Flag :=
  if new then ⟨true, now + 50#32⟩ else ⟨false, 0#32⟩

/-- `UserEeprom::writeDelayElapsed`, userEeprom.cpp:163-168. -/
def writeDelayElapsed (f : Flag) (now : U32) : Bool :=
  f.modified || decide ((now - f.writeTime).toInt > 0)

/-- What `BcuDefault::loop` asks for. -/
structure Situation where
  enabled : Bool
  sendingFrame : Bool
  directConnection : Bool
  now : U32

/-- `BcuDefault::loop` calls `flushUserMemory`, bcu_default.cpp:120-121, 126-129, 151-154. -/
def loopSaves (f : Flag) (x : Situation) : Bool :=
  x.enabled && !x.sendingFrame && (f.modified && !x.directConnection && writeDelayElapsed f x.now)

/-- The flag after some time: `calls` are the calls of `modified` with their times, newest last. -/
def flagAfter (calls : List (Bool × U32)) : Flag :=
  calls.foldl (fun _ c => setModified c.1 c.2) ⟨false, 0#32⟩

/-- The specification: there is something to save iff the newest call was `modified(true)`. -/
def Pending (calls : List (Bool × U32)) : Prop := ∃ pre t, calls = pre ++ [(true, t)]

theorem flagAfter_modified (calls : List (Bool × U32)) :
    (flagAfter calls).modified = true ↔ Pending calls := by
  unfold flagAfter Pending
  rcases List.eq_nil_or_concat calls with rfl | ⟨pre, ⟨v, t⟩, rfl⟩
  · simp
  · rw [List.concat_eq_append, List.foldl_append]
    cases v <;> simp [setModified]

/-- C58. The loop saves exactly when a change is pending, no connection is open, no frame is being
sent and the device is enabled. -/
theorem C58_saves_iff (calls : List (Bool × U32)) (x : Situation) :
    loopSaves (flagAfter calls) x = true ↔
      Pending calls ∧ x.enabled = true ∧ x.sendingFrame = false ∧ x.directConnection = false := by
  rw [← flagAfter_modified]
  unfold loopSaves writeDelayElapsed
  cases (flagAfter calls).modified <;> cases x.enabled <;> cases x.sendingFrame <;>
    cases x.directConnection <;> simp

example : loopSaves (flagAfter [(false, 3#32), (true, 7#32)]) ⟨true, false, false, 8#32⟩ = true ∧
    Pending [(false, 3#32), (true, 7#32)] := ⟨by decide, [(false, 3#32)], 7#32, rfl⟩

/-- C58, finding: `modified(true)` notes the time 50 ms later, but the delay has no effect: a change
is written in the same millisecond, so a burst of changes wears out the flash. -/
theorem C58_delay_ineffective (t : U32) :
    loopSaves (flagAfter [(true, t)]) ⟨true, false, false, t⟩ = true := by
  rw [C58_saves_iff]
  exact ⟨⟨[], t, rfl⟩, rfl, rfl, rfl⟩

end Verif.Eeprom
