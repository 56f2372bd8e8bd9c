import Verif.Base

/-!
# Model of the rate limit for group telegrams

File: sblib/src/eib/bcu_default.cpp. Times are milliseconds since start as natural numbers; `millis()` is the time modulo
2^32 and `elapsed(ref)` is `millis() - ref` in 32-bit arithmetic (timer.cpp).
-/

namespace Verif.Rate

/-- `groupTelWaitMillis` and `groupTelSent`, bcu_default.h:223-224. -/
structure St where
  wait : Nat
  sent : Nat

/-- `DEFAULT_GROUP_TEL_WAIT_MILLIS`, bcu_default.h:229-230. -/
def defaultWait : Nat := 1000 / 28

/-- The state after the constructor or `_begin()` at time `t`, bcu_default.cpp:26-27, 79-82. -/
def start (t : Nat) : St := ⟨defaultWait, t % 2 ^ 32⟩

/-- `elapsed(ref)` at time `t`. -/
def elapsed (t ref : Nat) : Nat := (t + 2 ^ 32 - ref) % 2 ^ 32

/-- `setGroupTelRateLimit(limit)`, bcu_default.cpp:196-202. -/
def setLimit (s : St) (limit : Nat) : St :=
  if limit > 0 ∧ limit ≤ 28 then { s with wait := 1000 / limit } else { s with wait := defaultWait }

/-- The group-telegram part of `loop()`, bcu_default.cpp:131-149, reached if no frame is being sent, sending is enabled
and the application runs. `t1`, `t2`, `t3` are the times of the three calls of `millis()`, `tq` the time at which the
telegram is queued, `ready` whether `sendNextGroupTelegram()` finds something to send. Result: new state and the time at
which a telegram was queued. -/
def loopGroup (s : St) (t1 tq t2 t3 : Nat) (ready : Bool) : St × Option Nat :=
  let r : St × Option Nat :=
    if elapsed t1 s.sent ≥ s.wait then
      if ready then ({ s with sent := t2 % 2 ^ 32 }, some tq) else (s, none)
    else (s, none)
  let s := r.1
  (if elapsed t3 s.sent ≥ 2000 then { s with sent := (s.sent + 1000) % 2 ^ 32 } else s, r.2)

/-- What happens to the device. -/
inductive Ev where
  | loop (t1 tq t2 t3 : Nat) (ready : Bool)
  | limit (n : Nat)

/-- One event: new state and the telegram queued, with the interval in force. -/
def step (s : St) : Ev → St × List (Nat × Nat)
  | .loop t1 tq t2 t3 ready =>
    match loopGroup s t1 tq t2 t3 ready with
    | (s', some t) => (s', [(t, s.wait)])
    | (s', none) => (s', [])
  | .limit n => (setLimit s n, [])

/-- A history: queued telegrams (time and interval in force), oldest first. -/
def run (s : St) : List Ev → St × List (Nat × Nat)
  | [] => (s, [])
  | e :: es => ((run (step s e).1 es).1, (step s e).2 ++ (run (step s e).1 es).2)

end Verif.Rate
